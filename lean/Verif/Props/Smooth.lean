import Verif.Lemmas.Smooth
import Verif.Props.Report

/-!
# C143: what the smoothed probability map shows

Vocabulary: Spec/Smooth.lean. Examples: Props/SmoothExamples.lean.
-/

namespace Oneka

open Finset PField

/-- **C143.** The smoothing does not change the shape of a table, and every entry becomes the average of the entries in the window around it, with bell-shaped weights; beyond the borders zeros are counted. -/
theorem C143_filter (g : Grid ℝ) (σ : ℝ) :
    (gaussianFilter g σ).rows = g.rows ∧ (gaussianFilter g σ).cols = g.cols ∧
      ∀ i j : ℕ, i < g.rows → j < g.cols → (gaussianFilter g σ).val i j = bellAverage σ fun d => g.beyond (i + d.1) (j + d.2) :=
  ⟨(filter_shape g σ).1, (filter_shape g σ).2, fun _ _ hi hj => filter_entry g σ hi hj⟩

/-- **C143.** It keeps the order of tables, and does nothing if `smooth` is less than 1/8. -/
theorem C143_monotone (g h : Grid ℝ) (σ : ℝ) (hr : h.rows = g.rows) (hc : h.cols = g.cols) (hle : ∀ i j, i < g.rows → j < g.cols → g.val i j ≤ h.val i j) (i j : ℕ) (hi : i < g.rows) (hj : j < g.cols) :
    (gaussianFilter g σ).val i j ≤ (gaussianFilter h σ).val i j ∧ (σ < 1/8 → (gaussianFilter g σ).val i j = g.val i j) := by
  rw [filter_entry g σ hi hj, filter_entry h σ (hr ▸ hi) (hc ▸ hj)]
  constructor
  · refine div_le_div_of_nonneg_right (Finset.sum_le_sum fun d _ => mul_le_mul_of_nonneg_left ?_ (bell_pos σ d).le) (bell_sum_pos σ).le
    unfold Grid.beyond
    rw [hr, hc]
    beta_reduce
    split_ifs with hin
    · exact hle _ _ (by omega) (by omega)
    · exact le_rfl
  · intro hs
    rw [average_single hs]
    simp [Grid.beyond, hi, hj]

/-- **C143.** What the probability map of a returning call shows. It has at least three columns and three rows, one cell apart; at every node it shows the average, with bell-shaped weights, of the archived
probabilities of the nodes around (zero where there is no node). So the values are between 0 and 1; they are 0 exactly where no node within reach has ever been captured, and 1 exactly where all places within reach are nodes that always have been. They add up to no more
than the archived probabilities: to the same exactly if everything within reach of a captured node is in the grid. -/
theorem C143_map (a : PyArgs) (n : Inputs) (env : CallEnv) (v : PyVal) (hd : a.Denotes n) (h1 : 1 < n.nrealizations) (h : (oneka a env).ending = .returns v) (fs : Files) (hg : env.gaussian = gaussianFilter) :
    ∃ (d : Dict) (f : PField ℝ) (pl : ProbabilityPlot) (pts : List (ℝ × ℝ)) (x0 y0 : ℝ),
      loadOneka ((oneka a env).events.foldl Effect.apply fs) env.now.archiveName = .ok d ∧ d.get "pfield" = some (.field (.field f)) ∧ figures (oneka a env).events = [.probability pl, .impact pts] ∧
      3 ≤ pl.x.length ∧ 3 ≤ pl.y.length ∧ pl.z.cols = pl.x.length ∧ pl.z.rows = pl.y.length ∧
      (∀ j < pl.x.length, pl.x[j]? = some (x0 + j * n.run.spacing)) ∧ (∀ i < pl.y.length, pl.y[i]? = some (y0 + i * n.run.spacing)) ∧ 0 < n.run.spacing ∧
      (∀ (i j : ℕ) (x y : ℝ), pl.x[j]? = some x → pl.y[i]? = some y →
        pl.z.val i j = bellAverage n.smooth (fun d => f.probAt (x + d.2 * n.run.spacing) (y + d.1 * n.run.spacing)) ∧
        0 ≤ pl.z.val i j ∧ pl.z.val i j ≤ 1 ∧
        (pl.z.val i j = 0 ↔ ∀ d ∈ smoothWindow n.smooth, f.weightAt (x + d.2 * n.run.spacing) (y + d.1 * n.run.spacing) = 0) ∧
        (pl.z.val i j = 1 ↔ ∀ d ∈ smoothWindow n.smooth, f.weightAt (x + d.2 * n.run.spacing) (y + d.1 * n.run.spacing) = n.nrealizations) ∧
        (n.smooth < 1/8 → pl.z.val i j = f.probAt x y)) ∧
      ∑ i ∈ range pl.y.length, ∑ j ∈ range pl.x.length, pl.z.val i j ≤ ∑ i ∈ range pl.y.length, ∑ j ∈ range pl.x.length, f.probAt (x0 + j * n.run.spacing) (y0 + i * n.run.spacing) ∧
      (∑ i ∈ range pl.y.length, ∑ j ∈ range pl.x.length, pl.z.val i j = ∑ i ∈ range pl.y.length, ∑ j ∈ range pl.x.length, f.probAt (x0 + j * n.run.spacing) (y0 + i * n.run.spacing) ↔
        ∀ x y, 0 < f.weightAt x y → ∀ d ∈ smoothWindow n.smooth, f.IsNode (x + d.2 * n.run.spacing) (y + d.1 * n.run.spacing)) := by
  obtain ⟨-, -, ha, -⟩ := returned_course h
  obtain ⟨⟨k, t, hk, ht⟩, -, hsp, -, hsm, -⟩ := accepted_inputs ha hd
  rcases returned_cases hd h with ⟨-, obs, cols, r, f, pl, im, lines, H⟩ | ⟨h2, -⟩
  swap
  · omega
  obtain ⟨d, hd1, hd2⟩ := archived_field h H.archived fs
  have hrun := H.run
  rw [show n.nrealizations = ((n.nrealizations.toNat : ℕ) : ℤ) by omega] at hrun
  obtain ⟨-, c2, c3, -, -, -, c7, c8⟩ := C44_frequencies { n.run with obs := obs } n.nrealizations.toNat k env.run t hk ht hrun H.outcome
  simp only at c7 c8
  have wf := reachable_wf H.reachable
  obtain ⟨b, hb⟩ : ∃ b, f.body = some b := by
    cases e : f.body with
    | none => have := H.total; unfold PField.total at this; rw [e] at this; exact absurd this (lt_irrefl _)
    | some b => exact ⟨b, rfl⟩
  obtain ⟨hr, hc, hxm, hym, hpr, hpc, -⟩ := wf.grid b hb
  have hN : (n.nrealizations.toNat : ℝ) = n.nrealizations := by
    have : ((n.nrealizations.toNat : ℤ)) = n.nrealizations := by omega
    exact_mod_cast this
  have ht0 : 0 < f.total := H.total
  have hp0 : ∀ X Y, 0 ≤ f.probAt X Y := by
    intro X Y
    obtain ⟨m, -, hm⟩ := c3 X Y
    unfold PField.probAt
    rw [hm]
    positivity
  have hp1 : ∀ X Y, f.probAt X Y ≤ 1 := by
    intro X Y
    obtain ⟨m, hle, hm⟩ := c3 X Y
    unfold PField.probAt
    rw [hm, div_le_one ht0, c2]
    exact_mod_cast hle
  have hp0' : ∀ X Y, f.probAt X Y = 0 ↔ f.weightAt X Y = 0 := fun X Y => by
    unfold PField.probAt
    rw [div_eq_zero_iff, or_iff_left ht0.ne']
  have hp1' : ∀ X Y, f.probAt X Y = 1 ↔ f.weightAt X Y = n.nrealizations := fun X Y => by
    unfold PField.probAt
    rw [div_eq_one_iff_eq ht0.ne', c2, hN]
  -- the plot
  obtain ⟨pz, px, py⟩ : pl.z = gaussianFilter (normalized b) n.smooth ∧ pl.x = linspace b.xmin b.xmax f.ncols ∧ pl.y = linspace b.ymin b.ymax f.nrows := by
    have hpl := H.plot
    unfold createProbabilityPlot at hpl
    rw [hb] at hpl
    simp only at hpl
    split at hpl
    · simp at hpl
    · split at hpl
      · simp at hpl
      · rw [hg] at hpl
        obtain rfl := Except.ok.inj hpl
        exact ⟨rfl, rfl, rfl⟩
  have lx : pl.x.length = f.ncols := by rw [px, linspace_length]
  have ly : pl.y.length = f.nrows := by rw [py, linspace_length]
  have hX : ∀ j < pl.x.length, pl.x[j]? = some (b.xmin + j * n.run.spacing) := by
    intro j hj
    rw [lx] at hj
    rw [px, hxm, ← c7]
    exact linspace_grid _ _ _ _ (by omega) hj
  have hY : ∀ i < pl.y.length, pl.y[i]? = some (b.ymin + i * n.run.spacing) := by
    intro i hi
    rw [ly] at hi
    rw [py, hym, ← c8]
    exact linspace_grid _ _ _ _ (by omega) hi
  have hnode : ∀ i j : ℤ, f.IsNode (b.xmin + j * n.run.spacing) (b.ymin + i * n.run.spacing) ↔ 0 ≤ i ∧ i < f.nrows ∧ 0 ≤ j ∧ j < f.ncols := by
    intro i j
    constructor
    · rintro ⟨b', hb', i', j', hi', hj', e1, e2⟩
      obtain rfl := Option.some.inj (hb'.symm.trans hb)
      rw [c7, add_right_inj] at e1
      rw [c8, add_right_inj] at e2
      have e1 : (j:ℝ) = ((j':ℤ):ℝ) := by push_cast; exact mul_right_cancel₀ hsp.ne' e1
      have e2 : (i:ℝ) = ((i':ℤ):ℝ) := by push_cast; exact mul_right_cancel₀ hsp.ne' e2
      have e1 := Int.cast_injective e1
      have e2 := Int.cast_injective e2
      omega
    · rintro ⟨i0, i1, j0, j1⟩
      refine ⟨b, hb, i.toNat, j.toNat, by omega, by omega, ?_, ?_⟩
      · rw [c7, show ((j.toNat : ℕ) : ℝ) = ((j.toNat : ℤ) : ℝ) by push_cast; rfl, Int.toNat_of_nonneg j0]
      · rw [c8, show ((i.toNat : ℕ) : ℝ) = ((i.toNat : ℤ) : ℝ) by push_cast; rfl, Int.toNat_of_nonneg i0]
  have hbeyond : ∀ i j : ℤ, (normalized b).beyond i j = f.probAt (b.xmin + j * n.run.spacing) (b.ymin + i * n.run.spacing) := by
    intro i j
    unfold Grid.beyond
    rw [show (normalized b).rows = f.nrows from hpr, show (normalized b).cols = f.ncols from hpc]
    split_ifs with hin
    · have := probAt_cell wf hb (c := (i.toNat, j.toNat)) (mem_cells.mpr ⟨by omega, by omega⟩)
      rw [← this]
      unfold cellPos
      simp only
      rw [c7, c8, show ((j.toNat : ℕ) : ℝ) = ((j.toNat : ℤ) : ℝ) by push_cast; rfl, Int.toNat_of_nonneg hin.2.2.1, show ((i.toNat : ℕ) : ℝ) = ((i.toNat : ℤ) : ℝ) by push_cast; rfl, Int.toNat_of_nonneg hin.1]
    · have : ¬ f.IsNode (b.xmin + j * n.run.spacing) (b.ymin + i * n.run.spacing) := fun hn => hin ((hnode i j).mp hn)
      unfold PField.probAt
      rw [weight_off this, zero_div]
  have hz : ∀ i j : ℕ, i < f.nrows → j < f.ncols → pl.z.val i j = bellAverage n.smooth fun d => f.probAt (b.xmin + j * n.run.spacing + d.2 * n.run.spacing) (b.ymin + i * n.run.spacing + d.1 * n.run.spacing) := by
    intro i j hi hj
    rw [pz, filter_entry _ _ (show i < (normalized b).rows from hpr ▸ hi) (show j < (normalized b).cols from hpc ▸ hj)]
    congr 1
    funext d
    rw [hbeyond]
    congr 1 <;> · push_cast; ring
  refine ⟨d, f, pl, im.drawn, b.xmin, b.ymin, hd1, hd2, H.figures_eq, by rw [lx]; omega, by rw [ly]; omega, ?_, ?_, hX, hY, hsp, ?_, ?_⟩
  · rw [lx, pz, (filter_shape _ _).2]
    exact hpc
  · rw [ly, pz, (filter_shape _ _).1]
    exact hpr
  · intro i j x y hx hy
    have hj : j < pl.x.length := (List.getElem?_eq_some_iff.mp hx).1
    have hi : i < pl.y.length := (List.getElem?_eq_some_iff.mp hy).1
    rw [hX j hj] at hx
    rw [hY i hi] at hy
    obtain rfl := Option.some.inj hx
    obtain rfl := Option.some.inj hy
    have e := hz i j (ly ▸ hi) (lx ▸ hj)
    refine ⟨e, ?_, ?_, ?_, ?_, ?_⟩
    · rw [e]
      exact average_nonneg fun d _ => hp0 _ _
    · rw [e]
      exact average_le fun d _ => hp1 _ _
    · rw [e, average_zero fun d _ => hp0 _ _]
      exact forall₂_congr fun d _ => hp0' _ _
    · rw [e, average_one fun d _ => hp1 _ _]
      exact forall₂_congr fun d _ => hp1' _ _
    · intro hs
      rw [e, average_single hs]
      simp
  · set G : Finset (ℤ × ℤ) := Finset.Ico 0 (f.nrows : ℤ) ×ˢ Finset.Ico 0 (f.ncols : ℤ) with hG
    set P : ℤ × ℤ → ℝ := fun q => f.probAt (b.xmin + q.2 * n.run.spacing) (b.ymin + q.1 * n.run.spacing) with hP
    have hmem : ∀ q : ℤ × ℤ, q ∈ G ↔ f.IsNode (b.xmin + q.2 * n.run.spacing) (b.ymin + q.1 * n.run.spacing) := by
      intro q
      rw [hnode, hG, Finset.mem_product, Finset.mem_Ico, Finset.mem_Ico, and_assoc]
    have hout : ∀ q, q ∉ G → P q = 0 := by
      intro q hq
      rw [hmem] at hq
      simp only [hP]
      unfold PField.probAt
      rw [weight_off hq, zero_div]
    have hsum : ∀ F : ℤ → ℤ → ℝ, ∑ i ∈ range pl.y.length, ∑ j ∈ range pl.x.length, F i j = ∑ q ∈ G, F q.1 q.2 := by
      intro F
      have one : ∀ (m : ℕ) (K : ℤ → ℝ), ∑ i ∈ range m, K i = ∑ i ∈ Finset.Ico 0 (m:ℤ), K i := by
        intro m K
        refine Finset.sum_bij (fun (i : ℕ) _ => (i:ℤ)) ?_ ?_ ?_ ?_
        · intro i hi
          rw [Finset.mem_range] at hi
          rw [Finset.mem_Ico]
          omega
        · intro _ _ _ _ e
          exact Int.natCast_inj.mp e
        · intro q hq
          rw [Finset.mem_Ico] at hq
          exact ⟨q.toNat, by rw [Finset.mem_range]; omega, by omega⟩
        · intros
          rfl
      rw [hG, Finset.sum_product, lx, ly, one f.nrows fun i => ∑ j ∈ range f.ncols, F i j]
      exact Finset.sum_congr rfl fun i _ => one f.ncols fun j => F i j
    have s1 : ∑ i ∈ range pl.y.length, ∑ j ∈ range pl.x.length, pl.z.val i j = ∑ q ∈ G, bellAverage n.smooth fun d => P (q + d) := by
      rw [← hsum fun i j => bellAverage n.smooth fun d => P ((i, j) + d)]
      refine Finset.sum_congr rfl fun i hi => Finset.sum_congr rfl fun j hj => ?_
      rw [Finset.mem_range] at hi hj
      rw [hz i j (ly ▸ hi) (lx ▸ hj)]
      congr 1
      funext d
      simp only [hP, Prod.fst_add, Prod.snd_add]
      congr 1 <;> · push_cast; ring
    have s2 : ∑ i ∈ range pl.y.length, ∑ j ∈ range pl.x.length, f.probAt (b.xmin + j * n.run.spacing) (b.ymin + i * n.run.spacing) = ∑ q ∈ G, P q := by
      rw [← hsum fun i j => P (i, j)]
      simp [hP]
    rw [s1, s2]
    obtain ⟨m1, m2⟩ := sum_average (G := G) (P := P) (fun q => hp0 _ _) hout n.smooth
    refine ⟨m1, m2.trans ?_⟩
    have hneg : ∀ d : ℤ × ℤ, d ∈ smoothWindow n.smooth ↔ -d ∈ smoothWindow n.smooth := by
      intro d
      unfold smoothWindow
      simp only [Finset.mem_product, Finset.mem_Icc, Prod.fst_neg, Prod.snd_neg]
      omega
    constructor
    · intro hall x y hpos d hdw
      have hn : f.IsNode x y := by
        by_contra hn
        exact hpos.ne' (weight_off hn)
      obtain ⟨b', hb', i, j, hi, hj, rfl, rfl⟩ := hn
      obtain rfl := Option.some.inj (hb'.symm.trans hb)
      rw [c7, c8] at hpos ⊢
      have := hall ((i:ℤ), (j:ℤ)) (by rw [hG, Finset.mem_product, Finset.mem_Ico, Finset.mem_Ico]; simp [hi, hj]) (by
        simp only [hP]
        unfold PField.probAt
        exact div_pos (by push_cast; exact hpos) ht0) (-d) ((hneg d).mp hdw)
      rw [hmem] at this
      convert this using 1 <;> · simp; ring
    · intro hall q hq hpos d hdw
      rw [hmem]
      have hw : 0 < f.weightAt (b.xmin + q.2 * n.run.spacing) (b.ymin + q.1 * n.run.spacing) := by
        have : 0 < f.weightAt (b.xmin + q.2 * n.run.spacing) (b.ymin + q.1 * n.run.spacing) / f.total := hpos
        exact (div_pos_iff_of_pos_right ht0).mp this
      have := hall _ _ hw (-d) ((hneg d).mp hdw)
      convert this using 1 <;> · simp; ring

end Oneka
