import Verif.Lemmas.PropsVisualize

/-!
# C53–C57, C66, C67: the plots and the tables made from a probability field
-/

namespace Oneka

open PField

/-- A reachable field: one track from (0,0) to (1/2,0) with umbra 1 on a unit grid, registered with weight 1. -/
theorem plot_example : ∃ f : PField ℝ, f.Reachable ∧ f.total = 1 ∧ f.deltax = 1 ∧ (∃ p ∈ f.nodesWhere (fun v => v = 1), p = (0, 0)) ∧
    ∃ p ∈ f.nodesWhere (fun v => v = 0), p = (-1, -1) := by
  obtain ⟨f0, b, hnew, hb, fx, fy, fr, fc, bx0, bx1, by0, by1, -⟩ := new_origin (1:ℝ) 1 0 0 one_pos one_pos
  obtain ⟨f, hrun, ht, hw, -⟩ := C12_accumulation hnew [.track [(0, 0), (1/2, 0)] 1, .register 1] (by simp [Event.Valid])
  have ht1 : f.total = 1 := by rw [ht]; simp [registered]
  have hnode := (C02_lattice hnew hrun).2.1
  have n00 : f0.IsNode 0 0 := ⟨b, hb, 1, 1, by omega, by omega, by rw [bx0, fx]; norm_num, by rw [by0, fy]; norm_num⟩
  have n11 : f0.IsNode (-1) (-1) := ⟨b, hb, 0, 0, by omega, by omega, by rw [bx0, fx]; norm_num, by rw [by0, fy]; norm_num⟩
  have near : ∀ X Y : ℝ, NearTrack [(0, 0), (1/2, 0)] 1 X Y ↔ NearSegment (0:ℝ) 0 (1/2) 0 1 X Y := by
    intro X Y
    constructor
    · rintro ⟨a, b, hab, -, h⟩
      have : [a, b] = [((0:ℝ), (0:ℝ)), (1/2, 0)] := hab.eq_of_length rfl
      simp only [List.cons.injEq, and_true] at this
      obtain ⟨rfl, rfl⟩ := this
      exact h
    · intro h
      exact ⟨(0, 0), (1/2, 0), List.infix_refl _, by norm_num, h⟩
  have w : ∀ X Y : ℝ, f0.IsNode X Y → OnLattice 0 0 1 1 X Y → f.weightAt X Y = visitWeight [⟨[([(0, 0), (1/2, 0)], 1)], 1⟩] X Y := by
    intro X Y hn hl
    rw [(hw X Y hl (Or.inl hn)).1]
    rfl
  refine ⟨f, ⟨1, 1, some 0, some 0, f0, _, hnew, hrun⟩, ht1, ?_, ⟨(0, 0), ⟨hnode _ _ n00, ?_⟩, rfl⟩, ⟨(-1, -1), ⟨hnode _ _ n11, ?_⟩, rfl⟩⟩
  · obtain ⟨f', e, hdx, -⟩ := C01_geometry hnew ([.track [(0, 0), (1/2, 0)] 1, .register 1].map Event.call)
    rw [hrun] at e
    obtain rfl := Option.some.inj e
    exact hdx
  · show f.weightAt 0 0 / f.total = 1
    rw [ht1, w 0 0 n00 ⟨0, 0, by simp, by simp⟩]
    unfold visitWeight
    rw [List.map_singleton, if_pos]
    · simp
    · exact ⟨([(0, 0), (1/2, 0)], 1), List.mem_singleton.mpr rfl, (near 0 0).mpr ⟨0, le_rfl, zero_le_one, by norm_num⟩⟩
  · show f.weightAt (-1) (-1) / f.total = 0
    rw [ht1, w (-1) (-1) n11 ⟨-1, -1, by simp, by simp⟩]
    unfold visitWeight
    rw [List.map_singleton, if_neg]
    · simp
    · rintro ⟨t, ht, h⟩
      obtain rfl := List.mem_singleton.mp ht
      obtain ⟨s, s0, s1, h⟩ := (near _ _).mp h
      nlinarith

/-! ## C53 -/

open Classical in
/-- C53: the impact curve is the sorted exceedance curve. `pr` is non-increasing and contains each probability as often as there are nodes with it (so it lists all
nodes); `area[k] = (k+1)·spacing²`; for every threshold, the entries above it are the first ones, as many as there are nodes above it. -/
theorem C53_impact (f : PField ℝ) (hf : f.Reachable) (ht : 0 < f.total) (spacing : ℝ) :
    ∃ im, createImpactPlot spacing f = .ok im ∧ im.pr.Pairwise (· ≥ ·) ∧
      (∀ P : ℝ → Prop, (f.nodesWhere P).Finite ∧ im.pr.countP (fun v => P v) = (f.nodesWhere P).ncard) ∧
      im.area.length = im.pr.length ∧ (∀ (k : ℕ) (a : ℝ), im.area[k]? = some a → a = ((k:ℝ) + 1) * spacing ^ 2) ∧
      ∀ (p : ℝ) (k : ℕ) (v : ℝ), im.pr[k]? = some v → (p < v ↔ k < (f.nodesWhere (fun v => p < v)).ncard) := by
  have wf := reachable_wf hf
  obtain ⟨b, hb⟩ : ∃ b, f.body = some b := by
    cases h : f.body with
    | none => unfold PField.total at ht; rw [h] at ht; exact absurd ht (lt_irrefl _)
    | some b => exact ⟨b, rfl⟩
  have htb : 0 < b.totalWeight := by rw [← total_eq hb]; exact ht
  have hcount : ∀ P : ℝ → Prop, ((((normalized b).flat.mergeSort fun u v => decide (u ≤ v)).reverse).countP (fun v => P v)) =
      (f.nodesWhere P).ncard := by
    intro P
    rw [(desc_perm _).countP_eq, count_flat wf hb]
  obtain ⟨im, e, epr, earea⟩ : ∃ im, createImpactPlot spacing f = .ok im ∧
      im.pr = ((normalized b).flat.mergeSort fun u v => decide (u ≤ v)).reverse ∧
      im.area = (List.range im.pr.length).map fun (k : ℕ) => ((k : ℝ) + 1) * spacing ^ 2 := by
    unfold createImpactPlot
    rw [hb]
    simp only
    rw [if_neg (not_le.mpr htb)]
    exact ⟨_, rfl, rfl, rfl⟩
  refine ⟨im, e, ?_, fun P => ⟨(count_cells wf hb P).2, ?_⟩, ?_, ?_, ?_⟩
  · rw [epr]; exact desc_sorted _
  · rw [epr]; exact hcount P
  · rw [earea]; simp
  · intro k a hk
    rw [earea, List.getElem?_map, Option.map_eq_some_iff] at hk
    obtain ⟨x, hx, rfl⟩ := hk
    obtain ⟨hlt, hx⟩ := List.getElem?_eq_some_iff.mp hx
    rw [← hx, List.getElem_range]
  · intro p k v hk
    rw [epr] at hk
    rw [sorted_prefix _ (desc_sorted _) p k v hk]
    have : (fun v : ℝ => @decide (p < v) (Real.decidableLT p v)) = fun v => @decide (p < v) (Classical.propDecidable _) := by
      funext v; congr
    rw [this, hcount]

/-- C53: with non-negative weights all entries lie in [0, 1]. -/
theorem C53_range {dx dy : ℝ} {xo yo : Option ℝ} {f0 f : PField ℝ} {cs : List (PField.Call ℝ)} (h0 : PField.new dx dy xo yo = .ok f0)
    (hw : ∀ w, PField.Call.register w ∈ cs → 0 ≤ w) (h : f0.run cs = some f) (ht : 0 < f.total) (spacing : ℝ) :
    ∃ im, createImpactPlot spacing f = .ok im ∧ ∀ v ∈ im.pr, 0 ≤ v ∧ v ≤ 1 := by
  classical
  obtain ⟨im, e, -, hc, -⟩ := C53_impact f ⟨dx, dy, xo, yo, f0, cs, h0, h⟩ ht spacing
  refine ⟨im, e, fun v hv => ?_⟩
  obtain ⟨hfin, hcount⟩ := hc (fun w => w = v)
  have hpos : 0 < im.pr.countP (fun w => decide (w = v)) := List.countP_pos_iff.mpr ⟨v, hv, by simp⟩
  rw [hcount, Set.ncard_pos hfin] at hpos
  obtain ⟨p, -, hp⟩ := hpos
  have := (C13_probability_bounds h0 hw h p.1 p.2).2.2 ht
  rw [← hp]
  exact this

example : ∃ f : PField ℝ, f.Reachable ∧ 0 < f.total := by
  obtain ⟨f, h, ht, -⟩ := plot_example
  exact ⟨f, h, by rw [ht]; exact one_pos⟩

/-! ## C54 -/

theorem ncard_split (f : PField ℝ) (hf : f.Reachable) (ht : 0 < f.total) (P : ℝ → Prop) :
    (f.nodesWhere P).ncard + (f.nodesWhere (fun v => ¬ P v)).ncard = (f.nodesWhere (fun _ => True)).ncard := by
  classical
  obtain ⟨im, -, -, hc, -⟩ := C53_impact f hf ht 1
  rw [← (hc P).2, ← (hc _).2, ← (hc (fun _ => True)).2]
  have := im.pr.length_eq_countP_add_countP (fun v => decide (P v))
  simp only [decide_true, List.countP_true]
  rw [this]
  congr 1
  refine List.countP_congr fun v _ => ?_
  simp

/-- The line of the table for a threshold at or above some probability. -/
theorem decile_line (f : PField ℝ) (hf : f.Reachable) (ht : 0 < f.total) (spacing : ℝ) (im : Impact) (him : createImpactPlot spacing f = .ok im)
    (p : ℝ) (hp : (f.nodesWhere (fun v => v ≤ p)).Nonempty) :
    ∃ v a, decile im p = .ok (v, a) ∧ IsGreatest {v | v ≤ p ∧ ∃ n ∈ f.nodesWhere (fun w => w = v), True} v ∧
      a = f.areaWhere spacing (fun v => p < v) + spacing ^ 2 := by
  classical
  obtain ⟨im', e, hs, hc, hl, ha, hpre⟩ := C53_impact f hf ht spacing
  obtain rfl : im' = im := by rw [e] at him; exact Except.ok.inj him
  have hmem : ∀ v, v ∈ im'.pr ↔ (f.nodesWhere (fun w => w = v)).Nonempty := by
    intro v
    obtain ⟨hfin, hcount⟩ := hc (fun w => w = v)
    rw [← Set.ncard_pos hfin, ← hcount, List.countP_pos_iff]
    simp
  obtain ⟨n, hn, hnp⟩ := hp
  have hv0 : f.probAt n.1 n.2 ∈ im'.pr := (hmem _).mpr ⟨n, hn, rfl⟩
  obtain ⟨h1, h2⟩ := argmax_first (im'.pr.map fun v => decide (v ≤ p)) (List.mem_map.mpr ⟨_, hv0, by simpa using hnp⟩)
  set i := argmax (im'.pr.map fun v => decide (v ≤ p)) with hi
  obtain ⟨v, hv, hvp⟩ : ∃ v, im'.pr[i]? = some v ∧ v ≤ p := by
    rw [List.getElem?_map, Option.map_eq_some_iff] at h1
    obtain ⟨v, hv, hd⟩ := h1
    exact ⟨v, hv, by simpa using hd⟩
  obtain ⟨hilt, hvi⟩ := List.getElem?_eq_some_iff.mp hv
  have hai : im'.area[i]? = some (((i:ℝ) + 1) * spacing ^ 2) := by
    have hlt : i < im'.area.length := by omega
    rw [List.getElem?_eq_getElem hlt]
    rw [ha i _ (List.getElem?_eq_getElem hlt)]
  -- exactly i entries exceed p
  have hcard : (f.nodesWhere (fun v => p < v)).ncard = i := by
    apply le_antisymm
    · by_contra hlt
      exact absurd ((hpre p i v hv).mpr (by omega)) (not_lt.mpr hvp)
    · by_contra hlt
      have hk : i - 1 < i := by omega
      have hk2 : i - 1 < im'.pr.length := by omega
      have h3 := h2 (i - 1) hk
      rw [List.getElem?_map, List.getElem?_eq_getElem hk2] at h3
      have h4 : p < im'.pr[i-1] := by simpa using h3
      have h5 := (hpre p (i-1) _ (List.getElem?_eq_getElem hk2)).mp h4
      omega
  refine ⟨v, ((i:ℝ) + 1) * spacing ^ 2, ?_, ⟨⟨hvp, ?_⟩, ?_⟩, ?_⟩
  · unfold decile
    simp only [← hi, hv, hai]
  · obtain ⟨n, hn⟩ := (hmem v).mp (List.mem_of_getElem? hv)
    exact ⟨n, hn, trivial⟩
  · rintro w ⟨hwp, n, hn, -⟩
    have hw := (hmem w).mpr ⟨n, hn⟩
    obtain ⟨k, hk, rfl⟩ := List.mem_iff_getElem.mp hw
    by_cases hki : k < i
    · have h3 := h2 k hki
      rw [List.getElem?_map, List.getElem?_eq_getElem hk] at h3
      have h4 : p < im'.pr[k] := by simpa using h3
      exact absurd hwp (not_le.mpr h4)
    · rcases (not_lt.mp hki).eq_or_lt with h6 | h6
      · subst h6; rw [← hvi]
      · have := List.pairwise_iff_getElem.mp hs i k hilt hk h6
        rw [← hvi]; exact this
  · unfold areaWhere
    rw [hcard]
    ring

/-- The line of the table for a threshold below all probabilities. -/
theorem decile_none (f : PField ℝ) (hf : f.Reachable) (ht : 0 < f.total) (spacing : ℝ) (im : Impact) (him : createImpactPlot spacing f = .ok im)
    (p : ℝ) (hp : f.nodesWhere (fun v => v ≤ p) = ∅) :
    ∃ v, decile im p = .ok (v, spacing ^ 2) ∧ IsGreatest {v | ∃ n ∈ f.nodesWhere (fun w => w = v), True} v := by
  classical
  obtain ⟨im', e, hs, hc, hl, ha, -⟩ := C53_impact f hf ht spacing
  obtain rfl : im' = im := by rw [e] at him; exact Except.ok.inj him
  have hmem : ∀ v, v ∈ im'.pr ↔ (f.nodesWhere (fun w => w = v)).Nonempty := by
    intro v
    obtain ⟨hfin, hcount⟩ := hc (fun w => w = v)
    rw [← Set.ncard_pos hfin, ← hcount, List.countP_pos_iff]
    simp
  have hlen : im'.pr.length = (f.nodesWhere (fun _ => True)).ncard := by
    rw [← (hc _).2]; simp
  have h9 := at_least_nine f hf ht
  have h0 : argmax (im'.pr.map fun v => decide (v ≤ p)) = 0 := by
    apply argmax_none
    intro hm
    obtain ⟨v, hv, hvp⟩ := List.mem_map.mp hm
    obtain ⟨n, hn, hnv⟩ := (hmem v).mp hv
    have : n ∈ f.nodesWhere (fun v => v ≤ p) := ⟨hn, by show f.probAt n.1 n.2 ≤ p; rw [hnv]; simpa using hvp⟩
    rw [hp] at this
    exact this
  refine ⟨im'.pr[0]'(by omega), ?_, ?_, ?_⟩
  · unfold decile
    simp only [h0]
    rw [List.getElem?_eq_getElem (by omega), List.getElem?_eq_getElem (by omega)]
    have := ha 0 _ (List.getElem?_eq_getElem (by omega))
    simp only [this]
    norm_num
  · obtain ⟨n, hn⟩ := (hmem _).mp (List.getElem_mem (h := (by omega : 0 < im'.pr.length)))
    exact ⟨n, hn, trivial⟩
  · rintro v ⟨n, hn, -⟩
    obtain ⟨k, hk, rfl⟩ := List.mem_iff_getElem.mp ((hmem v).mpr ⟨n, hn⟩)
    rcases Nat.eq_zero_or_pos k with rfl | h
    · exact le_rfl
    · exact List.pairwise_iff_getElem.mp hs 0 k _ hk h

/-- The line number `i` is the one for the threshold `0.05 * (i + 1)`. -/
theorem decile_lines (im : Impact) (t : List (ℝ × ℝ)) (h : decileTable im = .ok t) :
    t.length = 19 ∧ ∀ (i : ℕ) (l : ℝ × ℝ), t[i]? = some l → decile im (5/100 * ((i:ℝ) + 1)) = .ok l := by
  have key : ∀ (ps : List ℝ) (t : List (ℝ × ℝ)), decileLoop im ps = .ok t →
      t.length = ps.length ∧ ∀ (i : ℕ) (l : ℝ × ℝ), t[i]? = some l → ∃ p, ps[i]? = some p ∧ decile im p = .ok l := by
    intro ps
    induction ps with
    | nil =>
      intro t h
      obtain rfl := Except.ok.inj h
      simp
    | cons p ps ih =>
      intro t h
      rw [decileLoop] at h
      split at h
      · simp at h
      rename_i r hr
      split at h
      · simp at h
      rename_i rs hrs
      obtain rfl := Except.ok.inj h
      obtain ⟨h1, h2⟩ := ih rs hrs
      refine ⟨by simp [h1], fun i l hl => ?_⟩
      cases i with
      | zero => exact ⟨p, rfl, by rw [hr]; simpa using hl⟩
      | succ i => simpa using h2 i l (by simpa using hl)
  obtain ⟨h1, h2⟩ := key _ t h
  refine ⟨by rw [h1, linspace_length], fun i l hl => ?_⟩
  obtain ⟨p, hp, hd⟩ := h2 i l hl
  have hi : i < 19 := by
    have := (List.getElem?_eq_some_iff.mp hl).1
    rwa [h1, linspace_length] at this
  rw [linspace_get _ _ _ _ hi] at hp
  obtain rfl := Option.some.inj hp
  rw [← hd]
  congr 1
  push_cast
  ring

/-- The table exists. -/
theorem decile_total (f : PField ℝ) (hf : f.Reachable) (ht : 0 < f.total) (spacing : ℝ) (im : Impact) (him : createImpactPlot spacing f = .ok im) :
    ∃ t, decileTable im = .ok t := by
  have key : ∀ ps : List ℝ, ∃ t, decileLoop im ps = .ok t := by
    intro ps
    induction ps with
    | nil => exact ⟨[], rfl⟩
    | cons p ps ih =>
      obtain ⟨t, h1⟩ := ih
      have : ∃ r, decile im p = .ok r := by
        by_cases hp : (f.nodesWhere (fun v => v ≤ p)).Nonempty
        · obtain ⟨v, a, h, -⟩ := decile_line f hf ht spacing im him p hp
          exact ⟨_, h⟩
        · obtain ⟨v, h, -⟩ := decile_none f hf ht spacing im him p (Set.not_nonempty_iff_eq_empty.mp hp)
          exact ⟨_, h⟩
      obtain ⟨r, hr⟩ := this
      exact ⟨r :: t, by unfold decileLoop; simp only [hr, h1]⟩
  exact key _

/-- C54, what the table really shows. It has 19 lines, for the thresholds 5 %, 10 %, ..., 95 %. If some node has at most that probability, the line shows the largest such probability, and an area that is
one cell larger than the area of the nodes above the threshold. If there is no such node, the line shows the largest probability of all and the area of one cell.
Missing: the claim itself, which is false (next theorem). -/
theorem C54_table_partial (f : PField ℝ) (hf : f.Reachable) (ht : 0 < f.total) (spacing : ℝ) (im : Impact) (him : createImpactPlot spacing f = .ok im) :
    ∃ t, decileTable im = .ok t ∧ t.length = 19 ∧ ∀ (i : ℕ) (v a : ℝ), t[i]? = some (v, a) →
      ((f.nodesWhere (fun w => w ≤ 5/100 * ((i:ℝ) + 1))).Nonempty →
        IsGreatest {v | v ≤ 5/100 * ((i:ℝ) + 1) ∧ ∃ n ∈ f.nodesWhere (fun w => w = v), True} v ∧ a = f.areaWhere spacing (fun w => 5/100 * ((i:ℝ) + 1) < w) + spacing ^ 2) ∧
      (f.nodesWhere (fun w => w ≤ 5/100 * ((i:ℝ) + 1)) = ∅ → IsGreatest {v | ∃ n ∈ f.nodesWhere (fun w => w = v), True} v ∧ a = spacing ^ 2) := by
  obtain ⟨t, h⟩ := decile_total f hf ht spacing im him
  obtain ⟨h1, h2⟩ := decile_lines im t h
  refine ⟨t, h, h1, fun i v a hi => ⟨fun hp => ?_, fun hp => ?_⟩⟩
  · obtain ⟨v', a', q1, q2, q3⟩ := decile_line f hf ht spacing im him _ hp
    rw [h2 i _ hi, Except.ok.injEq, Prod.mk.injEq] at q1
    rw [q1.1, q1.2]
    exact ⟨q2, q3⟩
  · obtain ⟨v', q1, q2⟩ := decile_none f hf ht spacing im him _ hp
    rw [h2 i _ hi, Except.ok.injEq, Prod.mk.injEq] at q1
    rw [q1.1, q1.2]
    exact ⟨q2, rfl⟩

/-- C54 is false for every field and every line of the table: the area is never the area over which the probability of capture exceeds the threshold. -/
theorem C54_fails_always (f : PField ℝ) (hf : f.Reachable) (ht : 0 < f.total) (spacing : ℝ) (hs : spacing ≠ 0) (im : Impact)
    (him : createImpactPlot spacing f = .ok im) :
    ∃ t, decileTable im = .ok t ∧ t.length = 19 ∧ ∀ (i : ℕ) (v a : ℝ), t[i]? = some (v, a) → a ≠ f.areaWhere spacing (fun w => 5/100 * ((i:ℝ) + 1) < w) := by
  obtain ⟨t, h, h1, h2⟩ := C54_table_partial f hf ht spacing im him
  refine ⟨t, h, h1, fun i v a hi => ?_⟩
  have hs2 : 0 < spacing ^ 2 := by positivity
  by_cases hp : (f.nodesWhere (fun w => w ≤ 5/100 * ((i:ℝ) + 1))).Nonempty
  · rw [((h2 i v a hi).1 hp).2]
    linarith
  · rw [((h2 i v a hi).2 (Set.not_nonempty_iff_eq_empty.mp hp)).2]
    have hall : (f.nodesWhere (fun w => 5/100 * ((i:ℝ) + 1) < w)).ncard = (f.nodesWhere (fun _ => True)).ncard := by
      rw [← ncard_split f hf ht (fun w => 5/100 * ((i:ℝ) + 1) < w)]
      have : f.nodesWhere (fun w => ¬ 5/100 * ((i:ℝ) + 1) < w) = ∅ := by
        rw [Set.not_nonempty_iff_eq_empty] at hp
        rw [← hp]
        congr 1
        funext v
        exact propext not_lt
      rw [this]; simp
    unfold areaWhere
    rw [hall]
    have : (9:ℝ) ≤ ((f.nodesWhere (fun _ => True)).ncard : ℝ) := by exact_mod_cast at_least_nine f hf ht
    nlinarith

example : ∃ f : PField ℝ, f.Reachable ∧ 0 < f.total ∧ (f.nodesWhere (fun v => v ≤ 1/2)).Nonempty ∧
    (f.nodesWhere (fun v => 1/2 < v)).Nonempty := by
  obtain ⟨f, h, ht, -, ⟨p, hp, -⟩, ⟨q, hq, -⟩⟩ := plot_example
  refine ⟨f, h, by rw [ht]; exact one_pos, ⟨q, hq.1, ?_⟩, ⟨p, hp.1, ?_⟩⟩
  · have : f.probAt q.1 q.2 = 0 := hq.2
    show f.probAt q.1 q.2 ≤ 1/2
    rw [this]; norm_num
  · have : f.probAt p.1 p.2 = 1 := hp.2
    show 1/2 < f.probAt p.1 p.2
    rw [this]; norm_num

/-! ## C55 -/

/-- C55: the area returned is the area of the cells around the nodes with positive probability; the filled rectangles are these cells. Example: the field after C53. -/
theorem C55_area (f : PField ℝ) (hf : f.Reachable) (ht : 0 < f.total) (target : ℕ) (wells : List SWell) (t : SWell) (htw : wells[target]? = some t)
    (obs : List Obs) :
    ∃ d, createDeterministicPlot target wells obs f = .ok d ∧
      d.area = f.deltax * f.deltay * (f.nodesWhere (fun v => 0 < v)).ncard ∧
      (∀ r : Rect, r ∈ d.filled ↔ ∃ p ∈ f.nodesWhere (fun v => 0 < v),
        r = ⟨p.1 - f.deltax / 2, p.1 + f.deltax / 2, p.2 - f.deltay / 2, p.2 + f.deltay / 2⟩) ∧
      d.filled.length = (f.nodesWhere (fun v => 0 < v)).ncard ∧
      d.marks = ⟨wells.map fun w => (w.xw, w.yw), (t.xw, t.yw), obs.map fun o => (o.x, o.y)⟩ := by
  classical
  have wf := reachable_wf hf
  obtain ⟨b, hb⟩ : ∃ b, f.body = some b := by
    cases h : f.body with
    | none => unfold PField.total at ht; rw [h] at ht; exact absurd ht (lt_irrefl _)
    | some b => exact ⟨b, rfl⟩
  have htb : 0 < b.totalWeight := by rw [← total_eq hb]; exact ht
  obtain ⟨hr, hc, hxm, hym, hpr, hpc, -⟩ := wf.grid b hb
  have hX : ∀ k : ℕ, k < f.ncols → (linspace b.xmin b.xmax f.ncols)[k]? = some (b.xmin + k * f.deltax) := by
    intro k hk; rw [hxm]; exact linspace_grid _ _ _ _ (by omega) hk
  have hY : ∀ k : ℕ, k < f.nrows → (linspace b.ymin b.ymax f.nrows)[k]? = some (b.ymin + k * f.deltay) := by
    intro k hk; rw [hym]; exact linspace_grid _ _ _ _ (by omega) hk
  have eX : enumerate (linspace b.xmin b.xmax f.ncols) = (List.range f.ncols).map fun (k : ℕ) => (k, b.xmin + (k:ℝ) * f.deltax) := by
    rw [hxm]; exact enumerate_eq _ _ _ (by omega)
  have eY : enumerate (linspace b.ymin b.ymax f.nrows) = (List.range f.nrows).map fun (k : ℕ) => (k, b.ymin + (k:ℝ) * f.deltay) := by
    rw [hym]; exact enumerate_eq _ _ _ (by omega)
  have dX : b.xmin + ((1:ℕ):ℝ) * f.deltax - (b.xmin + ((0:ℕ):ℝ) * f.deltax) = f.deltax := by push_cast; ring
  have dY : b.ymin + ((1:ℕ):ℝ) * f.deltay - (b.ymin + ((0:ℕ):ℝ) * f.deltay) = f.deltay := by push_cast; ring
  have hrows := areaRows_ok (normalized b) f.deltax f.deltay (enumerate (linspace b.xmin b.xmax f.ncols)) (by
      rw [eX]
      intro p hp
      obtain ⟨k, hk, rfl⟩ := List.mem_map.mp hp
      show k < b.pgrid.cols
      rw [hpc]; exact List.mem_range.mp hk) (enumerate (linspace b.ymin b.ymax f.nrows)) ([], 0) (by
      rw [eY]
      intro p hp
      obtain ⟨k, hk, rfl⟩ := List.mem_map.mp hp
      show k < b.pgrid.rows
      rw [hpr]; exact List.mem_range.mp hk)
  have hmarks : markers target wells obs = .ok ⟨wells.map fun w => (w.xw, w.yw), (t.xw, t.yw), obs.map fun o => (o.x, o.y)⟩ := by
    unfold markers getWell
    simp only [if_false, Int.toNat_natCast, htw, Int.not_lt.mpr (Int.natCast_nonneg target)]
  -- the filled rectangles, cell by cell
  have hfill : (enumerate (linspace b.ymin b.ymax f.nrows)).flatMap (fun r =>
      ((enumerate (linspace b.xmin b.xmax f.ncols)).filter fun p => decide (0 < (normalized b).val r.1 p.1)).map fun p =>
        (⟨p.2 - f.deltax / 2, p.2 + f.deltax / 2, r.2 - f.deltay / 2, r.2 + f.deltay / 2⟩ : Rect)) =
      ((cells f.nrows f.ncols).filter fun c => decide (0 < (normalized b).val c.1 c.2)).map (cellRect f b) := by
    rw [eX, eY, List.flatMap_map]
    unfold cells
    rw [List.filter_flatMap, List.map_flatMap]
    congr 1
    funext i
    rw [List.filter_map, List.filter_map, List.map_map, List.map_map]
    rfl
  have hcnt : ((enumerate (linspace b.ymin b.ymax f.nrows)).map fun r =>
      (enumerate (linspace b.xmin b.xmax f.ncols)).countP fun p => decide (0 < (normalized b).val r.1 p.1)).sum =
      (cells f.nrows f.ncols).countP fun c => decide (0 < (normalized b).val c.1 c.2) := by
    rw [eX, eY, List.map_map]
    unfold cells
    rw [List.countP_flatMap]
    congr 1
    refine List.map_congr_left fun i _ => ?_
    simp only [Function.comp_apply, List.countP_map]
    rfl
  have hN := (count_cells wf hb (fun v => 0 < v)).1
  rw [hfill, hcnt] at hrows
  refine ⟨⟨((cells f.nrows f.ncols).filter fun c => decide (0 < (normalized b).val c.1 c.2)).map (cellRect f b),
    ⟨wells.map fun w => (w.xw, w.yw), (t.xw, t.yw), obs.map fun o => (o.x, o.y)⟩,
    0 + (((cells f.nrows f.ncols).countP fun c => decide (0 < (normalized b).val c.1 c.2) : ℕ) : ℝ) * (f.deltax * f.deltay)⟩, ?_, ?_, ?_, ?_, rfl⟩
  rotate_left 1
  · show 0 + (((cells f.nrows f.ncols).countP fun c => decide (0 < (normalized b).val c.1 c.2) : ℕ) : ℝ) * (f.deltax * f.deltay) = _
    have : (cells f.nrows f.ncols).countP (fun c => decide (0 < (normalized b).val c.1 c.2)) = (f.nodesWhere (fun v => 0 < v)).ncard := by
      rw [← hN]
    rw [this]; ring
  · intro r
    simp only [List.mem_map, List.mem_filter, decide_eq_true_eq]
    constructor
    · rintro ⟨c, ⟨hc1, hc2⟩, rfl⟩
      exact ⟨cellPos f b c, ⟨(isNode_iff hb _).mpr ⟨c, hc1, rfl⟩, by rw [probAt_cell wf hb hc1]; exact hc2⟩, rfl⟩
    · rintro ⟨p, ⟨hn, hp⟩, rfl⟩
      obtain ⟨c, hc1, rfl⟩ := (isNode_iff hb p).mp hn
      rw [probAt_cell wf hb hc1] at hp
      exact ⟨c, ⟨hc1, hp⟩, rfl⟩
  · rw [List.length_map, ← List.countP_eq_length_filter, ← hN]
  · unfold createDeterministicPlot
    rw [hb]
    simp only
    rw [if_neg (not_le.mpr htb)]
    rw [hX 1 (by omega), hX 0 (by omega), hY 1 (by omega), hY 0 (by omega)]
    simp only
    rw [dX, dY, hrows]
    simp only [hmarks, List.nil_append]

/-! ## C56 -/

/-- C56: the three plot functions raise iff the total weight is not positive, and then CaptureZoneError. (For fields with a grid, and the target one of the
wells.) -/
theorem C56_empty (f : PField ℝ) (hf : f.Reachable) (hb : f.body ≠ none) (target : ℕ) (wells : List SWell) (htw : target < wells.length)
    (obs : List Obs) (smooth spacing : ℝ) (gaussian : Grid ℝ → ℝ → Grid ℝ) (e : PyErr) :
    (createProbabilityPlot gaussian target wells obs f smooth = .error e ↔ e = .captureZoneError ∧ f.total ≤ 0) ∧
    (createDeterministicPlot target wells obs f = .error e ↔ e = .captureZoneError ∧ f.total ≤ 0) ∧
    (createImpactPlot spacing f = .error e ↔ e = .captureZoneError ∧ f.total ≤ 0) := by
  obtain ⟨b, hb⟩ := Option.ne_none_iff_exists'.mp hb
  have htw' : wells[target]? = some wells[target] := List.getElem?_eq_getElem htw
  have hmarks : ∃ m, markers target wells obs = .ok m := by
    unfold markers getWell
    simp only [Int.not_lt.mpr (Int.natCast_nonneg target), if_false, Int.toNat_natCast, htw']
    exact ⟨_, rfl⟩
  obtain ⟨m, hm⟩ := hmarks
  by_cases h : f.total ≤ 0
  · have h' := h
    rw [total_eq hb] at h'
    unfold createProbabilityPlot createDeterministicPlot createImpactPlot
    rw [hb]
    simp only [if_pos h', Except.error.injEq]
    simp only [h, and_true, eq_comm, and_self]
  · have hpos := not_le.mp h
    have h' := h
    rw [total_eq hb] at h'
    refine ⟨?_, ?_, ?_⟩
    · unfold createProbabilityPlot
      rw [hb]
      simp only [if_neg h', hm]
      simp [h]
    · obtain ⟨d, hd, -⟩ := C55_area f hf hpos target wells _ htw' obs
      rw [hd]
      simp [h]
    · obtain ⟨im, hi, -⟩ := C53_impact f hf hpos spacing
      rw [hi]
      simp [h]

/-- the freshly constructed field is empty -/
example : ∃ f : PField ℝ, f.Reachable ∧ f.body ≠ none ∧ f.total ≤ 0 := by
  obtain ⟨f0, b, hnew, hb, -, -, -, -, -, -, -, -, ht, -⟩ := new_origin (1:ℝ) 1 0 0 one_pos one_pos
  exact ⟨f0, new_reachable hnew, by rw [hb]; simp, by rw [total_eq hb, ht]⟩

/-- C56: the probability plot shows, at the place of each node, its probability (if not smoothed), and the markers. -/
theorem C56_probability_plot (f : PField ℝ) (hf : f.Reachable) (ht : 0 < f.total) (target : ℕ) (wells : List SWell) (t : SWell)
    (htw : wells[target]? = some t) (obs : List Obs) (smooth : ℝ) (hs : smooth ≤ 0) (gaussian : Grid ℝ → ℝ → Grid ℝ) :
    ∃ pl, createProbabilityPlot gaussian target wells obs f smooth = .ok pl ∧
      pl.z.rows = pl.y.length ∧ pl.z.cols = pl.x.length ∧
      (∀ (i j : ℕ) (x y : ℝ), pl.x[j]? = some x → pl.y[i]? = some y → f.IsNode x y ∧ pl.z.val i j = f.probAt x y) ∧
      (∀ x y, f.IsNode x y → x ∈ pl.x ∧ y ∈ pl.y) ∧
      pl.marks = ⟨wells.map fun w => (w.xw, w.yw), (t.xw, t.yw), obs.map fun o => (o.x, o.y)⟩ := by
  have wf := reachable_wf hf
  obtain ⟨b, hb⟩ : ∃ b, f.body = some b := by
    cases h : f.body with
    | none => unfold PField.total at ht; rw [h] at ht; exact absurd ht (lt_irrefl _)
    | some b => exact ⟨b, rfl⟩
  have htb : 0 < b.totalWeight := by rw [← total_eq hb]; exact ht
  obtain ⟨hr, hc, hxm, hym, hpr, hpc, -⟩ := wf.grid b hb
  have hX : ∀ k : ℕ, k < f.ncols → (linspace b.xmin b.xmax f.ncols)[k]? = some (b.xmin + k * f.deltax) := by
    intro k hk; rw [hxm]; exact linspace_grid _ _ _ _ (by omega) hk
  have hY : ∀ k : ℕ, k < f.nrows → (linspace b.ymin b.ymax f.nrows)[k]? = some (b.ymin + k * f.deltay) := by
    intro k hk; rw [hym]; exact linspace_grid _ _ _ _ (by omega) hk
  have hmarks : markers target wells obs = .ok ⟨wells.map fun w => (w.xw, w.yw), (t.xw, t.yw), obs.map fun o => (o.x, o.y)⟩ := by
    unfold markers getWell
    simp only [if_false, Int.toNat_natCast, htw, Int.not_lt.mpr (Int.natCast_nonneg target)]
  refine ⟨⟨linspace b.xmin b.xmax f.ncols, linspace b.ymin b.ymax f.nrows, normalized b, _⟩, ?_, ?_, ?_, ?_, ?_, rfl⟩
  · unfold createProbabilityPlot
    rw [hb]
    simp only [if_neg (not_le.mpr htb), hmarks, if_neg (not_lt.mpr hs)]
  · show b.pgrid.rows = _; rw [linspace_length, hpr]
  · show b.pgrid.cols = _; rw [linspace_length, hpc]
  · intro i j x y hx hy
    simp only at hx hy
    have hj : j < f.ncols := by
      have := (List.getElem?_eq_some_iff.mp hx).1; rwa [linspace_length] at this
    have hi : i < f.nrows := by
      have := (List.getElem?_eq_some_iff.mp hy).1; rwa [linspace_length] at this
    rw [hX j hj] at hx
    rw [hY i hi] at hy
    obtain rfl := Option.some.inj hx
    obtain rfl := Option.some.inj hy
    have hcell : (i, j) ∈ cells f.nrows f.ncols := mem_cells.mpr ⟨hi, hj⟩
    exact ⟨⟨b, hb, i, j, hi, hj, rfl, rfl⟩, (probAt_cell wf hb hcell).symm⟩
  · rintro x y ⟨b', hb', i, j, hi, hj, rfl, rfl⟩
    obtain rfl := Option.some.inj (hb'.symm.trans hb)
    exact ⟨List.mem_of_getElem? (hX j hj), List.mem_of_getElem? (hY i hi)⟩

/-- C56: with smoothing, the plot shows the result of applying the filter to the very grid that would be shown without. -/
theorem C56_smoothed_plot (f : PField ℝ) (hf : f.Reachable) (ht : 0 < f.total) (target : ℕ) (wells : List SWell) (t : SWell)
    (htw : wells[target]? = some t) (obs : List Obs) (smooth : ℝ) (hs : 0 < smooth) (gaussian : Grid ℝ → ℝ → Grid ℝ) :
    ∃ (pl : ProbabilityPlot) (g : Grid ℝ), createProbabilityPlot gaussian target wells obs f smooth = .ok pl ∧ pl.z = gaussian g smooth ∧
      g.rows = pl.y.length ∧ g.cols = pl.x.length ∧
      (∀ (i j : ℕ) (x y : ℝ), pl.x[j]? = some x → pl.y[i]? = some y → f.IsNode x y ∧ g.val i j = f.probAt x y) ∧
      (∀ x y, f.IsNode x y → x ∈ pl.x ∧ y ∈ pl.y) ∧
      pl.marks = ⟨wells.map fun w => (w.xw, w.yw), (t.xw, t.yw), obs.map fun o => (o.x, o.y)⟩ := by
  obtain ⟨pl, h1, h2, h3, h4, h5, h6⟩ := C56_probability_plot f hf ht target wells t htw obs 0 le_rfl gaussian
  refine ⟨{ pl with z := gaussian pl.z smooth }, pl.z, ?_, rfl, h2, h3, h4, h5, h6⟩
  unfold createProbabilityPlot at h1 ⊢
  cases hb : f.body with
  | none => rw [hb] at h1; simp at h1
  | some b =>
    rw [hb] at h1
    simp only at h1 ⊢
    split at h1
    · simp at h1
    rename_i hw
    rw [if_neg hw]
    cases hm : markers target wells obs with
    | error e => rw [hm] at h1; simp at h1
    | ok m =>
      rw [hm] at h1
      simp only [lt_irrefl, if_false] at h1
      obtain rfl := Except.ok.inj h1
      simp [hs]

/-! ## C57 -/

/-- C57, the part that holds: if no node of the map is dry (or a well), the map shows the head at every node. Missing: dry nodes, for which the claim
is false (next theorem). -/
theorem C57_heads_partial (m : Aquifer ℝ) (hm : m.Physical) (xmin xmax ymin ymax : ℝ) (r c : ℕ)
    (hoff : ∀ i < r, ∀ j < c, m.OffWells (mapNode xmin xmax c j) (mapNode ymin ymax r i))
    (hwet : ∀ i < r, ∀ j < c, 0 < m.potential (mapNode xmin xmax c j) (mapNode ymin ymax r i)) :
    ∃ cm, contourHead m.toX xmin xmax ymin ymax r c = .ok cm ∧ cm.grid.rows = r ∧ cm.grid.cols = c ∧
      ∀ i < r, ∀ j < c, cm.x[j]? = some (mapNode xmin xmax c j) ∧ cm.y[i]? = some (mapNode ymin ymax r i) ∧
        ∃ h, m.head (mapNode xmin xmax c j) (mapNode ymin ymax r i) = .ok h ∧ cm.grid.val i j = .fin h := by
  have hcell : ∀ i < r, ∀ j < c, ∃ h, m.head (mapNode xmin xmax c j) (mapNode ymin ymax r i) = .ok h ∧
      headCell m.toX (linspace xmin xmax c) (linspace ymin ymax r) i j = .ok (.fin h) := by
    intro i hi j hj
    have hh : ∃ h, m.head (mapNode xmin xmax c j) (mapNode ymin ymax r i) = .ok h := by
      have hw := hwet i hi j hj
      rw [Aquifer.head_eq, if_neg (not_le.mpr hw)]
      exact ⟨_, rfl⟩
    obtain ⟨h, hh⟩ := hh
    refine ⟨h, hh, ?_⟩
    unfold headCell
    rw [linspace_get _ _ _ _ hi, linspace_get _ _ _ _ hj]
    simp only
    have := m.head_toX hm (hoff i hi j hj)
    unfold mapNode at this hh
    rw [this, hh]
    rfl
  classical
  let v : ℕ → ℕ → XR := fun i j => if hij : i < r ∧ j < c then .fin (hcell i hij.1 j hij.2).choose else .nan
  obtain ⟨g, e, h1, h2, h3⟩ := fillRows_ok (headCell m.toX (linspace xmin xmax c) (linspace ymin ymax r)) v c (List.range r)
    (Grid.full r c (.fin 0)) rfl (by simp [Grid.full]) (by
      intro i hi j hj
      have hi' := List.mem_range.mp hi
      rw [(hcell i hi' j hj).choose_spec.2]
      simp only [v]
      rw [dif_pos ⟨hi', hj⟩])
  refine ⟨⟨linspace xmin xmax c, linspace ymin ymax r, g⟩, ?_, h1, h2, ?_⟩
  · unfold contourHead
    simp only [e]
  · intro i hi j hj
    refine ⟨linspace_get _ _ _ _ hj, linspace_get _ _ _ _ hi, _, (hcell i hi j hj).choose_spec.1, ?_⟩
    simp only
    rw [h3, if_pos ⟨List.mem_range.mpr hi, hj⟩]
    simp only [v]
    rw [dif_pos ⟨hi, hj⟩]

/-- C57 is false whenever the aquifer is dry at a node of the map: `contour_head` raises NameError. -/
theorem C57_fails_at_dry_nodes (m : Aquifer ℝ) (hm : m.Physical) (xmin xmax ymin ymax : ℝ) (r c i j : ℕ) (hi : i < r) (hj : j < c)
    (hoff : m.OffWells (mapNode xmin xmax c j) (mapNode ymin ymax r i))
    (hdry : m.potential (mapNode xmin xmax c j) (mapNode ymin ymax r i) ≤ 0) :
    contourHead m.toX xmin xmax ymin ymax r c = .error .nameError := by
  have hcell : headCell m.toX (linspace xmin xmax c) (linspace ymin ymax r) i j = .error .nameError := by
    unfold headCell
    rw [linspace_get _ _ _ _ hi, linspace_get _ _ _ _ hj]
    simp only
    have := m.head_toX hm hoff
    rw [Aquifer.head_eq, if_pos hdry] at this
    unfold mapNode at this
    rw [this]
    rfl
  have := fillRows_error (headCell m.toX (linspace xmin xmax c) (linspace ymin ymax r)) .nameError c (List.range r)
    (Grid.full r c (.fin 0)) rfl (by simp [Grid.full]) (by
      intro i _ j _ e' he
      unfold headCell at he
      split at he
      · split at he
        · simp at he
        · exact (Except.error.inj he).symm
      · exact (Except.error.inj he).symm) ⟨i, List.mem_range.mpr hi, j, hj, hcell⟩
  unfold contourHead
  simp only [this]

/-- C57: the map of the potential shows the potential at every node that is not a well, dry or not. -/
theorem C57_potential (m : Aquifer ℝ) (xmin xmax ymin ymax : ℝ) (r c : ℕ) :
    ∃ cm, contourPotential m.toX xmin xmax ymin ymax r c = .ok cm ∧ cm.grid.rows = r ∧ cm.grid.cols = c ∧
      ∀ i < r, ∀ j < c, cm.x[j]? = some (mapNode xmin xmax c j) ∧ cm.y[i]? = some (mapNode ymin ymax r i) ∧
        (m.OffWells (mapNode xmin xmax c j) (mapNode ymin ymax r i) →
          cm.grid.val i j = .fin (m.potential (mapNode xmin xmax c j) (mapNode ymin ymax r i))) := by
  obtain ⟨g, e, h1, h2, h3⟩ := fillRows_ok (potentialCell m.toX (linspace xmin xmax c) (linspace ymin ymax r))
    (fun i j => m.toX.potential (.fin (mapNode xmin xmax c j)) (.fin (mapNode ymin ymax r i))) c (List.range r)
    (Grid.full r c (.fin 0)) rfl (by simp [Grid.full]) (by
      intro i hi j hj
      unfold potentialCell
      rw [linspace_get _ _ _ _ (List.mem_range.mp hi), linspace_get _ _ _ _ hj]
      rfl)
  refine ⟨⟨linspace xmin xmax c, linspace ymin ymax r, g⟩, by unfold contourPotential; simp only [e], h1, h2, ?_⟩
  intro i hi j hj
  refine ⟨linspace_get _ _ _ _ hj, linspace_get _ _ _ _ hi, fun hoff => ?_⟩
  simp only
  rw [h3, if_pos ⟨List.mem_range.mpr hi, hj⟩, m.potential_toX hoff]

/-- an aquifer without wells, potential `x`: wet for positive `x`, dry elsewhere -/
noncomputable def slopeAquifer : Aquifer ℝ := ⟨0, 1, 1/4, 10, [], 0, 0, ![0, 0, 0, 1, 0, 0]⟩

theorem slope_potential (x y : ℝ) : slopeAquifer.potential x y = x := by
  simp [Aquifer.potential, Aquifer.potentialWells, slopeAquifer]

example : slopeAquifer.Physical ∧ (∀ x y, slopeAquifer.OffWells x y) ∧ (∀ i < 2, ∀ j < 2, 0 < slopeAquifer.potential (mapNode 1 2 2 j) (mapNode 0 1 2 i)) ∧
    slopeAquifer.potential (mapNode (-1) 1 2 0) (mapNode 0 1 2 0) ≤ 0 := by
  refine ⟨⟨by norm_num [slopeAquifer], by norm_num [slopeAquifer], by norm_num [slopeAquifer]⟩, fun x y w hw => by simp [slopeAquifer] at hw, ?_, ?_⟩
  · intro i _ j hj
    rw [slope_potential]
    unfold mapNode
    have : (0:ℝ) ≤ j := Nat.cast_nonneg j
    norm_num
    linarith
  · rw [slope_potential]; norm_num [mapNode]

/-! ## C66 -/

/-- C66: if some node has probability 0, the impact plot draws a contiguous part of the curve which contains all points with probability strictly between
0 and 1. Otherwise it draws at most one point. Example: the field after C54. -/
theorem C66_drawn (f : PField ℝ) (hf : f.Reachable) (ht : 0 < f.total) (spacing : ℝ) (im : Impact) (him : createImpactPlot spacing f = .ok im) :
    (∃ part, part <:+: im.pr.zip im.area ∧ im.drawn = part.map fun p => (p.1, (⌊p.2 / 4046.86⌋ : ℝ))) ∧
    ((f.nodesWhere (fun v => v = 0)).Nonempty → ∀ (k : ℕ) (v a : ℝ), im.pr[k]? = some v → im.area[k]? = some a → 0 < v → v < 1 →
      (v, (⌊a / 4046.86⌋ : ℝ)) ∈ im.drawn) ∧
    (f.nodesWhere (fun v => v = 0) = ∅ → im.drawn.length ≤ 1) := by
  classical
  obtain ⟨im', e', hs, hc, hl, ha, -⟩ := C53_impact f hf ht spacing
  obtain rfl : im' = im := by rw [e'] at him; exact Except.ok.inj him
  have hdr : im'.drawn = (((im'.pr.zip im'.area).take (min im'.pr.length (argmax (im'.pr.map fun v => decide (v = 0)) + 1))).drop
      (argmax (im'.pr.map fun v => decide (v < 1)) - 1)).map inAcres := by
    unfold createImpactPlot at him
    split at him
    · simp at him
    · simp only at him
      split at him
      · simp at him
      · rw [← Except.ok.inj him]
  have hmem : ∀ v, v ∈ im'.pr ↔ (f.nodesWhere (fun w => w = v)).Nonempty := by
    intro v
    obtain ⟨hfin, hcount⟩ := hc (fun w => w = v)
    rw [← Set.ncard_pos hfin, ← hcount, List.countP_pos_iff]
    simp
  rw [hdr]
  refine ⟨⟨_, (List.drop_suffix _ _).isInfix.trans (List.take_prefix _ _).isInfix, rfl⟩, ?_, ?_⟩
  · intro hz k v a hk hka h0 h1
    have hzm := (hmem 0).mpr hz
    obtain ⟨a1, a2⟩ := argmax_first (im'.pr.map fun v => decide (v = 0)) (List.mem_map.mpr ⟨0, hzm, by simp⟩)
    set j := argmax (im'.pr.map fun v => decide (v = 0))
    obtain ⟨b1, b2⟩ := argmax_first (im'.pr.map fun v => decide (v < 1)) (List.mem_map.mpr ⟨v, List.mem_of_getElem? hk, by simpa using h1⟩)
    set i := argmax (im'.pr.map fun v => decide (v < 1))
    have hklt := (List.getElem?_eq_some_iff.mp hk).1
    have hvk := (List.getElem?_eq_some_iff.mp hk).2
    -- k is before the first zero
    have hkj : k < j := by
      by_contra hc
      rw [List.getElem?_map, Option.map_eq_some_iff] at a1
      obtain ⟨w, hw, hw0⟩ := a1
      have hw0' : w = 0 := by simpa using hw0
      have hjlt := (List.getElem?_eq_some_iff.mp hw).1
      have hwj := (List.getElem?_eq_some_iff.mp hw).2
      rcases (not_lt.mp hc).eq_or_lt with h6 | h6
      · have : w = v := Option.some.inj (by rw [← hw, h6, hk])
        linarith
      · have := List.pairwise_iff_getElem.mp hs j k hjlt hklt h6
        rw [hwj, hvk, hw0'] at this
        linarith
    have hik : i ≤ k := by
      by_contra hc
      have := b2 k (by omega)
      rw [List.getElem?_map, hk] at this
      simp at this
      linarith
    have hz : ((im'.pr.zip im'.area).take (min im'.pr.length (j + 1)))[k]? = some (v, a) := by
      rw [List.getElem?_take, if_pos (by omega)]
      exact (List.getElem?_zip_eq_some (z := (v, a))).mpr ⟨hk, hka⟩
    refine List.mem_map.mpr ⟨(v, a), ?_, rfl⟩
    apply List.mem_of_getElem? (i := k - (i - 1))
    rw [List.getElem?_drop]
    rw [show i - 1 + (k - (i - 1)) = k by omega]
    exact hz
  · intro hz
    have : argmax (im'.pr.map fun v => decide (v = 0)) = 0 := by
      apply argmax_none
      intro hm
      obtain ⟨v, hv, hv0⟩ := List.mem_map.mp hm
      have : v = 0 := by simpa using hv0
      subst this
      have := (hmem 0).mp hv
      rw [hz] at this
      simp at this
    rw [this, List.length_map, List.length_drop, List.length_take]
    omega

/-! ## C67 -/

/-- C67: `quick_capture_zone` never draws anything: with at least one ray it raises AttributeError, whatever the model does. -/
theorem C67_quick (trace : ℝ → Except PyErr (List (ℝ × ℝ))) (nrays : ℕ) :
    quickCaptureZone trace nrays = if nrays = 0 then .ok [] else .error .attributeError := by
  unfold quickCaptureZone
  cases nrays with
  | zero => rfl
  | succ n =>
    have : ∃ θ θs, linspace 0 (2 * Real.pi) (n + 1) = θ :: θs := by
      have hl := linspace_length 0 (2 * Real.pi) (n + 1)
      cases h : linspace 0 (2 * Real.pi) (n + 1) with
      | nil => rw [h] at hl; simp at hl
      | cons a b => exact ⟨a, b, rfl⟩
    obtain ⟨θ, θs, h⟩ := this
    rw [h]
    unfold quickLoop
    rw [if_neg (by decide), if_neg (by omega)]

end Oneka
