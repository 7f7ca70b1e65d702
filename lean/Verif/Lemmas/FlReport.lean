import Verif.Lemmas.FlThresholds
import Verif.Lemmas.Visualize

/-! # Counting in floating-point arithmetic; the lines of the decile table -/

namespace Oneka

namespace PField

variable {Q : Fl → Fl → Prop}

/-- Every entry is related to the total weight by `Q`. -/
structure Kept (Q : Fl → Fl → Prop) (f : PField Fl) : Prop where
  shaped : f.Shaped
  body : ∀ b, f.body = some b → Q 0 b.totalWeight ∧ ∀ i j, i < f.nrows → j < f.ncols → Q (b.pgrid.val i j) b.totalWeight

theorem new_kept (q : Q 0 0) {dx dy : Fl} {xo yo : Option Fl} {f : PField Fl} (h : new dx dy xo yo = .ok f) : f.Kept Q := by
  refine ⟨new_shaped h, ?_⟩
  unfold new at h
  split_ifs at h
  split at h
  · obtain rfl := Except.ok.inj h
    intro b hb
    obtain rfl := Option.some.inj hb
    exact ⟨q, fun i j _ _ => q⟩
  · obtain rfl := Except.ok.inj h
    simp

theorem expand_kept (q : Q 0 0) {f : PField Fl} (hf : f.Kept Q) {x0 x1 y0 y1 : Fl} {f' : PField Fl} (h : f.expand x0 x1 y0 y1 = some (.ok f')) :
    f'.Kept Q ∧ ∃ b, f'.body = some b := by
  by_cases hx : x1 < x0
  · unfold expand at h; rw [if_pos hx] at h; simp at h
  by_cases hy : y1 < y0
  · unfold expand at h; rw [if_neg hx, if_pos hy] at h; simp at h
  cases hb : f.body with
  | none =>
    obtain ⟨f2, b', e2, hb', _, _, t, p, _, s⟩ := expand_fresh f hf.shaped hb x0 x1 y0 y1 hx hy
    rw [e2] at h
    obtain rfl := Except.ok.inj (Option.some.inj h)
    refine ⟨⟨s, fun c hc => ?_⟩, b', hb'⟩
    obtain rfl := Option.some.inj (hb'.symm.trans hc)
    rw [t]
    exact ⟨q, fun i j _ _ => by rw [p]; exact q⟩
  | some b =>
    obtain ⟨f2, b', r, c, e2, g⟩ := expand_grown f b hf.shaped hb x0 x1 y0 y1 hx hy h
    obtain rfl := Except.ok.inj e2
    refine ⟨⟨g.shaped, fun c' hc' => ?_⟩, b', g.body⟩
    obtain rfl := Option.some.inj (g.body.symm.trans hc')
    obtain ⟨t0, hp⟩ := hf.body b hb
    rw [g.total]
    refine ⟨t0, fun i j hi hj => ?_⟩
    rw [g.pval i j hi hj]
    split_ifs with hc
    · exact hp _ _ (by omega) (by omega)
    · exact t0

theorem marked_kept {f f' : PField Fl} (hf : f.Kept Q) (s : f'.Shaped) {b : Body Fl} {g' : Grid Bool} (hb : f.body = some b)
    (e : f' = { f with body := some { b with rgrid := g' } }) : f'.Kept Q := by
  refine ⟨s, fun c hc => ?_⟩
  rw [e] at hc ⊢
  obtain rfl := Option.some.inj hc
  exact hf.body b hb

theorem step_kept (q : Q 0 0) {f : PField Fl} (hf : f.Kept Q) (c : Call Fl) (hw : ∀ w, c = .register w → ∀ p t, Q p t → Q p (t + w) ∧ Q (p + w) (t + w))
    {f' : PField Fl} {r : Except PyErr Unit} (h : f.step c = some (f', r)) : f'.Kept Q := by
  cases c with
  | expand x0 x1 y0 y1 =>
    simp only [step, Option.map_eq_some_iff] at h
    obtain ⟨R, hR, h⟩ := h
    cases R with
    | error e => obtain ⟨rfl, rfl⟩ := Prod.mk.inj h; exact hf
    | ok f2 => obtain ⟨rfl, rfl⟩ := Prod.mk.inj h; exact (expand_kept q hf hR).1
  | insert ax ay bx by' u =>
    simp only [step, Option.some.injEq] at h
    rcases insert_shaped hf.shaped ax ay bx by' u rfl with ⟨e, hn⟩ | ⟨f2, b, g', hb, e1, e2, s⟩
    · rw [e] at h; obtain ⟨rfl, rfl⟩ := Prod.mk.inj h; exact hf
    · rw [e2] at h; obtain ⟨rfl, rfl⟩ := Prod.mk.inj h; exact marked_kept hf s hb e1
  | rasterize x y u =>
    simp only [step] at h
    unfold rasterize at h
    by_cases hx : x = []
    · subst hx
      simp only [pyMin, Option.some.injEq] at h
      obtain ⟨rfl, rfl⟩ := Prod.mk.inj h
      exact hf
    by_cases hy : y = []
    · subst hy
      have : some (f, Except.error PyErr.valueError) = some (f', r) := by
        rw [← h]
        cases pyMin x <;> cases pyMax x <;> rfl
      obtain ⟨rfl, rfl⟩ := Prod.mk.inj (Option.some.inj this)
      exact hf
    obtain ⟨x0, ex0, mx0, lx0⟩ := pyMin_val x hx
    obtain ⟨x1, ex1, mx1, lx1⟩ := pyMax_val x hx
    obtain ⟨y0, ey0, my0, ly0⟩ := pyMin_val y hy
    obtain ⟨y1, ey1, my1, ly1⟩ := pyMax_val y hy
    rw [ex0, ex1, ey0, ey1] at h
    dsimp only at h
    cases hE : f.expand x0 x1 y0 y1 with
    | none => rw [hE] at h; simp at h
    | some R =>
      rw [hE] at h
      cases R with
      | error e =>
        simp only [Option.some.injEq] at h
        obtain ⟨rfl, rfl⟩ := Prod.mk.inj h
        exact hf
      | ok f2 =>
        obtain ⟨h2, b2, hb2⟩ := expand_kept q hf hE
        simp only [Option.some.injEq] at h
        obtain ⟨s, ⟨g', e⟩, hr⟩ := rasterLoop_shaped x y u _ f2 b2 h2.shaped hb2 (fun i hi => by rw [List.mem_range] at hi; omega) h
        exact marked_kept h2 s hb2 e
  | register w =>
    simp only [step, Option.some.injEq] at h
    cases hb : f.body with
    | none => unfold register at h; rw [hb] at h; obtain ⟨rfl, rfl⟩ := Prod.mk.inj h; exact hf
    | some b =>
      obtain ⟨hr3, hc3, hpr, hpc, hrr, hrc⟩ := hf.shaped.grid b hb
      unfold register at h; rw [hb] at h
      simp only [hrr, hpr, hrc, hpc, and_self, if_true, lift] at h
      obtain ⟨rfl, rfl⟩ := Prod.mk.inj h
      obtain ⟨t0, hp⟩ := hf.body b hb
      refine ⟨⟨by simp, fun c hc => ?_⟩, fun c hc => ?_⟩
      · obtain rfl := Option.some.inj hc
        exact ⟨hr3, hc3, rfl, rfl, rfl, rfl⟩
      · obtain rfl := Option.some.inj hc
        refine ⟨(hw w rfl _ _ t0).1, fun i j hi hj => ?_⟩
        dsimp only
        split_ifs
        · exact (hw w rfl _ _ (hp i j hi hj)).2
        · exact (hw w rfl _ _ (hp i j hi hj)).1
  | reset =>
    simp only [step, Option.some.injEq] at h
    cases hb : f.body with
    | none => unfold reset at h; rw [hb] at h; obtain ⟨rfl, rfl⟩ := Prod.mk.inj h; exact hf
    | some b =>
      obtain ⟨hr3, hc3, hpr, hpc, hrr, hrc⟩ := hf.shaped.grid b hb
      unfold reset at h; rw [hb] at h
      obtain ⟨rfl, rfl⟩ := Prod.mk.inj h
      refine ⟨⟨by simp, fun c hc => ?_⟩, fun c hc => ?_⟩
      · obtain rfl := Option.some.inj hc
        exact ⟨hr3, hc3, hpr, hpc, hrr, hrc⟩
      · obtain rfl := Option.some.inj hc
        exact hf.body b hb

theorem run_kept (q : Q 0 0) (cs : List (Call Fl)) : ∀ f : PField Fl, f.Kept Q →
    (∀ w, Call.register w ∈ cs → ∀ p t, Q p t → Q p (t + w) ∧ Q (p + w) (t + w)) → ∀ {f'}, f.run cs = some f' → f'.Kept Q := by
  induction cs with
  | nil => intro f hf _ f' h; obtain rfl := Option.some.inj h; exact hf
  | cons c cs ih =>
    intro f hf hw f' h
    simp only [run] at h
    cases e : f.step c with
    | none => rw [e] at h; simp at h
    | some r =>
      obtain ⟨f1, r⟩ := r
      rw [e] at h
      exact ih f1 (step_kept q hf c (fun w hc => hw w (by simp [hc])) e) (fun w hc => hw w (by simp [hc])) h

end PField

/-! ### counting -/

/-- `p` of `t`, both whole numbers that are represented exactly. -/
def Counted (p t : Fl) : Prop := ∃ c n : ℕ, p.val = c ∧ t.val = n ∧ c ≤ n ∧ n ≤ 2 ^ 53

theorem counted_zero : Counted 0 0 := ⟨0, 0, by simp, by simp, le_refl _, by norm_num⟩

/-- 2^53 + 1 is rounded to 2^53. -/
theorem round53_full : round53 (2 ^ 53 + 1) = 2 ^ 53 := by
  have e : ulp (2 ^ 53 + 1) = 2 := by
    rw [ulp_eq (k := 53) (by rw [abs_of_pos (by norm_num)]; norm_num) (by rw [abs_of_pos (by norm_num)]; norm_num)]
    norm_num
  unfold round53
  rw [e]
  have f : ⌊((2 : ℝ) ^ 53 + 1) / 2⌋ = 2 ^ 52 := by
    rw [Int.floor_eq_iff]; norm_num
  unfold roundEven
  rw [f, if_neg (by norm_num), if_neg (by norm_num), if_pos (by decide)]
  norm_num

theorem counted_add {w p t : Fl} (hw : w.val = 1) (h : Counted p t) : Counted p (t + w) ∧ Counted (p + w) (t + w) := by
  obtain ⟨c, n, hp, ht, hcn, hn⟩ := h
  have up : ∀ (z : Fl) (m : ℕ), z.val = m → m ≤ 2 ^ 53 → (z + w).val = (min (m + 1) (2 ^ 53) : ℕ) := by
    intro z m hz hm
    rw [Fl.val_add, hz, hw]
    rcases hm.lt_or_eq with h | h
    · rw [min_eq_left (by omega)]
      have := round53_nat (m + 1) (by omega)
      push_cast at this ⊢
      exact this
    · rw [min_eq_right (by omega), h]
      have := round53_full
      norm_num at this ⊢
      exact this
  exact ⟨⟨c, _, hp, up t n ht hn, le_min (by omega) (by omega), min_le_right _ _⟩,
    ⟨_, _, up p c hp (by omega), up t n ht hn, min_le_min_right _ (by omega), min_le_right _ _⟩⟩

/-! ### the frequencies, rounded -/

theorem eps_val : eps = 1 / 2 ^ 53 := by unfold eps; norm_num

/-- Rounding a frequency of up to 2^47 outcomes and comparing with a threshold. -/
theorem compare_threshold {c n k : ℕ} (hc : c ≤ n) (n0 : 0 < n) (hn : n ≤ 2 ^ 47) (hk : k < 19) :
    round53 ((c : ℝ) / n) ≤ (threshold k).val ↔ if k ∈ lowRows then (c : ℝ) / n < (k + 1) / 20 else (c : ℝ) / n ≤ (k + 1) / 20 := by
  obtain ⟨t, lo, eq⟩ := threshold_facts k hk
  have n0' : (0 : ℝ) < n := by exact_mod_cast n0
  have hn' : (n : ℝ) ≤ 2 ^ 47 := by exact_mod_cast hn
  have hc' : (c : ℝ) / n ≤ 1 := (div_le_one n0').mpr (by exact_mod_cast hc)
  have c0 : (0 : ℝ) ≤ c / n := by positivity
  have acc := abs_le.mp (round53_accurate ((c : ℝ) / n))
  rw [abs_of_nonneg c0] at acc
  have t' := abs_le.mp t
  have e : (2 : ℝ) ^ (-53 : ℤ) = eps := rfl
  rw [e] at acc
  have e0 := eps_pos
  have slack : eps * (c / n) ≤ eps := by nlinarith
  have gap : 3 * eps ≤ 1 / (20 * n) := by
    rw [eps_val, le_div_iff₀ (by positivity)]
    nlinarith
  rcases lt_trichotomy (20 * c) ((k + 1) * n) with h | h | h
  · have h1 : (20 * c + 1 : ℝ) ≤ (k + 1) * n := by exact_mod_cast h
    have h2 : (c : ℝ) / n + 1 / (20 * n) ≤ (k + 1) / 20 := by
      rw [← sub_nonneg]
      have : ((k : ℝ) + 1) / 20 - (c / n + 1 / (20 * n)) = ((k + 1) * n - (20 * c + 1)) / (20 * n) := by field_simp
      rw [this]; exact div_nonneg (by linarith) (by positivity)
    have lt : (c : ℝ) / n < (k + 1) / 20 := by linarith [show (0:ℝ) < 1 / (20 * n) by positivity]
    have l : round53 ((c : ℝ) / n) ≤ (threshold k).val := by linarith
    split_ifs
    · exact ⟨fun _ => lt, fun _ => l⟩
    · exact ⟨fun _ => lt.le, fun _ => l⟩
  · have h1 : (c : ℝ) / n = (k + 1) / 20 := by
      rw [div_eq_div_iff n0'.ne' (by norm_num)]
      have : (20 * c : ℝ) = (k + 1) * n := by exact_mod_cast h
      linarith
    rw [h1]
    split_ifs with hl
    · exact ⟨fun h2 => absurd (lo hl) (not_lt.mpr h2), fun h2 => absurd h2 (lt_irrefl _)⟩
    · exact ⟨fun _ => le_refl _, fun _ => (eq hl).ge⟩
  · have h1 : ((k + 1) * n + 1 : ℝ) ≤ 20 * c := by exact_mod_cast h
    have h2 : ((k : ℝ) + 1) / 20 + 1 / (20 * n) ≤ c / n := by
      rw [← sub_nonneg]
      have : (c : ℝ) / n - ((k + 1) / 20 + 1 / (20 * n)) = (20 * c - ((k + 1) * n + 1)) / (20 * n) := by field_simp
      rw [this]; exact div_nonneg (by linarith) (by positivity)
    have gt : ((k : ℝ) + 1) / 20 < c / n := by linarith [show (0:ℝ) < 1 / (20 * n) by positivity]
    have g : ¬ round53 ((c : ℝ) / n) ≤ (threshold k).val := by rw [not_le]; linarith
    split_ifs
    · exact ⟨fun h => absurd h g, fun h => absurd h (by linarith)⟩
    · exact ⟨fun h => absurd h g, fun h => absurd h (by linarith)⟩

/-- Different frequencies of up to 2^52 outcomes stay different. -/
theorem frequency_lt {c d n : ℕ} (hd : d ≤ n) (hn : n < 2 ^ 52) (h : c < d) : round53 ((c : ℝ) / n) < round53 ((d : ℝ) / n) := by
  have n0 : 0 < n := by omega
  have n0' : (0 : ℝ) < n := by exact_mod_cast n0
  have hn' : (n : ℝ) + 1 ≤ 2 ^ 52 := by exact_mod_cast hn
  have hd' : (d : ℝ) / n ≤ 1 := (div_le_one n0').mpr (by exact_mod_cast hd)
  have h' : (c : ℝ) + 1 ≤ d := by exact_mod_cast h
  have h2 : (c : ℝ) / n + 1 / n ≤ d / n := by rw [← add_div]; exact div_le_div_of_nonneg_right h' n0'.le
  have a1 := abs_le.mp (round53_accurate ((c : ℝ) / n))
  have a2 := abs_le.mp (round53_accurate ((d : ℝ) / n))
  rw [abs_of_nonneg (by positivity)] at a1 a2
  have e : (2 : ℝ) ^ (-53 : ℤ) = eps := rfl
  rw [e] at a1 a2
  have e0 := eps_pos
  have c0 : (0 : ℝ) ≤ c / n := by positivity
  have gap : 2 * eps < 1 / n := by
    rw [eps_val, lt_div_iff₀ n0']
    nlinarith
  have s1 : eps * (c / n) ≤ eps := by nlinarith
  have s2 : eps * (d / n) ≤ eps := by nlinarith
  linarith

/-! ### one line of the table -/

/-- `np.argmax(l <= p)` in a list in non-increasing order. -/
theorem first_at_most (l : List ℝ) (hs : l.Pairwise (· ≥ ·)) (p : ℝ) {w : ℝ} (hw : w ∈ l) (hwp : w ≤ p) :
    ∃ v, l[argmax (l.map fun v => decide (v ≤ p))]? = some v ∧ v ≤ p ∧ (∀ u ∈ l, u ≤ p → u ≤ v) ∧
      argmax (l.map fun v => decide (v ≤ p)) = l.countP (fun v => decide (p < v)) := by
  obtain ⟨h1, h2⟩ := argmax_first (l.map fun v => decide (v ≤ p)) (List.mem_map.mpr ⟨_, hw, by simpa using hwp⟩)
  set i := argmax (l.map fun v => decide (v ≤ p)) with hi
  rw [List.getElem?_map, Option.map_eq_some_iff] at h1
  obtain ⟨v, hv, hd⟩ := h1
  have hvp : v ≤ p := by simpa using hd
  obtain ⟨hilt, hvi⟩ := List.getElem?_eq_some_iff.mp hv
  refine ⟨v, hv, hvp, ?_, ?_⟩
  · intro u hu hup
    obtain ⟨k, hk, rfl⟩ := List.mem_iff_getElem.mp hu
    by_cases hki : k < i
    · have h3 := h2 k hki
      rw [List.getElem?_map, List.getElem?_eq_getElem hk] at h3
      have h4 : p < l[k] := by simpa using h3
      exact absurd hup (not_le.mpr h4)
    · rcases (not_lt.mp hki).eq_or_lt with h6 | h6
      · subst h6; rw [← hvi]
      · have := List.pairwise_iff_getElem.mp hs i k hilt hk h6
        rw [← hvi]; exact this
  · apply le_antisymm
    · by_contra hlt
      have hk : i - 1 < i := by omega
      have hk2 : i - 1 < l.length := by omega
      have h3 := h2 (i - 1) hk
      rw [List.getElem?_map, List.getElem?_eq_getElem hk2] at h3
      have h4 : p < l[i-1] := by simpa using h3
      have h5 := (sorted_prefix l hs p (i-1) _ (List.getElem?_eq_getElem hk2)).mp h4
      omega
    · by_contra hlt
      exact absurd ((sorted_prefix l hs p i v hv).mpr (by omega)) (not_lt.mpr hvp)

/-! ### sorting -/

theorem flDesc_sorted (l : List Fl) : (((l.mergeSort fun u v => decide (u ≤ v)).reverse).map Fl.val).Pairwise (· ≥ ·) := by
  rw [List.pairwise_map, List.pairwise_reverse]
  have := List.pairwise_mergeSort (le := fun a b : Fl => decide (a ≤ b)) (by
    intro a b c h1 h2; simp only [decide_eq_true_eq, Fl.le_iff] at *; exact h1.trans h2) (by
    intro a b; simp only [Bool.or_eq_true, decide_eq_true_eq, Fl.le_iff]; exact le_total a.val b.val) l
  exact this.imp (by simp [Fl.le_iff])

theorem flDesc_perm (l : List Fl) : ((l.mergeSort fun u v => decide (u ≤ v)).reverse).Perm l :=
  (List.reverse_perm _).trans (List.mergeSort_perm l _)

/-! ### the field as a list of nodes -/

open Classical in
theorem card_nodesOf (f : PField Fl) (b : Body Fl) (P : ℝ → Prop) :
    (f.nodesOf b P).card = (cells f.nrows f.ncols).countP fun n => decide (P (b.share n.1 n.2)) := by
  have : f.nodesOf b P = ((cells f.nrows f.ncols).filter fun n => decide (P (b.share n.1 n.2))).toFinset := by
    ext n
    simp [PField.nodesOf, mem_cells]
  rw [this, List.toFinset_card_of_nodup ((cells_nodup _ _).filter _), List.countP_eq_length_filter]

theorem mem_nodesOf {f : PField Fl} {b : Body Fl} {P : ℝ → Prop} {n : ℕ × ℕ} : n ∈ f.nodesOf b P ↔ n ∈ cells f.nrows f.ncols ∧ P (b.share n.1 n.2) := by
  simp [PField.nodesOf, mem_cells]

/-- What a history of registrations of weight 1 leaves: whole numbers. -/
structure Census (f : PField Fl) (b : Body Fl) (N : ℕ) (c : ℕ → ℕ → ℕ) : Prop where
  rows : 3 ≤ f.nrows
  cols : 3 ≤ f.ncols
  prows : b.pgrid.rows = f.nrows
  pcols : b.pgrid.cols = f.ncols
  total : b.totalWeight.val = N
  entry : ∀ n ∈ cells f.nrows f.ncols, (b.pgrid.val n.1 n.2).val = c n.1 n.2 ∧ c n.1 n.2 ≤ N

theorem census {dx dy : Fl} {xo yo : Option Fl} {f0 f : PField Fl} {cs : List (PField.Call Fl)} (h0 : PField.new dx dy xo yo = .ok f0)
    (hw : ∀ w, PField.Call.register w ∈ cs → w.val = 1) (h : f0.run cs = some f) {b : Body Fl} (hb : f.body = some b) : ∃ N c, Census f b N c := by
  have k := PField.run_kept (Q := Counted) counted_zero cs f0 (PField.new_kept counted_zero h0) (fun w hc p t => counted_add (hw w hc)) h
  obtain ⟨s1, s2, s3, s4, s5, s6⟩ := k.shaped.grid b hb
  obtain ⟨⟨-, N, -, hN, -⟩, hp⟩ := k.body b hb
  have : ∀ n : ℕ × ℕ, ∃ m : ℕ, n ∈ cells f.nrows f.ncols → (b.pgrid.val n.1 n.2).val = m ∧ m ≤ N := by
    intro n
    by_cases hn : n ∈ cells f.nrows f.ncols
    · obtain ⟨h1, h2⟩ := mem_cells.mp hn
      obtain ⟨m, N', e1, e2, e3, -⟩ := hp n.1 n.2 h1 h2
      have : N' = N := by
        have := e2.symm.trans hN
        exact_mod_cast this
      exact ⟨m, fun _ => ⟨e1, by omega⟩⟩
    · exact ⟨0, fun h => absurd h hn⟩
  choose c hc using this
  exact ⟨N, fun i j => c (i, j), s1, s2, s3, s4, hN, fun n hn => hc n hn⟩

namespace Census
variable {f : PField Fl} {b : Body Fl} {N : ℕ} {c : ℕ → ℕ → ℕ}

theorem share (C : Census f b N c) {n : ℕ × ℕ} (hn : n ∈ cells f.nrows f.ncols) : b.share n.1 n.2 = c n.1 n.2 / N := by
  unfold Body.share; rw [(C.entry n hn).1, C.total]

theorem share_mem (C : Census f b N c) (N0 : 0 < N) {n : ℕ × ℕ} (hn : n ∈ cells f.nrows f.ncols) : 0 ≤ b.share n.1 n.2 ∧ b.share n.1 n.2 ≤ 1 := by
  rw [C.share hn]
  exact ⟨by positivity, (div_le_one (by exact_mod_cast N0)).mpr (by exact_mod_cast (C.entry n hn).2)⟩

theorem lt_iff (C : Census f b N c) (N0 : 0 < N) (hN : N < 2 ^ 52) {n m : ℕ × ℕ} (hn : n ∈ cells f.nrows f.ncols) (hm : m ∈ cells f.nrows f.ncols) :
    (Fl.of (b.share n.1 n.2)).val < (Fl.of (b.share m.1 m.2)).val ↔ b.share n.1 n.2 < b.share m.1 m.2 := by
  constructor
  · intro h
    by_contra hc
    exact absurd (round53_mono (not_lt.mp hc)) (not_le.mpr h)
  · intro h
    rw [C.share hn, C.share hm] at h ⊢
    have : (c n.1 n.2 : ℝ) < c m.1 m.2 := (div_lt_div_iff_of_pos_right (by exact_mod_cast N0)).mp h
    exact frequency_lt (C.entry m hm).2 hN (by exact_mod_cast this)

theorem zero_iff (_ : Census f b N c) {n : ℕ × ℕ} : (Fl.of (b.share n.1 n.2)).val = 0 ↔ b.share n.1 n.2 = 0 := by
  constructor
  · intro h
    rcases lt_trichotomy (b.share n.1 n.2) 0 with h1 | h1 | h1
    · have := round53_pos (by linarith : 0 < -b.share n.1 n.2)
      rw [round53_neg] at this
      have h2 : round53 (b.share n.1 n.2) = 0 := h
      rw [h2] at this; simp at this
    · exact h1
    · exact absurd h (round53_pos h1).ne'
  · intro h; rw [h]; exact round53_zero

theorem lt_one_iff (C : Census f b N c) (N0 : 0 < N) (hN : N < 2 ^ 52) {n : ℕ × ℕ} (hn : n ∈ cells f.nrows f.ncols) :
    (Fl.of (b.share n.1 n.2)).val < 1 ↔ b.share n.1 n.2 < 1 := by
  have one : round53 1 = 1 := by simpa using round53_zpow 0
  have N0' : (N : ℝ) ≠ 0 := by exact_mod_cast N0.ne'
  constructor
  · intro h
    by_contra hc
    have := round53_mono (not_lt.mp hc)
    rw [one] at this
    exact absurd this (not_le.mpr h)
  · intro h
    rw [C.share hn] at h ⊢
    have : (c n.1 n.2 : ℝ) < N := (div_lt_one (by exact_mod_cast N0)).mp h
    have := frequency_lt (le_refl N) hN (by exact_mod_cast this : c n.1 n.2 < N)
    rw [div_self N0', one] at this
    exact this

theorem flat (C : Census f b N c) : (flNormalized b).flat = (cells f.nrows f.ncols).map fun n => Fl.of (b.share n.1 n.2) := by
  rw [flat_eq]
  show (cells b.pgrid.rows b.pgrid.cols).map _ = _
  rw [C.prows, C.pcols]
  rfl

end Census

/-- What `create_impact_plot` computes. -/
theorem flImpactPlot_ok {f : PField Fl} {b : Body Fl} (hb : f.body = some b) (ht : 0 < b.totalWeight.val) (sq : Fl) :
    ∃ im, flImpactPlot sq f = .ok im ∧ im.pr = ((flNormalized b).flat.mergeSort fun u v => decide (u ≤ v)).reverse ∧
      im.area = (List.range im.pr.length).map (fun (k : ℕ) => ((k + 1 : ℕ) : Fl) * sq) ∧
      im.lo = argmax (im.pr.map fun v => decide (v < ((1 : ℕ) : Fl))) - 1 ∧ im.hi = min im.pr.length (argmax (im.pr.map fun v => decide (v = 0)) + 1) := by
  unfold flImpactPlot
  rw [hb]
  simp only
  rw [if_neg (by rw [Fl.le_iff, Fl.val_zero]; exact not_le.mpr ht)]
  exact ⟨_, rfl, rfl, rfl, rfl, rfl⟩

theorem flDecileLoop_ok (im : FlImpact) (P : Fl → Fl × Fl → Prop) : ∀ ps : List Fl, (∀ p ∈ ps, ∃ r, flDecile im p = .ok r ∧ P p r) →
    ∃ t, flDecileLoop im ps = .ok t ∧ t.length = ps.length ∧ ∀ (k : ℕ) (p : Fl), ps[k]? = some p → ∃ r, t[k]? = some r ∧ P p r := by
  intro ps
  induction ps with
  | nil => intro _; exact ⟨[], rfl, rfl, by simp⟩
  | cons p ps ih =>
    intro h
    obtain ⟨r, hr, hp⟩ := h p (by simp)
    obtain ⟨t, ht, hl, hk⟩ := ih fun q hq => h q (by simp [hq])
    refine ⟨r :: t, by unfold flDecileLoop; simp only [hr, ht], by simp [hl], fun k q hq => ?_⟩
    cases k with
    | zero => obtain rfl : p = q := by simpa using hq
              exact ⟨r, rfl, hp⟩
    | succ k => exact hk k q (by simpa using hq)

theorem flDecile_some (im : FlImpact) (p v a : Fl) (h1 : im.pr[argmax (im.pr.map fun v => decide (v ≤ p))]? = some v)
    (h2 : im.area[argmax (im.pr.map fun v => decide (v ≤ p))]? = some a) : flDecile im p = .ok (v, a) := by
  unfold flDecile
  simp only [h1, h2]

end Oneka
