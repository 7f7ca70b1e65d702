import Verif.Model.Visualize
import Verif.Spec.Visualize
import Verif.Lemmas.Refine
import Mathlib.Data.List.ProdSigma
import Mathlib.Data.Finset.Image

/-! Counting nodes; filling grids; sorted lists. -/

namespace Oneka
open PField

/-! ### nodes -/

/-- row and column numbers, row by row -/
def cells (r c : ℕ) : List (ℕ × ℕ) := (List.range r).flatMap fun i => (List.range c).map fun j => (i, j)

theorem mem_cells {r c : ℕ} {p : ℕ × ℕ} : p ∈ cells r c ↔ p.1 < r ∧ p.2 < c := by
  unfold cells
  simp only [List.mem_flatMap, List.mem_range, List.mem_map]
  constructor
  · rintro ⟨i, hi, j, hj, rfl⟩; exact ⟨hi, hj⟩
  · rintro ⟨h1, h2⟩; exact ⟨p.1, h1, p.2, h2, rfl⟩

theorem cells_nodup (r c : ℕ) : (cells r c).Nodup := by
  have : cells r c = (List.range r) ×ˢ (List.range c) := rfl
  rw [this]
  exact List.Nodup.product List.nodup_range List.nodup_range

theorem flat_eq {α : Type} (g : Grid α) : g.flat = (cells g.rows g.cols).map fun p => g.val p.1 p.2 := by
  unfold Grid.flat cells
  rw [List.map_flatMap]
  congr 1
  funext i
  rw [List.map_map]
  rfl

/-- position of a cell -/
def cellPos (f : PField ℝ) (b : Body ℝ) (p : ℕ × ℕ) : ℝ × ℝ := (b.xmin + p.2 * f.deltax, b.ymin + p.1 * f.deltay)

theorem cellPos_inj (f : PField ℝ) (b : Body ℝ) (hx : 0 < f.deltax) (hy : 0 < f.deltay) : Function.Injective (cellPos f b) := by
  rintro ⟨i, j⟩ ⟨i', j'⟩ h
  simp only [cellPos, Prod.mk.injEq, add_right_inj] at h
  have h1 : (j:ℝ) = j' := mul_right_cancel₀ hx.ne' h.1
  have h2 : (i:ℝ) = i' := mul_right_cancel₀ hy.ne' h.2
  rw [Nat.cast_inj.mp h1, Nat.cast_inj.mp h2]

theorem isNode_iff {f : PField ℝ} {b : Body ℝ} (hb : f.body = some b) (p : ℝ × ℝ) :
    f.IsNode p.1 p.2 ↔ ∃ c ∈ cells f.nrows f.ncols, cellPos f b c = p := by
  constructor
  · rintro ⟨b', hb', i, j, hi, hj, h1, h2⟩
    obtain rfl := Option.some.inj (hb'.symm.trans hb)
    exact ⟨(i, j), mem_cells.mpr ⟨hi, hj⟩, Prod.ext h1.symm h2.symm⟩
  · rintro ⟨⟨i, j⟩, hc, rfl⟩
    obtain ⟨hi, hj⟩ := mem_cells.mp hc
    exact ⟨b, hb, i, j, hi, hj, rfl, rfl⟩

theorem total_eq {f : PField ℝ} {b : Body ℝ} (hb : f.body = some b) : f.total = b.totalWeight := by
  unfold PField.total; rw [hb]

theorem probAt_cell {f : PField ℝ} {b : Body ℝ} (hf : f.WF) (hb : f.body = some b) {c : ℕ × ℕ} (hc : c ∈ cells f.nrows f.ncols) :
    f.probAt (cellPos f b c).1 (cellPos f b c).2 = (normalized b).val c.1 c.2 := by
  obtain ⟨hi, hj⟩ := mem_cells.mp hc
  have := lookAt_node f b hf.dx_pos hf.dy_pos hb Body.pgrid 0 c.1 c.2 hi hj
  unfold probAt weightAt
  rw [total_eq hb]
  unfold cellPos
  rw [this]
  rfl

open Classical in
theorem nodesWhere_eq {f : PField ℝ} {b : Body ℝ} (hf : f.WF) (hb : f.body = some b) (P : ℝ → Prop) :
    f.nodesWhere P = (cellPos f b) '' (((cells f.nrows f.ncols).filter fun c => P ((normalized b).val c.1 c.2)).toFinset : Set (ℕ × ℕ)) := by
  ext p
  simp only [nodesWhere, Set.mem_setOf_eq, Set.mem_image, Finset.mem_coe, List.mem_toFinset, List.mem_filter, decide_eq_true_eq]
  rw [isNode_iff hb]
  constructor
  · rintro ⟨⟨c, hc, rfl⟩, hP⟩
    rw [probAt_cell hf hb hc] at hP
    exact ⟨c, ⟨hc, hP⟩, rfl⟩
  · rintro ⟨c, ⟨hc, hP⟩, rfl⟩
    exact ⟨⟨c, hc, rfl⟩, by rw [probAt_cell hf hb hc]; exact hP⟩

open Classical in
theorem count_cells {f : PField ℝ} {b : Body ℝ} (hf : f.WF) (hb : f.body = some b) (P : ℝ → Prop) :
    (cells f.nrows f.ncols).countP (fun c => P ((normalized b).val c.1 c.2)) = (f.nodesWhere P).ncard ∧ (f.nodesWhere P).Finite := by
  rw [nodesWhere_eq hf hb]
  constructor
  · rw [Set.ncard_image_of_injective _ (cellPos_inj f b hf.dx_pos hf.dy_pos), Set.ncard_coe_finset,
      List.toFinset_card_of_nodup ((cells_nodup _ _).filter _), List.countP_eq_length_filter]
  · exact (Finset.finite_toSet _).image _

open Classical in
theorem count_flat {f : PField ℝ} {b : Body ℝ} (hf : f.WF) (hb : f.body = some b) (P : ℝ → Prop) :
    (normalized b).flat.countP (fun v => P v) = (f.nodesWhere P).ncard := by
  obtain ⟨-, -, -, -, h1, h2, -⟩ := hf.grid b hb
  rw [flat_eq, List.countP_map, ← (count_cells hf hb P).1]
  show (cells b.pgrid.rows b.pgrid.cols).countP _ = _
  rw [h1, h2]
  rfl

/-! ### sorted lists -/

theorem sorted_prefix (l : List ℝ) (h : l.Pairwise (· ≥ ·)) (p : ℝ) : ∀ (k : ℕ) (v : ℝ), l[k]? = some v →
    (p < v ↔ k < l.countP (fun v => decide (p < v))) := by
  induction l with
  | nil => intro k v hk; simp at hk
  | cons a l ih =>
    intro k v hk
    obtain ⟨h1, h2⟩ := List.pairwise_cons.mp h
    by_cases ha : p < a
    · rw [List.countP_cons_of_pos (by simpa using ha)]
      cases k with
      | zero =>
        obtain rfl : a = v := by simpa using hk
        exact ⟨fun _ => by omega, fun _ => ha⟩
      | succ k => rw [ih h2 k v (by simpa using hk)]; omega
    · have h0 : l.countP (fun v => decide (p < v)) = 0 := by
        rw [List.countP_eq_zero]
        intro x hx hpx
        have h3 : p < x := by simpa using hpx
        exact ha (h3.trans_le (h1 x hx))
      rw [List.countP_cons_of_neg (by simpa using ha), h0]
      refine ⟨fun hv => ?_, fun hk => absurd hk (by omega)⟩
      rcases List.mem_cons.mp (List.mem_of_getElem? hk) with rfl | hm
      · exact absurd hv ha
      · exact absurd (hv.trans_le (h1 v hm)) ha

theorem desc_sorted (l : List ℝ) : ((l.mergeSort fun u v => decide (u ≤ v)).reverse).Pairwise (· ≥ ·) := by
  rw [List.pairwise_reverse]
  have := List.pairwise_mergeSort (le := fun a b : ℝ => decide (a ≤ b)) (by
    intro a b c h1 h2; simp only [decide_eq_true_eq] at *; exact h1.trans h2) (by
    intro a b; simp only [Bool.or_eq_true, decide_eq_true_eq]; exact le_total a b) l
  exact this.imp (by simp)

theorem desc_perm (l : List ℝ) : ((l.mergeSort fun u v => decide (u ≤ v)).reverse).Perm l :=
  (List.reverse_perm _).trans (List.mergeSort_perm l _)

/-! ### argmax -/

theorem argmax_first (l : List Bool) (h : true ∈ l) : l[argmax l]? = some true ∧ ∀ k < argmax l, l[k]? = some false := by
  have hany : l.any id = true := by
    rw [List.any_eq_true]; exact ⟨true, h, rfl⟩
  have e : argmax l = l.idxOf true := by unfold argmax; rw [if_pos hany]
  have hlt : l.idxOf true < l.length := List.idxOf_lt_length_iff.mpr h
  rw [e]
  refine ⟨by rw [List.getElem?_eq_getElem hlt, List.getElem_idxOf], ?_⟩
  intro k hk
  rw [List.getElem?_eq_getElem (hk.trans hlt)]
  have : l[k]'(hk.trans hlt) ≠ true := fun hc => by
    have hk' : k < l.findIdx (· == true) := hk
    have := List.not_of_lt_findIdx hk'
    rw [hc] at this
    exact absurd this (by decide)
  simpa using this

theorem argmax_none (l : List Bool) (h : true ∉ l) : argmax l = 0 := by
  unfold argmax
  rw [if_neg]
  intro hc
  obtain ⟨x, hx, hx'⟩ := List.any_eq_true.mp hc
  have : x = true := hx'
  exact h (this ▸ hx)

/-! ### linspace -/

theorem linspace_length (a b : ℝ) (n : ℕ) : (linspace a b n).length = n := by unfold linspace; simp

theorem linspace_get (a b : ℝ) (n k : ℕ) (h : k < n) : (linspace a b n)[k]? = some (a + k * ((b - a) / ((n:ℝ) - 1))) := by
  unfold linspace
  rw [List.getElem?_map, List.getElem?_range h]
  rfl

theorem linspace_grid (a d : ℝ) (n k : ℕ) (hn : 2 ≤ n) (h : k < n) :
    (linspace a (a + ((n:ℝ) - 1) * d) n)[k]? = some (a + k * d) := by
  rw [linspace_get _ _ _ _ h]
  have : (n:ℝ) - 1 ≠ 0 := by
    have : (2:ℝ) ≤ n := by exact_mod_cast hn
    linarith
  congr 2
  field_simp
  ring

/-! ### filling a grid -/

theorem pyIndex_nat' {n i : ℕ} (h : i < n) : pyIndex n (i : ℤ) = .ok i := by
  unfold pyIndex
  rw [if_pos (by omega), if_pos (by omega)]
  simp

theorem Grid.set_ok {α : Type} (g : Grid α) {i j : ℕ} (hi : i < g.rows) (hj : j < g.cols) (v : α) :
    g.set i j v = .ok { g with val := fun p q => if p = i ∧ q = j then v else g.val p q } := by
  unfold Grid.set
  rw [pyIndex_nat' hi, pyIndex_nat' hj]

theorem Grid.get_ok {α : Type} (g : Grid α) {i j : ℕ} (hi : i < g.rows) (hj : j < g.cols) : g.get i j = .ok (g.val i j) := by
  unfold Grid.get
  rw [pyIndex_nat' hi, pyIndex_nat' hj]

theorem fillRow_ok (cell : ℕ → ℕ → Except PyErr XR) (v : ℕ → ℕ → XR) (i : ℕ) : ∀ (js : List ℕ) (g : Grid XR), i < g.rows →
    (∀ j ∈ js, j < g.cols) → (∀ j ∈ js, cell i j = .ok (v i j)) →
    ∃ g', fillRow cell i js g = .ok g' ∧ g'.rows = g.rows ∧ g'.cols = g.cols ∧
      ∀ p q, g'.val p q = if p = i ∧ q ∈ js then v i q else g.val p q := by
  intro js
  induction js with
  | nil => intro g _ _ _; exact ⟨g, rfl, rfl, rfl, by simp⟩
  | cons j js ih =>
    intro g hi hj hc
    obtain ⟨g', e, h1, h2, h3⟩ := ih { g with val := fun p q => if p = i ∧ q = j then v i j else g.val p q } hi
      (fun k hk => hj k (by simp [hk])) (fun k hk => hc k (by simp [hk]))
    refine ⟨g', ?_, h1, h2, ?_⟩
    · unfold fillRow
      rw [hc j (by simp)]
      simp only
      rw [Grid.set_ok g hi (hj j (by simp))]
      exact e
    · intro p q
      rw [h3]
      by_cases hp : p = i
      · by_cases hq : q ∈ js
        · simp [hp, hq]
        · by_cases hqj : q = j
          · simp [hp, hq, hqj]
          · simp [hp, hq, hqj]
      · simp [hp]

theorem fillRows_ok (cell : ℕ → ℕ → Except PyErr XR) (v : ℕ → ℕ → XR) (c : ℕ) : ∀ (is : List ℕ) (g : Grid XR), g.cols = c →
    (∀ i ∈ is, i < g.rows) → (∀ i ∈ is, ∀ j < c, cell i j = .ok (v i j)) →
    ∃ g', fillRows cell c is g = .ok g' ∧ g'.rows = g.rows ∧ g'.cols = g.cols ∧
      ∀ p q, g'.val p q = if p ∈ is ∧ q < c then v p q else g.val p q := by
  intro is
  induction is with
  | nil => intro g _ _ _; exact ⟨g, rfl, rfl, rfl, by simp⟩
  | cons i is ih =>
    intro g hcol hi hc
    obtain ⟨g1, e1, r1, c1, v1⟩ := fillRow_ok cell v i (List.range c) g (hi i (by simp)) (by simp [hcol])
      (fun j hj => hc i (by simp) j (List.mem_range.mp hj))
    obtain ⟨g', e, h1, h2, h3⟩ := ih g1 (c1.trans hcol) (fun k hk => by rw [r1]; exact hi k (by simp [hk]))
      (fun k hk => hc k (by simp [hk]))
    refine ⟨g', ?_, h1.trans r1, h2.trans c1, ?_⟩
    · unfold fillRows
      rw [e1]
      exact e
    · intro p q
      rw [h3, v1]
      by_cases hp : p = i
      · by_cases hp2 : p ∈ is
        · by_cases hq : q < c <;> simp [hp, hq, hp ▸ hp2]
        · by_cases hq : q < c <;> simp [hp, hq]
      · by_cases hp2 : p ∈ is
        · by_cases hq : q < c <;> simp [hp, hq, hp2]
        · simp [hp, hp2]

/-- If cells either give a value or `e`, and one of them gives `e`, then filling gives `e`. -/
theorem fillRow_error (cell : ℕ → ℕ → Except PyErr XR) (e : PyErr) (i : ℕ) : ∀ (js : List ℕ) (g : Grid XR), i < g.rows →
    (∀ j ∈ js, j < g.cols) → (∀ j ∈ js, ∀ e', cell i j = .error e' → e' = e) →
    ((∃ j ∈ js, cell i j = .error e) → fillRow cell i js g = .error e) ∧
    ((∃ g', fillRow cell i js g = .ok g' ∧ g'.rows = g.rows ∧ g'.cols = g.cols) ∨ fillRow cell i js g = .error e) := by
  intro js
  induction js with
  | nil => intro g _ _ _; exact ⟨by simp, Or.inl ⟨g, rfl, rfl, rfl⟩⟩
  | cons j js ih =>
    intro g hi hj hc
    unfold fillRow
    cases h : cell i j with
    | error e' =>
      obtain rfl := hc j (by simp) e' h
      exact ⟨fun _ => rfl, Or.inr rfl⟩
    | ok v =>
      simp only
      rw [Grid.set_ok g hi (hj j (by simp))]
      obtain ⟨h1, h2⟩ := ih { g with val := fun p q => if p = i ∧ q = j then v else g.val p q } hi
        (fun k hk => hj k (by simp [hk])) (fun k hk => hc k (by simp [hk]))
      refine ⟨?_, h2⟩
      rintro ⟨k, hk, hke⟩
      rcases List.mem_cons.mp hk with rfl | hk
      · rw [h] at hke; simp at hke
      · exact h1 ⟨k, hk, hke⟩

theorem fillRows_error (cell : ℕ → ℕ → Except PyErr XR) (e : PyErr) (c : ℕ) : ∀ (is : List ℕ) (g : Grid XR), g.cols = c →
    (∀ i ∈ is, i < g.rows) → (∀ i ∈ is, ∀ j < c, ∀ e', cell i j = .error e' → e' = e) →
    (∃ i ∈ is, ∃ j < c, cell i j = .error e) → fillRows cell c is g = .error e := by
  intro is
  induction is with
  | nil => intro g _ _ _ h; simp at h
  | cons i is ih =>
    intro g hcol hi hc hex
    unfold fillRows
    obtain ⟨h1, h2⟩ := fillRow_error cell e i (List.range c) g (hi i (by simp)) (by simp [hcol])
      (fun j hj => hc i (by simp) j (List.mem_range.mp hj))
    rcases h2 with ⟨g', e1, r1, c1⟩ | e1
    · rw [e1]
      refine ih g' (c1.trans hcol) (fun k hk => by rw [r1]; exact hi k (by simp [hk])) (fun k hk => hc k (by simp [hk])) ?_
      obtain ⟨k, hk, j, hj, hje⟩ := hex
      rcases List.mem_cons.mp hk with rfl | hk
      · rw [h1 ⟨j, List.mem_range.mpr hj, hje⟩] at e1; simp at e1
      · exact ⟨k, hk, j, hj, hje⟩
    · rw [e1]

/-! ### filled cells -/

open Classical in
/-- the rectangle around a cell -/
noncomputable def cellRect (f : PField ℝ) (b : Body ℝ) (c : ℕ × ℕ) : Rect :=
  ⟨(cellPos f b c).1 - f.deltax / 2, (cellPos f b c).1 + f.deltax / 2, (cellPos f b c).2 - f.deltay / 2, (cellPos f b c).2 + f.deltay / 2⟩

open Classical in
theorem areaRow_ok (z : Grid ℝ) (dx dy : ℝ) (i : ℕ) (y : ℝ) (hi : i < z.rows) : ∀ (xs : List (ℕ × ℝ)) (acc : List Rect × ℝ),
    (∀ p ∈ xs, p.1 < z.cols) → areaRow z dx dy i y xs acc =
      .ok (acc.1 ++ ((xs.filter fun p => 0 < z.val i p.1).map fun p => ⟨p.2 - dx / 2, p.2 + dx / 2, y - dy / 2, y + dy / 2⟩),
        acc.2 + (xs.countP fun p => 0 < z.val i p.1) * (dx * dy)) := by
  intro xs
  induction xs with
  | nil => intro acc _; simp [areaRow]
  | cons p xs ih =>
    intro acc hj
    obtain ⟨j, x⟩ := p
    unfold areaRow
    rw [Grid.get_ok z hi (hj (j, x) (by simp))]
    simp only
    by_cases hv : 0 < z.val i j
    · rw [if_pos hv, ih _ (fun p hp => hj p (by simp [hp])), List.filter_cons_of_pos (by simpa using hv), List.countP_cons_of_pos (by simpa using hv)]
      simp only [List.map_cons, List.append_assoc, List.cons_append, List.nil_append, Except.ok.injEq, Prod.mk.injEq, true_and]
      push_cast
      ring
    · rw [if_neg hv, ih _ (fun p hp => hj p (by simp [hp])), List.filter_cons_of_neg (by simpa using hv), List.countP_cons_of_neg (by simpa using hv)]

open Classical in
theorem areaRows_ok (z : Grid ℝ) (dx dy : ℝ) (xs : List (ℕ × ℝ)) (hx : ∀ p ∈ xs, p.1 < z.cols) : ∀ (ys : List (ℕ × ℝ)) (acc : List Rect × ℝ),
    (∀ p ∈ ys, p.1 < z.rows) → areaRows z dx dy xs ys acc =
      .ok (acc.1 ++ ys.flatMap (fun r => (xs.filter fun p => 0 < z.val r.1 p.1).map fun p =>
          ⟨p.2 - dx / 2, p.2 + dx / 2, r.2 - dy / 2, r.2 + dy / 2⟩),
        acc.2 + (ys.map fun r => xs.countP fun p => 0 < z.val r.1 p.1).sum * (dx * dy)) := by
  intro ys
  induction ys with
  | nil => intro acc _; simp [areaRows]
  | cons r ys ih =>
    intro acc hy
    obtain ⟨i, y⟩ := r
    unfold areaRows
    rw [areaRow_ok z dx dy i y (hy (i, y) (by simp)) xs acc hx]
    simp only
    rw [ih _ (fun p hp => hy p (by simp [hp]))]
    simp only [List.flatMap_cons, List.append_assoc, List.map_cons, List.sum_cons, Except.ok.injEq, Prod.mk.injEq, true_and]
    push_cast
    ring

theorem enumerate_eq (a d : ℝ) (n : ℕ) (hn : 2 ≤ n) :
    enumerate (linspace a (a + ((n:ℝ) - 1) * d) n) = (List.range n).map fun (k : ℕ) => (k, a + (k:ℝ) * d) := by
  apply List.ext_getElem?
  intro k
  unfold enumerate
  rw [linspace_length]
  by_cases h : k < n
  · have hz : ((List.range n).zip (linspace a (a + ((n:ℝ) - 1) * d) n))[k]? = some (k, a + (k:ℝ) * d) :=
      (List.getElem?_zip_eq_some (z := (k, a + (k:ℝ) * d))).mpr ⟨List.getElem?_range h, linspace_grid a d n k hn h⟩
    rw [hz, List.getElem?_map, List.getElem?_range h]
    rfl
  · rw [List.getElem?_eq_none (by simp [linspace_length]; omega), List.getElem?_eq_none (by simp; omega)]

end Oneka
