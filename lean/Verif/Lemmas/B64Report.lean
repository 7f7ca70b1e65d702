import Verif.Lemmas.B64Run

/-! # Lemmas for C126: the report in binary64 -/

namespace Oneka

theorem flat_map {α β : Type} (h : α → β) {g : Grid α} {g' : Grid β} (hr : g'.rows = g.rows) (hc : g'.cols = g.cols) (hv : ∀ i j, i < g.rows → j < g.cols → g'.val i j = h (g.val i j)) : g'.flat = g.flat.map h := by
  unfold Grid.flat
  rw [hr, hc, List.map_flatMap]
  refine List.flatMap_congr fun i hi => ?_
  rw [List.map_map]
  refine List.map_congr_left fun j hj => ?_
  exact hv i j (List.mem_range.mp hi) (List.mem_range.mp hj)

theorem argmax_map {α β : Type} {h : α → β} {p : β → Bool} {q : α → Bool} {l : List α} (hp : ∀ a ∈ l, p (h a) = q a) : argmax ((l.map h).map p) = argmax (l.map q) := by
  rw [List.map_map]
  exact congrArg argmax (List.map_congr_left fun a ha => hp a ha)

theorem forall₂_map_self {α β : Type} {R : β → α → Prop} {h : α → β} {l : List α} (hl : ∀ a ∈ l, R (h a) a) : List.Forall₂ R (l.map h) l := by
  induction l with
  | nil => exact .nil
  | cons a l ih => exact .cons (hl a (by simp)) (ih fun a ha => hl a (by simp [ha]))

theorem mem_flat {α : Type} {g : Grid α} {a : α} (h : a ∈ g.flat) : ∃ i j, i < g.rows ∧ j < g.cols ∧ a = g.val i j := by
  unfold Grid.flat at h
  obtain ⟨i, hi, h⟩ := List.mem_flatMap.mp h
  obtain ⟨j, hj, rfl⟩ := List.mem_map.mp h
  exact ⟨i, j, List.mem_range.mp hi, List.mem_range.mp hj, rfl⟩

section
variable [LibObs]

theorem impact_same (hl : LibObs.Accurate) {c : PField B64} {f : PField Fl} (h : PField.Is64 c f) {d : Fl} (hd : d.Ordinary)
    (hw : ∀ b, f.body = some b → b.totalWeight.Ordinary ∧ (∀ i j, i < b.pgrid.rows → j < b.pgrid.cols → (b.pgrid.val i j).Ordinary) ∧ b.pgrid.rows * b.pgrid.cols ≤ 2 ^ 40) :
    Alike (fun b x => B64Impact.Is64 b x ∧ b.pr = x.pr.map Fl.to64 ∧ ∀ v ∈ x.pr, Same 184 132 v.to64 v)
      (b64ImpactPlot (b64Square d.to64) c) (flImpactPlot (LibObs.square d) f) := by
  have hb := h.body
  unfold b64ImpactPlot flImpactPlot
  revert hb hw
  generalize c.body = s
  generalize f.body = t
  intro hw hb
  match s, t, hb with
  | none, none, _ => rfl
  | some s, some t, ⟨_, h2, ⟨h3, h4, h5⟩, _⟩ =>
    obtain ⟨w1, w2, w3⟩ := hw t rfl
    have tot : Same 92 40 s.totalWeight t.totalWeight := ⟨h2, w1.same.2⟩
    have z := tot.le_iff (Same.zero (g := 0) (k := 0) (by norm_num) (by norm_num))
    simp only
    by_cases h0 : t.totalWeight ≤ 0
    · rw [if_pos h0, if_pos (z.mpr h0)]; rfl
    · rw [if_neg h0, if_neg (z.not.mpr h0)]
      have pos : t.totalWeight.val ≠ 0 := by
        intro e
        refine h0 ?_
        rw [Fl.le_iff, Fl.val_zero, e]
      have nrm : ∀ i j, i < t.pgrid.rows → j < t.pgrid.cols → Same 184 132 (s.pgrid.val i j / s.totalWeight) (t.pgrid.val i j / t.totalWeight) := fun i j hi hj =>
        (show Same 92 40 (s.pgrid.val i j) (t.pgrid.val i j) from ⟨h5 i j, (w2 i j hi hj).same.2⟩).div tot pos (by norm_num) (by norm_num)
      have flat : (b64Normalized s).flat = (flNormalized t).flat.map Fl.to64 :=
        flat_map Fl.to64 (g := flNormalized t) (g' := b64Normalized s) h3 h4 fun i j hi hj => Is64.to64 (nrm i j hi hj).1
      have all : ∀ v ∈ (flNormalized t).flat, Same 184 132 v.to64 v := by
        intro v hv
        obtain ⟨i, j, hi, hj, rfl⟩ := mem_flat hv
        have := nrm i j hi hj
        rw [Is64.to64 this.1] at this
        exact this
      have len : (flNormalized t).flat.length ≤ 2 ^ 40 := by
        have : (flNormalized t).flat.length = t.pgrid.rows * t.pgrid.cols := by simp [Grid.flat, flNormalized, Function.comp_def]
        omega
      have pr : ((b64Normalized s).flat.mergeSort fun u v => decide (u ≤ v)).reverse = ((flNormalized t).flat.mergeSort fun u v => decide (u ≤ v)).reverse.map Fl.to64 := by
        rw [flat, List.map_reverse]
        congr 1
        symm
        exact List.map_mergeSort fun a ha b hb => decide_eq_decide.mpr ((all a ha).le_iff (all b hb)).symm
      rw [pr]
      set p := ((flNormalized t).flat.mergeSort fun u v => decide (u ≤ v)).reverse with hp
      have allp : ∀ v ∈ p, Same 184 132 v.to64 v := fun v hv => all v (by
        rw [hp, List.mem_reverse] at hv
        exact (List.mergeSort_perm _ _).mem_iff.mp hv)
      have lenp : p.length ≤ 2 ^ 40 := by rw [hp, List.length_reverse, List.length_mergeSort]; exact len
      have sq := hd.same.square hl (by norm_num) (by norm_num)
      have area : ∀ k ∈ List.range p.length, Is64 (((k + 1 : ℕ) : B64) * b64Square d.to64) (((k + 1 : ℕ) : Fl) * LibObs.square d) := by
        intro k hk
        have hk := List.mem_range.mp hk
        have n : Same 0 41 ((k + 1 : ℕ) : B64) ((k + 1 : ℕ) : Fl) := Same.nat (k + 1) (by
          rw [abs_of_nonneg (by positivity)]
          have : ((k + 1 : ℕ) : ℝ) ≤ ((2 ^ 41 : ℕ) : ℝ) := by exact_mod_cast (by omega)
          refine this.trans ?_
          norm_num) (by norm_num)
        exact (n.mul sq (by norm_num) (by norm_num)).1
      have area' : (List.range (p.map Fl.to64).length).map (fun (k : ℕ) => ((k + 1 : ℕ) : B64) * b64Square d.to64) = ((List.range p.length).map fun (k : ℕ) => ((k + 1 : ℕ) : Fl) * LibObs.square d).map Fl.to64 := by
        rw [List.length_map, List.map_map]
        exact List.map_congr_left fun k hk => Is64.to64 (area k hk)
      have lt1 : ∀ v ∈ p, decide (v.to64 < ((1 : ℕ) : B64)) = decide (v < ((1 : ℕ) : Fl)) := fun v hv => decide_eq_decide.mpr ((allp v hv).lt_iff one_same)
      have eq0 : ∀ v ∈ p, decide (v.to64 = (0 : B64)) = decide (v = (0 : Fl)) := fun v hv =>
        decide_eq_decide.mpr ((allp v hv).eq_iff (Same.zero (g := 0) (k := 0) (by norm_num) (by norm_num)))
      refine ⟨⟨forall₂_map_self fun v hv => (allp v hv).1, ?_, ?_, ?_⟩, rfl, allp⟩
      · rw [area']
        refine forall₂_map_self fun v hv => ?_
        obtain ⟨k, hk, rfl⟩ := List.mem_map.mp hv
        have := area k hk
        rw [Is64.to64 this] at this
        exact this
      · exact congrArg (· - 1) (argmax_map lt1)
      · simp only [List.length_map]
        exact congrArg (fun n => min p.length (n + 1)) (argmax_map eq0)

omit [LibObs] in
theorem linspace_same : List.Forall₂ (Same 300 100) (b64Linspace (B64.of (.fin (5/100))) (B64.of (.fin (95/100))) 19) (flLinspace (Fl.of (5/100)) (Fl.of (95/100)) 19) := by
  have a : Same (5 + 52) 0 (B64.of (.fin (5/100))) (Fl.of (5/100)) := Same.of_size (Or.inr (by norm_num [abs_of_pos])) (by norm_num [abs_of_pos]) (by norm_num) (by norm_num)
  have b : Same (5 + 52) 0 (B64.of (.fin (95/100))) (Fl.of (95/100)) := Same.of_size (Or.inr (by norm_num [abs_of_pos])) (by norm_num [abs_of_pos]) (by norm_num) (by norm_num)
  have n18 : Same 0 5 ((19 - 1 : ℕ) : B64) ((19 - 1 : ℕ) : Fl) := Same.nat 18 (by norm_num) (by norm_num)
  have ne : (((19 - 1 : ℕ) : Fl)).val ≠ 0 := by have := Fl.of_nat 18 (by norm_num); show (Fl.of ((18:ℕ):ℝ)).val ≠ 0; rw [this]; norm_num
  have step := (b.sub a (by norm_num) (by norm_num)).div n18 ne (by norm_num) (by norm_num)
  unfold b64Linspace flLinspace
  rw [List.forall₂_map_left_iff, List.forall₂_map_right_iff]
  refine List.forall₂_same.mpr fun k hk => ?_
  have hk := List.mem_range.mp hk
  by_cases h : k + 1 = 19 ∧ 1 < 19
  · rw [if_pos h, if_pos h]; exact b.mono (by norm_num) (by norm_num)
  · rw [if_neg h, if_neg h]
    have n : Same 0 5 ((k : ℕ) : B64) ((k : ℕ) : Fl) := Same.nat k (by
      rw [abs_of_nonneg (by positivity)]
      have : (k : ℝ) ≤ ((32 : ℕ) : ℝ) := by exact_mod_cast (by omega)
      refine this.trans ?_
      norm_num) (by norm_num)
    exact ((n.mul step (by norm_num) (by norm_num)).add (a.mono (by norm_num) (by norm_num)) (by norm_num) (by norm_num)).mono (by norm_num) (by norm_num)

omit [LibObs] in
theorem deciles_same {im64 : B64Impact} {im : FlImpact} (h : B64Impact.Is64 im64 im) (h1 : im64.pr = im.pr.map Fl.to64)
    (h5 : ∀ v ∈ im.pr, Same 184 132 v.to64 v) {l64 : List B64} {l : List Fl} (hl : List.Forall₂ (Same 300 100) l64 l) :
    Alike (List.Forall₂ Is64Pair) (b64DecileLoop im64 l64) (flDecileLoop im l) := by
  induction hl with
  | nil => exact .nil
  | @cons t64 t _ _ ht _ ih =>
    have one : Alike Is64Pair (b64Decile im64 t64) (flDecile im t) := by
      have e : argmax (im64.pr.map fun v => decide (v ≤ t64)) = argmax (im.pr.map fun v => decide (v ≤ t)) := by
        rw [h1]
        exact argmax_map fun v hv => decide_eq_decide.mpr ((h5 v hv).le_iff ht)
      unfold b64Decile flDecile
      simp only [e]
      generalize argmax (im.pr.map fun v => decide (v ≤ t)) = i
      have q1 := h.pr
      have q2 := h.area
      have l1 := q1.length_eq
      have l2 := q2.length_eq
      by_cases c1 : i < im.pr.length
      · by_cases c2 : i < im.area.length
        · rw [List.getElem?_eq_getElem c1, List.getElem?_eq_getElem c2, List.getElem?_eq_getElem (by omega : i < im64.pr.length), List.getElem?_eq_getElem (by omega : i < im64.area.length)]
          exact ⟨(List.forall₂_iff_get.mp q1).2 i (by omega) c1, (List.forall₂_iff_get.mp q2).2 i (by omega) c2⟩
        · rw [List.getElem?_eq_none (not_lt.mp c2), List.getElem?_eq_none (by omega : im64.area.length ≤ i), List.getElem?_eq_getElem c1, List.getElem?_eq_getElem (by omega : i < im64.pr.length)]
          rfl
      · rw [List.getElem?_eq_none (not_lt.mp c1), List.getElem?_eq_none (by omega : im64.pr.length ≤ i)]
        rfl
    unfold b64DecileLoop flDecileLoop
    revert one ih
    generalize b64Decile _ _ = a
    generalize flDecile _ _ = b
    generalize b64DecileLoop _ _ = c
    generalize flDecileLoop _ _ = d
    intro rs r
    match a, b, r with
    | .error e, .error e', g => exact g
    | .ok u, .ok v, g =>
      match c, d, rs with
      | .error e, .error e', r => exact r
      | .ok us, .ok vs, r => exact .cons g r

end

end Oneka
