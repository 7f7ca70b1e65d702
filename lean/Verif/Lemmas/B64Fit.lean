import Verif.Lemmas.B64Filter
import Verif.Lemmas.FlDist

/-! # Lemmas for C126: random parameters and the fit in binary64 -/

namespace Oneka

theorem Fl.IsDraw.same {u : Fl} (h : u.IsDraw) : Same 112 0 u.to64 u ∧ 0 ≤ u.val ∧ u.val ≤ 1 := by
  rcases h with h | ⟨h1, h2⟩
  · exact ⟨Same.of_fl (by rw [h]; exact Rng.zero _ _) (by norm_num) (by norm_num), h.ge, by rw [h]; norm_num⟩
  · have h0 : 0 < u.val := (two_zpow_pos (-60)).trans_le h1
    have e : |u.val| = u.val := abs_of_pos h0
    exact ⟨Same.of_fl (Rng.of_val (c := 60) (by rw [e]; exact h1) (by rw [e, zpow_zero]; exact h2)) (by norm_num) (by norm_num), h0.le, h2⟩

theorem fl_one : (((1 : ℕ) : Fl)).val = 1 := by
  have := Fl.of_nat 1 (by norm_num)
  rw [Nat.cast_one] at this
  show (Fl.of ((1:ℕ):ℝ)).val = 1
  rw [Nat.cast_one]; exact this

theorem sub_ne {x y : Fl} (h : x ≠ y) : (x - y).val ≠ 0 := by
  intro e
  have : round53 (x.val - y.val) = 0 := e
  refine h (Fl.ext' ?_)
  by_contra hne
  rcases lt_or_gt_of_ne hne with hl | hl
  · have := round53_pos (x := y.val - x.val) (by linarith)
    rw [show y.val - x.val = -(x.val - y.val) by ring, round53_neg] at this
    linarith
  · have := round53_pos (x := x.val - y.val) (by linarith)
    linarith

section
variable [LibM]

theorem uniform_same {a b u : Fl} (ha : a.Ordinary) (hb : b.Ordinary) (hu : u.IsDraw) : Same 500 200 (b64Uniform a.to64 b.to64 u.to64) (flUniform a b u) := by
  have d := (hb.same.sub ha.same (by norm_num) (by norm_num)).mul hu.same.1 (by norm_num) (by norm_num)
  exact ((ha.same.mono (by norm_num) (by norm_num)).add d (by norm_num) (by norm_num)).mono (by norm_num) (by norm_num)

theorem triangular_same {a m b u : Fl} (ha : a.Ordinary) (hm : m.Ordinary) (hb : b.Ordinary) (hu : u.IsDraw) :
    Alike (Same 500 200) (b64Triangular a.to64 m.to64 b.to64 u.to64) (flTriangular a m b u) := by
  unfold b64Triangular flTriangular
  have c1 := hm.same.lt_iff ha.same
  have c2 := hb.same.lt_iff hm.same
  have c3 := ha.same.eq_iff hb.same
  by_cases h1 : m < a
  · rw [if_pos h1, if_pos (c1.mpr h1)]; rfl
  by_cases h2 : b < m
  · rw [if_neg h1, if_neg (c1.not.mpr h1), if_pos h2, if_pos (c2.mpr h2)]; rfl
  by_cases h3 : a = b
  · rw [if_neg h1, if_neg (c1.not.mpr h1), if_neg h2, if_neg (c2.not.mpr h2), if_pos h3, if_pos (c3.mpr h3)]; rfl
  rw [if_neg h1, if_neg (c1.not.mpr h1), if_neg h2, if_neg (c2.not.mpr h2), if_neg h3, if_neg (c3.not.mpr h3)]
  obtain ⟨su, u0, u1⟩ := hu.same
  have am : a.val ≤ m.val := not_lt.mp fun h => h1 (by rw [Fl.lt_iff]; exact h)
  have mb : m.val ≤ b.val := not_lt.mp fun h => h2 (by rw [Fl.lt_iff]; exact h)
  have base := hb.same.sub ha.same (by norm_num) (by norm_num)
  have left := hm.same.sub ha.same (by norm_num) (by norm_num)
  have right := hb.same.sub hm.same (by norm_num) (by norm_num)
  have ratio := left.div base (sub_ne (Ne.symm h3)) (by norm_num) (by norm_num)
  have lp := su.mul (left.mul base (by norm_num) (by norm_num)) (by norm_num) (by norm_num)
  have one := (one_same.mono (g' := 112) (k' := 0) (by norm_num) (by norm_num)).sub su (by norm_num) (by norm_num)
  have rp := one.mul (right.mul base (by norm_num) (by norm_num)) (by norm_num) (by norm_num)
  have n1 : 0 ≤ (b - a).val := round53_nonneg (by linarith)
  have n2 : 0 ≤ (m - a).val := round53_nonneg (by linarith)
  have n3 : 0 ≤ (b - m).val := round53_nonneg (by linarith)
  have n4 : 0 ≤ (((1 : ℕ) : Fl) - u).val := round53_nonneg (by rw [fl_one]; linarith)
  have n5 : 0 ≤ (u * ((m - a) * (b - a))).val := round53_nonneg (mul_nonneg u0 (round53_nonneg (mul_nonneg n2 n1)))
  have n6 : 0 ≤ ((((1 : ℕ) : Fl) - u) * ((b - m) * (b - a))).val := round53_nonneg (mul_nonneg n4 (round53_nonneg (mul_nonneg n3 n1)))
  have r1 := lp.sqrt n5 (by norm_num) (by norm_num) (by norm_num) (by norm_num)
  have r2 := rp.sqrt n6 (by norm_num) (by norm_num) (by norm_num) (by norm_num)
  have c4 := su.le_iff ratio
  simp only
  by_cases h4 : u ≤ (m - a) / (b - a)
  · rw [if_pos h4, if_pos (c4.mpr h4)]
    exact ((ha.same.mono (by norm_num) (by norm_num)).add r1 (by norm_num) (by norm_num)).mono (by norm_num) (by norm_num)
  · rw [if_neg h4, if_neg (c4.not.mpr h4)]
    exact ((hb.same.mono (by norm_num) (by norm_num)).sub r2 (by norm_num) (by norm_num)).mono (by norm_num) (by norm_num)

theorem sample_same {d : FlDist} (hd : d.Ordinary) {u : Fl} (hu : u.IsDraw) : Alike (Same 500 200) (d.to64.sample u.to64) (d.sample u) := by
  cases d with
  | const c => exact Same.mono (Fl.Ordinary.same hd) (by norm_num) (by norm_num)
  | pair a b => exact uniform_same hd.1 hd.2 hu
  | triple a m b => exact triangular_same hd.1 hd.2.1 hd.2.2 hu

omit [LibM] in
theorem mean_same {d : FlDist} (hd : d.Ordinary) : Same 500 200 d.to64.mean d.mean := by
  have two : (((2 : ℕ) : Fl)).val ≠ 0 := by have := Fl.of_nat 2 (by norm_num); show (Fl.of ((2:ℕ):ℝ)).val ≠ 0; rw [this]; norm_num
  have three : (((3 : ℕ) : Fl)).val ≠ 0 := by have := Fl.of_nat 3 (by norm_num); show (Fl.of ((3:ℕ):ℝ)).val ≠ 0; rw [this]; norm_num
  have s2 : Same 0 2 ((2 : ℕ) : B64) ((2 : ℕ) : Fl) := Same.nat 2 (by norm_num) (by norm_num)
  have s3 : Same 0 2 ((3 : ℕ) : B64) ((3 : ℕ) : Fl) := Same.nat 3 (by norm_num) (by norm_num)
  cases d with
  | const c => exact Same.mono (Fl.Ordinary.same hd) (by norm_num) (by norm_num)
  | pair a b => exact ((hd.1.same.add hd.2.same (by norm_num) (by norm_num)).div s2 two (by norm_num) (by norm_num)).mono (by norm_num) (by norm_num)
  | triple a m b =>
    exact (((hd.1.same.add hd.2.1.same (by norm_num) (by norm_num)).add (hd.2.2.same.mono (by norm_num) (by norm_num)) (by norm_num) (by norm_num)).div s3 three (by norm_num) (by norm_num)).mono
      (by norm_num) (by norm_num)

namespace Aquifer
variable [LibObs] {m : Aquifer Fl}

/-- expected value and standard deviation of the potential -/
theorem fosm_same (hl : LibObs.Accurate) (hm : m.Ordinary) (hb : m.base.Ordinary) {o : FlObs} (ho : o.Ordinary) :
    Alike (fun b x => Same 400 200 b.1 x.1 ∧ Same 276 121 b.2 x.2 ∧ 0 < x.2.val) (m.to64.b64Fosm o.to64) (m.flFosm o) := by
  obtain ⟨hc, c0⟩ := hm.conductivity
  obtain ⟨ht, t0⟩ := hm.thickness
  obtain ⟨hs, s0⟩ := ho.std
  have head := ho.z.same.sub hb.same (by norm_num) (by norm_num)
  have ct := hc.same.mul ht.same (by norm_num) (by norm_num)
  unfold b64Fosm flFosm
  simp only
  have c1 := ht.same.le_iff head
  have c2 := (Same.zero (g := 0) (k := 0) (by norm_num) (by norm_num)).lt_iff head
  by_cases h1 : m.thickness ≤ o.z - m.base
  · rw [if_pos h1, if_pos (show m.to64.thickness ≤ o.to64.z - m.to64.base from c1.mpr h1)]
    have e1 := ct.mul ((head.mono (g' := 145) (k' := 41) (by norm_num) (by norm_num)).sub ((q_half.mul ht.same (by norm_num) (by norm_num)).mono (by norm_num) (by norm_num)) (by norm_num) (by norm_num)) (by norm_num) (by norm_num)
    have e2 := ct.mul hs.same (by norm_num) (by norm_num)
    exact ⟨e1.mono (by norm_num) (by norm_num), e2.mono (by norm_num) (by norm_num), mul_pos53 (mul_pos53 c0 t0) s0⟩
  · rw [if_neg h1, if_neg (show ¬ m.to64.thickness ≤ o.to64.z - m.to64.base from c1.not.mpr h1)]
    by_cases h2 : 0 < (o.z - m.base).val
    · have h2' : (0 : Fl) < o.z - m.base := by rw [Fl.lt_iff, Fl.val_zero]; exact h2
      rw [if_pos h2, if_pos (show 0 < o.to64.z - m.to64.base from c2.mpr h2')]
      have q1 := head.square hl (by norm_num) (by norm_num)
      have q2 := (hs.same.square hl (by norm_num) (by norm_num)).mono (g' := 2 * 92 + 53) (k' := 2 * (40 + 1) + 1) (by norm_num) (by norm_num)
      have e1 := (q_half.mul hc.same (by norm_num) (by norm_num)).mul (q1.add q2 (by norm_num) (by norm_num)) (by norm_num) (by norm_num)
      have e2 := (hc.same.mul head (by norm_num) (by norm_num)).mul hs.same (by norm_num) (by norm_num)
      exact ⟨e1.mono (by norm_num) (by norm_num), e2.mono (by norm_num) (by norm_num), mul_pos53 (mul_pos53 c0 h2) s0⟩
    · have h2' : ¬ (0 : Fl) < o.z - m.base := by rw [Fl.lt_iff, Fl.val_zero]; exact h2
      rw [if_neg h2, if_neg (show ¬ 0 < o.to64.z - m.to64.base from c2.not.mpr h2')]
      rfl

theorem row_same (hlog : LogAccurate) (hl : LibObs.Accurate) (hm : m.Ordinary) (hb : m.base.Ordinary) {o : FlObs} (ho : o.Ordinary) (hw : m.exact.OffWells o.x.val o.y.val) {xo yo : Fl} (hx : xo.Ordinary)
    (hy : yo.Ordinary) : Alike IsRow64 (m.to64.b64FitRow xo.to64 yo.to64 o.to64) (m.flFitRow xo yo o) := by
  have f := fosm_same hl hm hb ho
  unfold b64FitRow flFitRow
  revert f
  generalize m.to64.b64Fosm o.to64 = s
  generalize m.flFosm o = t
  intro f
  match s, t, f with
  | .error e, .error e', f => exact f
  | .ok (v64, d64), .ok (v, d), ⟨f1, f2, f3⟩ =>
    simp only
    have d0 : ¬ d64 = 0 := by
      rw [f2.eq_iff (Same.zero (g := 0) (k := 0) (by norm_num) (by norm_num))]
      rintro rfl
      rw [Fl.val_zero] at f3
      exact lt_irrefl _ f3
    rw [if_neg (by simp [d0]), if_neg (by simp [f3.ne'])]
    have dx := ho.x.same.sub hx.same (by norm_num) (by norm_num)
    have dy := ho.y.same.sub hy.same (by norm_num) (by norm_num)
    have w := same_wells hlog hm ho.x ho.y hw
    have dv : ∀ {b : B64} {x : Fl}, Same 400 201 b x → Is64 (b / d64) (x / d) := fun h => (h.div f2 f3.ne' (by norm_num) (by norm_num)).1
    refine ⟨fun i => ?_, dv (f1.sub (w.mono (by norm_num) (by norm_num)) (by norm_num) (by norm_num))⟩
    have q1 := (dx.square hl (by norm_num) (by norm_num)).mono (g' := 400) (k' := 201) (by norm_num) (by norm_num)
    have q2 := (dy.square hl (by norm_num) (by norm_num)).mono (g' := 400) (k' := 201) (by norm_num) (by norm_num)
    have q3 := (dx.mul dy (by norm_num) (by norm_num)).mono (g' := 400) (k' := 201) (by norm_num) (by norm_num)
    have q4 := dx.mono (g' := 400) (k' := 201) (by norm_num) (by norm_num)
    have q5 := dy.mono (g' := 400) (k' := 201) (by norm_num) (by norm_num)
    have q6 := one_same.mono (g' := 400) (k' := 201) (by norm_num) (by norm_num)
    fin_cases i
    exacts [dv q1, dv q2, dv q3, dv q4, dv q5, dv q6]

theorem construct_same (hlog : LogAccurate) (hl : LibObs.Accurate) (hm : m.Ordinary) (hb : m.base.Ordinary) {xo yo : Fl} (hx : xo.Ordinary) (hy : yo.Ordinary) (os : List FlObs) (ho : ∀ o ∈ os, o.Ordinary)
    (hw : ∀ o ∈ os, m.exact.OffWells o.x.val o.y.val) : Alike (List.Forall₂ IsRow64) (m.to64.b64ConstructFit xo.to64 yo.to64 (os.map FlObs.to64)) (m.flConstructFit xo yo os) := by
  induction os with
  | nil => exact .nil
  | cons o os ih =>
    have r := row_same hlog hl hm hb (ho o (by simp)) (hw o (by simp)) hx hy
    have rs := ih (fun o h => ho o (by simp [h])) fun o h => hw o (by simp [h])
    simp only [List.map_cons, b64ConstructFit, flConstructFit]
    revert r rs
    generalize m.to64.b64FitRow _ _ _ = a
    generalize m.flFitRow _ _ _ = b
    generalize m.to64.b64ConstructFit _ _ _ = c
    generalize m.flConstructFit _ _ _ = d
    intro r rs
    match a, b, r with
    | .error e, .error e', g => exact g
    | .ok u, .ok v, g =>
      match c, d, rs with
      | .error e, .error e', r => exact r
      | .ok us, .ok vs, r => exact .cons g r

omit [LibM] [LibObs] in
theorem vec64_eq {c : Fin 6 → B64} {d : Fin 6 → Fl} (h : IsVec64 c d) : c = fun i => (d i).to64 := funext fun i => Is64.to64 (h i)

/-- the fit, and the model afterwards -/
theorem fit_same (hlog : LogAccurate) (hl : LibObs.Accurate) (hm : m.Ordinary) (hb : m.base.Ordinary) {la64 : B64LinAlg} {la : FlLinAlg} (hla : la64.Extends la) {xo yo : Fl} (hx : xo.Ordinary) (hy : yo.Ordinary)
    (os : List FlObs) (ho : ∀ o ∈ os, o.Ordinary) (hw : ∀ o ∈ os, m.exact.OffWells o.x.val o.y.val) :
    (m.to64.b64FitRegionalFlow la64 (os.map FlObs.to64) xo.to64 yo.to64).1 = (m.flFitRegionalFlow la os xo yo).1.to64 ∧
    Alike (fun b x => IsVec64 b.1 x.1 ∧ IsMat64 b.2 x.2) (m.to64.b64FitRegionalFlow la64 (os.map FlObs.to64) xo.to64 yo.to64).2 (m.flFitRegionalFlow la os xo yo).2 := by
  have r := construct_same hlog hl hm hb hx hy os ho hw
  unfold b64FitRegionalFlow flFitRegionalFlow
  revert r
  generalize m.to64.b64ConstructFit _ _ _ = a
  generalize m.flConstructFit _ _ _ = b
  intro r
  match a, b, r with
  | .error e, .error e', g => exact ⟨rfl, g⟩
  | .ok rows64, .ok rows, r =>
    have l := hla.lstsq _ _ r
    have v := hla.inverse (rows64.map Prod.fst) (rows.map Prod.fst) (by
      rw [List.forall₂_map_left_iff, List.forall₂_map_right_iff]
      exact r.imp fun _ _ h => h.1)
    simp only
    revert l v
    generalize la64.lstsq _ = a
    generalize la.lstsq _ = b
    generalize la64.inv _ = c
    generalize la.inv _ = d
    intro l v
    match a, b, l with
    | .error e, .error e', g => exact ⟨rfl, g⟩
    | .ok ev64, .ok ev, l =>
      match c, d, v with
      | .error e, .error e', g => exact ⟨rfl, g⟩
      | .ok cov64, .ok cov, v =>
        refine ⟨?_, l, v⟩
        have := vec64_eq l
        simp only [to64, this]

end Aquifer

end

end Oneka
