import Mathlib.Analysis.SpecialFunctions.Integrals.Basic
import Verif.Model.Variate
import Verif.Spec.Variate

/-!
# Lemmas for Props/Variate.lean
-/

namespace Oneka

namespace Variate

/-- the inverse of the triangular distribution function -/
noncomputable def tri (x c y u : ℝ) : ℝ :=
  if u ≤ (c - x) / (y - x) then x + Real.sqrt (u * ((c - x) * (y - x))) else y - Real.sqrt ((1 - u) * ((y - c) * (y - x)))

theorem gen_scalar {v : PyVal} {c : ℝ} (h : v.num = some (.fin c)) (u : ℝ) : generateRandomVariate v u = .ok v := by
  cases v <;> first | rfl | simp [PyVal.num] at h

theorem gen_pair {a b : PyVal} {x y : ℝ} (ha : a.num = some (.fin x)) (hb : b.num = some (.fin y)) (u : ℝ) :
    generateRandomVariate (.tuple [a, b]) u = .ok (.float (.fin (x + (y - x) * u))) := by
  simp only [generateRandomVariate, npUniform, ha, hb, XR.fin_sub, XR.fin_mul, XR.fin_add]

theorem gen_triple {a m b : PyVal} {x c y : ℝ} (ha : a.num = some (.fin x)) (hm : m.num = some (.fin c))
    (hb : b.num = some (.fin y)) (h1 : x ≤ c) (h2 : c ≤ y) (h3 : x < y) {u : ℝ} (hu : 0 ≤ u) (hu1 : u < 1) :
    generateRandomVariate (.tuple [a, m, b]) u = .ok (.float (.fin (tri x c y u))) := by
  have hd : y - x ≠ 0 := by linarith
  have p1 : 0 ≤ u * ((c - x) * (y - x)) := mul_nonneg hu (mul_nonneg (by linarith) (by linarith))
  have p2 : 0 ≤ (1 - u) * ((y - c) * (y - x)) := mul_nonneg (by linarith) (mul_nonneg (by linarith) (by linarith))
  simp only [generateRandomVariate, npTriangular, ha, hm, hb, XR.fin_lt, XR.fin_le, if_neg (not_lt.mpr h1),
    if_neg (not_lt.mpr h2), XR.fin_sub, XR.fin_mul, XR.fin_div _ _ hd]
  rw [if_neg (by rintro ⟨-, h⟩; linarith)]
  have sq : ∀ z : ℝ, 0 ≤ z → PyMath.sqrt (XR.fin z) = .fin (Real.sqrt z) := by
    intro z hz
    show (if z < 0 then XR.nan else .fin (Real.sqrt z)) = _
    rw [if_neg hz.not_gt]
  rw [sq _ p1, sq _ p2]
  simp only [XR.fin_add, XR.fin_sub]
  unfold tri
  split_ifs <;> rfl

theorem tri_mem {x c y : ℝ} (h1 : x ≤ c) (h2 : c ≤ y) (h3 : x < y) (u : ℝ) :
    x ≤ tri x c y u ∧ tri x c y u ≤ y := by
  have hd : 0 < y - x := by linarith
  unfold tri
  split_ifs with h
  · rw [le_div_iff₀ hd] at h
    refine ⟨by linarith [Real.sqrt_nonneg (u * ((c - x) * (y - x)))], ?_⟩
    have : Real.sqrt (u * ((c - x) * (y - x))) ≤ c - x := Real.sqrt_le_iff.mpr ⟨by linarith, by nlinarith⟩
    linarith
  · rw [not_le, div_lt_iff₀ hd] at h
    refine ⟨?_, by linarith [Real.sqrt_nonneg ((1 - u) * ((y - c) * (y - x)))]⟩
    have : Real.sqrt ((1 - u) * ((y - c) * (y - x))) ≤ y - c := Real.sqrt_le_iff.mpr ⟨by linarith, by nlinarith⟩
    linarith

end Variate

open Variate

theorem chainLe_num {a b : PyVal} {l : List PyVal} {x y : XR} (ha : a.num = some x) (hb : b.num = some y) :
    PyVal.chainLe (a :: b :: l) = .ok true ↔ x ≤ y ∧ PyVal.chainLe (b :: l) = .ok true := by
  have e : PyVal.le a b = .ok (decide (x ≤ y)) := by unfold PyVal.le; rw [ha, hb]
  rw [PyVal.chainLe, e]
  by_cases h : x ≤ y <;> simp [h]

theorem chainLe_true {a b : PyVal} {l : List PyVal} (h : PyVal.chainLe (a :: b :: l) = .ok true) :
    ∃ x y, a.num = some x ∧ b.num = some y ∧ x ≤ y ∧ PyVal.chainLe (b :: l) = .ok true := by
  cases ha : a.num with
  | none =>
    have : PyVal.le a b = .error .typeError := by unfold PyVal.le; rw [ha]
    unfold PyVal.chainLe at h
    rw [this] at h
    simp at h
  | some x =>
    cases hb : b.num with
    | none =>
      have : PyVal.le a b = .error .typeError := by unfold PyVal.le; rw [ha, hb]
      unfold PyVal.chainLe at h
      rw [this] at h
      simp at h
    | some y =>
      obtain ⟨h1, h2⟩ := (chainLe_num ha hb).mp h
      exact ⟨x, y, rfl, rfl, h1, h2⟩

theorem integral_sqrt_mul (L r : ℝ) (hr : 0 ≤ r) :
    ∫ u in (0:ℝ)..r, Real.sqrt (u * L) = 2 / 3 * (Real.sqrt (r * L) * r) := by
  have h1 : ∀ u ∈ Set.uIcc 0 r, Real.sqrt (u * L) = Real.sqrt L * u ^ ((1:ℝ)/2) := by
    intro u hu
    rw [Set.uIcc_of_le hr] at hu
    rw [Real.sqrt_mul hu.1, mul_comm, ← Real.sqrt_eq_rpow]
  rw [intervalIntegral.integral_congr h1, intervalIntegral.integral_const_mul, integral_rpow (Or.inl (by norm_num)),
    Real.sqrt_mul hr]
  have h2 : r ^ ((1:ℝ)/2 + 1) = Real.sqrt r * r := by
    rcases hr.eq_or_lt with h | h
    · rw [← h]; norm_num
    · rw [Real.rpow_add h, ← Real.sqrt_eq_rpow, Real.rpow_one]
  rw [h2, Real.zero_rpow (by norm_num)]
  ring

theorem integral_tri {x c y : ℝ} (h1 : x ≤ c) (h2 : c ≤ y) (h3 : x < y) :
    IntervalIntegrable (tri x c y) MeasureTheory.volume 0 1 ∧ ∫ u in (0:ℝ)..1, tri x c y u = (x + c + y) / 3 := by
  have hd : 0 < y - x := by linarith
  set r := (c - x) / (y - x) with hr
  have r0 : 0 ≤ r := div_nonneg (by linarith) hd.le
  have r1 : r ≤ 1 := (div_le_one hd).mpr (by linarith)
  set g1 : ℝ → ℝ := fun u => x + Real.sqrt (u * ((c - x) * (y - x))) with hg1
  set g2 : ℝ → ℝ := fun u => y - Real.sqrt ((1 - u) * ((y - c) * (y - x))) with hg2
  have c1 : Continuous g1 := by fun_prop
  have c2 : Continuous g2 := by fun_prop
  have e1 : Set.EqOn g1 (tri x c y) (Set.uIoc 0 r) := by
    intro u hu
    rw [Set.uIoc_of_le r0] at hu
    simp only [tri, hg1]
    rw [if_pos hu.2]
  have e2 : Set.EqOn g2 (tri x c y) (Set.uIoc r 1) := by
    intro u hu
    rw [Set.uIoc_of_le r1] at hu
    simp only [tri, hg2]
    rw [if_neg (not_le.mpr hu.1)]
  have i1 : IntervalIntegrable (tri x c y) MeasureTheory.volume 0 r :=
    (c1.intervalIntegrable 0 r).congr e1
  have i2 : IntervalIntegrable (tri x c y) MeasureTheory.volume r 1 :=
    (c2.intervalIntegrable r 1).congr e2
  refine ⟨i1.trans i2, ?_⟩
  rw [← intervalIntegral.integral_add_adjacent_intervals i1 i2]
  have v1 : ∫ u in (0:ℝ)..r, tri x c y u = x * r + 2 / 3 * ((c - x) * r) := by
    rw [← intervalIntegral.integral_congr_ae (f := g1) (by
      exact Filter.Eventually.of_forall fun u hu => e1 hu)]
    rw [hg1, intervalIntegral.integral_add (by simp) ((by fun_prop : Continuous fun u : ℝ => Real.sqrt (u * ((c - x) * (y - x)))).intervalIntegrable _ _),
      integral_sqrt_mul _ _ r0]
    have : Real.sqrt (r * ((c - x) * (y - x))) = c - x := by
      rw [hr, show (c - x) / (y - x) * ((c - x) * (y - x)) = (c - x) ^ 2 by field_simp]
      exact Real.sqrt_sq (by linarith)
    rw [this]
    simp
    ring
  have v2 : ∫ u in r..(1:ℝ), tri x c y u = y * (1 - r) - 2 / 3 * ((y - c) * (1 - r)) := by
    rw [← intervalIntegral.integral_congr_ae (f := g2) (by
      exact Filter.Eventually.of_forall fun u hu => e2 hu)]
    rw [hg2, intervalIntegral.integral_sub (by simp) ((by fun_prop : Continuous fun u : ℝ => Real.sqrt ((1 - u) * ((y - c) * (y - x)))).intervalIntegrable _ _)]
    have : ∫ u in r..(1:ℝ), Real.sqrt ((1 - u) * ((y - c) * (y - x))) = ∫ u in (0:ℝ)..(1 - r), Real.sqrt (u * ((y - c) * (y - x))) := by
      have := intervalIntegral.integral_comp_sub_left (fun u => Real.sqrt (u * ((y - c) * (y - x)))) (a := r) (b := 1) 1
      rw [this]; simp
    rw [this, integral_sqrt_mul _ _ (by linarith)]
    have : Real.sqrt ((1 - r) * ((y - c) * (y - x))) = y - c := by
      rw [hr, show (1 - (c - x) / (y - x)) * ((y - c) * (y - x)) = (y - c) ^ 2 by field_simp; ring]
      exact Real.sqrt_sq (by linarith)
    rw [this]
    simp
    ring
  rw [v1, v2]
  have e : r * (y - x) = c - x := by rw [hr]; field_simp
  have e' : y - c = (1 - r) * (y - x) := by linarith
  have ec : c = x + r * (y - x) := by linarith
  rw [ec]
  ring

theorem accepted_isDist {arg : PyVal} {lb ub : XR} (h : isdistribution arg lb ub = .ok true) (hl : ∀ l, arg ≠ .list l)
    (hf : AllFinite arg) (hd : ∀ a m b x, arg = .tuple [a, m, b] → ¬ (a.num = some x ∧ b.num = some x)) :
    ∃ lo hi, IsDist arg lo hi ∧ lb ≤ .fin lo ∧ .fin hi ≤ ub := by
  have toFin : ∀ x : XR, x.IsFin → ∃ r, x = .fin r := by
    intro x hx
    cases x with
    | fin r => exact ⟨r, rfl⟩
    | _ => exact hx.elim
  unfold isdistribution at h
  split at h
  · rename_i hn
    obtain ⟨l, x, hlb, hx, hlx, h⟩ := chainLe_true h
    obtain ⟨x', u, hx', hu, hxu, -⟩ := chainLe_true h
    obtain rfl : x = x' := by rw [hx] at hx'; exact Option.some.inj hx'
    obtain rfl : lb = l := Option.some.inj hlb
    obtain rfl : ub = u := Option.some.inj hu
    have hfin : x.IsFin := by
      cases arg <;> first | exact hf x hx | simp [PyVal.isInt, PyVal.isFloat] at hn
    obtain ⟨r, rfl⟩ := toFin x hfin
    exact ⟨r, r, .scalar _ _ hx, hlx, hxu⟩
  · split at h
    · rename_i a b _
      obtain ⟨l, x, hlb, hx, hlx, h⟩ := chainLe_true h
      obtain rfl : lb = l := Option.some.inj hlb
      obtain ⟨x', y, hx', hy, hxy, h⟩ := chainLe_true h
      obtain rfl : x = x' := by rw [hx] at hx'; exact Option.some.inj hx'
      obtain ⟨y', u, hy', hu, hyu, -⟩ := chainLe_true h
      obtain rfl : y = y' := by rw [hy] at hy'; exact Option.some.inj hy'
      obtain rfl : ub = u := Option.some.inj hu
      obtain ⟨p, rfl⟩ := toFin x (hf a (by simp) x hx)
      obtain ⟨q, rfl⟩ := toFin y (hf b (by simp) y hy)
      exact ⟨p, q, .pair _ _ _ _ hx hy hxy, hlx, hyu⟩
    · rename_i a m b _
      obtain ⟨l, x, hlb, hx, hlx, h⟩ := chainLe_true h
      obtain rfl : lb = l := Option.some.inj hlb
      obtain ⟨x', z, hx', hz, hxz, h⟩ := chainLe_true h
      obtain rfl : x = x' := by rw [hx] at hx'; exact Option.some.inj hx'
      obtain ⟨z', y, hz', hy, hzy, h⟩ := chainLe_true h
      obtain rfl : z = z' := by rw [hz] at hz'; exact Option.some.inj hz'
      obtain ⟨y', u, hy', hu, hyu, -⟩ := chainLe_true h
      obtain rfl : y = y' := by rw [hy] at hy'; exact Option.some.inj hy'
      obtain rfl : ub = u := Option.some.inj hu
      obtain ⟨p, rfl⟩ := toFin x (hf a (by simp) x hx)
      obtain ⟨q, rfl⟩ := toFin z (hf m (by simp) z hz)
      obtain ⟨r, rfl⟩ := toFin y (hf b (by simp) y hy)
      have h1 : p ≤ q := hxz
      have h2 : q ≤ r := hzy
      refine ⟨p, r, .triple _ _ _ _ _ _ hx hz hy h1 h2 (lt_of_le_of_ne (h1.trans h2) ?_), hlx, hyu⟩
      rintro rfl
      exact hd a m b _ rfl ⟨hx, hy⟩
    · exact absurd rfl (hl _)
    · exact absurd rfl (hl _)
    · simp at h

end Oneka
