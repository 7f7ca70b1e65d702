import Verif.Spec.Stability
import Verif.Lemmas.Estimator

namespace Oneka
open Matrix
namespace Aquifer

variable {rows : List ((Fin 6 → ℝ) × ℝ)} {V : Matrix (Fin 6) (Fin 6) ℝ}

theorem gram_dot_comm (rows : List (Fin 6 → ℝ)) (a b : Fin 6 → ℝ) : a ⬝ᵥ (gram rows *ᵥ b) = b ⬝ᵥ (gram rows *ᵥ a) := by
  rw [Matrix.dotProduct_mulVec, ← Matrix.mulVec_transpose, normal_symm rows, dotProduct_comm]

theorem gram_quad_nonneg (rows : List (Fin 6 → ℝ)) (a : Fin 6 → ℝ) : 0 ≤ a ⬝ᵥ (gram rows *ᵥ a) := by
  rw [normal_quad]
  exact sum_sq_nonneg rows fun r => ∑ j, r j * a j

theorem sse_minimum (h1 : gram (rows.map Prod.fst) * V = 1) {ev : Fin 6 → ℝ}
    (hmin : ∀ c' : Fin 6 → ℝ, (rows.map fun r => (∑ i, r.1 i * ev i - r.2) ^ 2).sum ≤ (rows.map fun r => (∑ i, r.1 i * c' i - r.2) ^ 2).sum) (c : Fin 6 → ℝ) :
    (rows.map fun r => (∑ i, r.1 i * c i - r.2) ^ 2).sum =
      (rows.map fun r => (∑ i, r.1 i * ev i - r.2) ^ 2).sum + (c - ev) ⬝ᵥ (gram (rows.map Prod.fst) *ᵥ (c - ev)) := by
  have hd : (gram (rows.map Prod.fst)).det ≠ 0 := by
    intro h0
    have := congrArg Matrix.det h1
    rw [Matrix.det_mul, h0, zero_mul, Matrix.det_one] at this
    exact zero_ne_one this
  have he := minimiser_eq hd hmin
  have hn : gram (rows.map Prod.fst) *ᵥ ev = rhs rows := by
    rw [he, Matrix.mulVec_mulVec, Matrix.mul_nonsing_inv _ (isUnit_iff_ne_zero.mpr hd), Matrix.one_mulVec]
  have h := sse_shift rows ev (c - ev)
  rw [hn, sub_self, dotProduct_zero, mul_zero, add_zero, show ev + (c - ev) = c by abel] at h
  rw [h, normal_quad, List.map_map]
  rfl

theorem inverse_nonneg {rows : List (Fin 6 → ℝ)} (h1 : gram rows * V = 1) (φ : Fin 6 → ℝ) : 0 ≤ φ ⬝ᵥ (V *ᵥ φ) := by
  have h := gram_quad_nonneg rows (V *ᵥ φ)
  rwa [Matrix.mulVec_mulVec, h1, Matrix.one_mulVec, dotProduct_comm] at h

/-- Cauchy and Schwarz for the normal matrix and its inverse -/
theorem inverse_cauchy {rows : List (Fin 6 → ℝ)} (h1 : gram rows * V = 1) (φ d : Fin 6 → ℝ) : (φ ⬝ᵥ d) ^ 2 ≤ (φ ⬝ᵥ (V *ᵥ φ)) * (d ⬝ᵥ (gram rows *ᵥ d)) := by
  have hg : gram rows *ᵥ (V *ᵥ φ) = φ := by rw [Matrix.mulVec_mulVec, h1, Matrix.one_mulVec]
  have key : ∀ t : ℝ, 0 ≤ (φ ⬝ᵥ (V *ᵥ φ)) * (t * t) + (-2 * (φ ⬝ᵥ d)) * t + d ⬝ᵥ (gram rows *ᵥ d) := by
    intro t
    have h := gram_quad_nonneg rows (t • (V *ᵥ φ) - d)
    have e : (t • (V *ᵥ φ) - d) ⬝ᵥ (gram rows *ᵥ (t • (V *ᵥ φ) - d)) = (φ ⬝ᵥ (V *ᵥ φ)) * (t * t) + (-2 * (φ ⬝ᵥ d)) * t + d ⬝ᵥ (gram rows *ᵥ d) := by
      rw [Matrix.mulVec_sub, Matrix.mulVec_smul, hg, sub_dotProduct, dotProduct_sub, dotProduct_sub, smul_dotProduct, smul_dotProduct, dotProduct_smul, dotProduct_smul,
        gram_dot_comm rows (V *ᵥ φ) d, hg, dotProduct_comm (V *ᵥ φ) φ, dotProduct_comm d φ]
      simp only [smul_eq_mul]
      ring
    rwa [e] at h
  have := discrim_le_zero key
  unfold discrim at this
  nlinarith

/-- the bound is attained -/
theorem inverse_attained {rows : List (Fin 6 → ℝ)} (h1 : gram rows * V = 1) (φ : Fin 6 → ℝ) {η δ : ℝ} (hη : 0 ≤ η) (h : |δ| ≤ η * √(φ ⬝ᵥ (V *ᵥ φ))) :
    ∃ d : Fin 6 → ℝ, φ ⬝ᵥ d = δ ∧ d ⬝ᵥ (gram rows *ᵥ d) ≤ η ^ 2 := by
  have hg : gram rows *ᵥ (V *ᵥ φ) = φ := by rw [Matrix.mulVec_mulVec, h1, Matrix.one_mulVec]
  set q := φ ⬝ᵥ (V *ᵥ φ) with hq
  have hq0 : 0 ≤ q := inverse_nonneg h1 φ
  rcases hq0.eq_or_lt with h0 | h0
  · rw [← h0, Real.sqrt_zero, mul_zero] at h
    exact ⟨0, by simp [abs_nonpos_iff.mp h], by simp; positivity⟩
  · refine ⟨(δ / q) • (V *ᵥ φ), ?_, ?_⟩
    · rw [dotProduct_smul, ← hq, smul_eq_mul, div_mul_cancel₀ _ h0.ne']
    · rw [Matrix.mulVec_smul, hg, smul_dotProduct, dotProduct_smul, dotProduct_comm, ← hq]
      simp only [smul_eq_mul]
      have h2 : δ ^ 2 ≤ η ^ 2 * q := by
        have := mul_self_le_mul_self (abs_nonneg δ) h
        rw [abs_mul_abs_self] at this
        nlinarith [Real.mul_self_sqrt hq0]
      rw [div_mul_cancel₀ _ h0.ne', div_mul_eq_mul_div, div_le_iff₀ h0]
      nlinarith

/-- the leverage of a row is at most one -/
theorem inverse_leverage {rows : List (Fin 6 → ℝ)} (h1 : gram rows * V = 1) {r : Fin 6 → ℝ} (hr : r ∈ rows) : r ⬝ᵥ (V *ᵥ r) ≤ 1 := by
  have hg : gram rows *ᵥ (V *ᵥ r) = r := by rw [Matrix.mulVec_mulVec, h1, Matrix.one_mulVec]
  have hq := normal_quad rows (V *ᵥ r)
  rw [hg, dotProduct_comm] at hq
  have h2 : (r ⬝ᵥ (V *ᵥ r)) ^ 2 ≤ r ⬝ᵥ (V *ᵥ r) := by
    nth_rewrite 2 [hq]
    exact List.single_le_sum (by intro x hx; obtain ⟨b, -, rfl⟩ := List.mem_map.mp hx; positivity) _ (List.mem_map.mpr ⟨r, hr, rfl⟩)
  nlinarith

theorem spread_eq (V : Matrix (Fin 6) (Fin 6) ℝ) (u v : ℝ) : spread V u v = √(mono u v ⬝ᵥ (V *ᵥ mono u v)) := rfl

theorem potential_sub (m : Aquifer ℝ) (xo yo : ℝ) (c d : Fin 6 → ℝ) (x y : ℝ) :
    ({ m with xo := xo, yo := yo, coef := c } : Aquifer ℝ).potential x y - ({ m with xo := xo, yo := yo, coef := d } : Aquifer ℝ).potential x y =
      mono (x - xo) (y - yo) ⬝ᵥ (c - d) := by
  rw [potential_eq, potential_eq]
  change _ = ∑ i, mono (x - xo) (y - yo) i * (c - d) i
  rw [conic_mono, conic_sub]
  ring

theorem misfit_coef (m : Aquifer ℝ) (xo yo : ℝ) (obs : List Obs) (c : Fin 6 → ℝ) :
    misfit m obs ({ m with xo := xo, yo := yo, coef := c } : Aquifer ℝ).potential = ((obs.map (m.rowOf xo yo)).map fun r => (∑ i, r.1 i * c i - r.2) ^ 2).sum := by
  rw [sse_misfit]
  congr 1
  funext x y
  rw [potential_eq, potentialWells_eq]

/-- what every successful fit of usable observations satisfies -/
theorem fit_excess {la : LinAlg} (hla : la.Correct) {m m' : Aquifer ℝ} (hK : 0 < m.conductivity) (hT : 0 < m.thickness) {obs : List Obs} {xo yo : ℝ} {ev : Fin 6 → ℝ}
    {cov : Matrix (Fin 6) (Fin 6) ℝ} (hu : m.Usable obs) (h : m.fitRegionalFlow la obs xo yo = (m', .ok (ev, cov))) :
    m' = { m with xo := xo, yo := yo, coef := ev } ∧ gram ((obs.map (m.rowOf xo yo)).map Prod.fst) * cov = 1 ∧
    ∀ c : Fin 6 → ℝ, misfit m obs ({ m with xo := xo, yo := yo, coef := c } : Aquifer ℝ).potential =
      misfit m obs m'.potential + (c - ev) ⬝ᵥ (gram ((obs.map (m.rowOf xo yo)).map Prod.fst) *ᵥ (c - ev)) := by
  obtain ⟨rfl, h2, h3, -⟩ := fit_ok hla hK hT hu h
  refine ⟨rfl, h3, fun c => ?_⟩
  rw [misfit_coef, misfit_coef]
  refine sse_minimum h3 (fun c' => ?_) c
  rw [sse_misfit, sse_misfit]
  exact h2 c'

theorem within_spread {V : Matrix (Fin 6) (Fin 6) ℝ} {rows : List (Fin 6 → ℝ)} (h1 : gram rows * V = 1) {φ d : Fin 6 → ℝ} {η : ℝ} (hη : 0 ≤ η) (hd : d ⬝ᵥ (gram rows *ᵥ d) ≤ η ^ 2) :
    |φ ⬝ᵥ d| ≤ η * √(φ ⬝ᵥ (V *ᵥ φ)) := by
  have h := inverse_cauchy h1 φ d
  have hq := inverse_nonneg h1 φ
  rw [← Real.sqrt_sq hη, ← Real.sqrt_mul (sq_nonneg η), ← Real.sqrt_sq_eq_abs]
  refine Real.sqrt_le_sqrt (h.trans ?_)
  nlinarith

/-- what a fit with an inexact solver still satisfies -/
theorem fit_within {la : LinAlg} {η : ℝ} (hla : la.Within η) {m m' : Aquifer ℝ} (hK : 0 < m.conductivity) (hT : 0 < m.thickness) {obs : List Obs} {xo yo : ℝ} {ev : Fin 6 → ℝ}
    {cov : Matrix (Fin 6) (Fin 6) ℝ} (hu : m.Usable obs) (h : m.fitRegionalFlow la obs xo yo = (m', .ok (ev, cov))) :
    m' = { m with xo := xo, yo := yo, coef := ev } ∧ ∀ c : Fin 6 → ℝ, misfit m obs ({ m with xo := xo, yo := yo, coef := ev } : Aquifer ℝ).potential ≤
      misfit m obs ({ m with xo := xo, yo := yo, coef := c } : Aquifer ℝ).potential + η ^ 2 := by
  rw [fit_usable hK hT xo yo hu] at h
  cases hl : la.lstsq ((obs.map (m.rowOf xo yo)).map finRow) with
  | error e => simp only [hl, Prod.mk.injEq, reduceCtorEq, and_false] at h
  | ok c =>
    cases hi : la.inv (fun i j => .fin (gram ((obs.map (m.rowOf xo yo)).map Prod.fst) i j)) with
    | error e => simp only [hl, hi, Prod.mk.injEq, reduceCtorEq, and_false] at h
    | ok B =>
      simp only [hl, hi, Prod.mk.injEq, Except.ok.injEq] at h
      obtain ⟨rfl, rfl, rfl⟩ := h
      refine ⟨rfl, fun c' => ?_⟩
      rw [misfit_coef, misfit_coef]
      exact hla _ _ hl c'

/-- a projection does not lengthen -/
theorem projection_short {n : ℕ} (A : Matrix (Fin n) (Fin 6) ℝ) (S : Matrix (Fin 6) (Fin n) ℝ) (h : Aᵀ * A * S = Aᵀ) (e : Fin n → ℝ) :
    (A *ᵥ (S *ᵥ e)) ⬝ᵥ (A *ᵥ (S *ᵥ e)) ≤ e ⬝ᵥ e := by
  have h1 : (e - A *ᵥ (S *ᵥ e)) ⬝ᵥ (A *ᵥ (S *ᵥ e)) = 0 := by
    rw [Matrix.dotProduct_mulVec, ← Matrix.mulVec_transpose, Matrix.mulVec_sub, Matrix.mulVec_mulVec, Matrix.mulVec_mulVec, h, sub_self, zero_dotProduct]
  have h2 : 0 ≤ (e - A *ᵥ (S *ᵥ e)) ⬝ᵥ (e - A *ᵥ (S *ᵥ e)) := Finset.sum_nonneg fun i _ => mul_self_nonneg _
  have h3 : e ⬝ᵥ e = (e - A *ᵥ (S *ᵥ e)) ⬝ᵥ (e - A *ᵥ (S *ᵥ e)) + 2 * ((e - A *ᵥ (S *ᵥ e)) ⬝ᵥ (A *ᵥ (S *ᵥ e))) + (A *ᵥ (S *ᵥ e)) ⬝ᵥ (A *ᵥ (S *ᵥ e)) := by
    generalize A *ᵥ (S *ᵥ e) = p
    rw [sub_dotProduct, sub_dotProduct, dotProduct_sub, dotProduct_sub, dotProduct_comm p e]
    ring
  rw [h1] at h3
  linarith

theorem design_row (m : Aquifer ℝ) {n : ℕ} (site : Fin n → Site) (xo yo : ℝ) (c : Fin 6 → ℝ) (i : Fin n) :
    (m.design xo yo site *ᵥ c) i = (mono ((site i).x - xo) ((site i).y - yo) ⬝ᵥ c) / (m.conductivity * m.thickness * (site i).std) := by
  unfold dotProduct Matrix.mulVec design dotProduct
  rw [Finset.sum_div]
  exact Finset.sum_congr rfl fun k _ => by ring

theorem levelChange_single {n : ℕ} (site : Fin n → Site) (z : Fin n → ℝ) (i : Fin n) (z' : ℝ) :
    levelChange site z (Function.update z i z') = |(z' - z i) / (site i).std| := by
  unfold levelChange
  rw [Finset.sum_eq_single i, Function.update_self, Real.sqrt_sq_eq_abs]
  · intro k _ hk
    rw [Function.update_of_ne hk]
    simp
  · simp

end Aquifer
end Oneka
