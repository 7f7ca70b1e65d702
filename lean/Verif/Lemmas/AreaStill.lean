import Verif.Lemmas.Area
import Verif.Props.Still
import Mathlib.MeasureTheory.Measure.Lebesgue.VolumeOfBalls
import Mathlib.MeasureTheory.Measure.Lebesgue.Complex

/-!
# Lemmas for Props/Area.lean: discs, rings and rays
-/

namespace Oneka

open MeasureTheory

/-- the area of a disc -/
theorem disc_area (c : ℝ × ℝ) {r : ℝ} (hr : 0 ≤ r) : volume {p : ℝ × ℝ | euclid p c < r} = ENNReal.ofReal (Real.pi * r ^ 2) := by
  rw [← Complex.volume_preserving_equiv_real_prod.measure_preimage_equiv]
  have e : Complex.measurableEquivRealProd ⁻¹' {p : ℝ × ℝ | euclid p c < r} = Metric.ball (⟨c.1, c.2⟩ : ℂ) r := by
    ext z
    simp only [Set.mem_preimage, Set.mem_setOf_eq, Metric.mem_ball, Complex.dist_eq_re_im, Complex.measurableEquivRealProd_apply, euclid]
    rw [show (c.1 - z.re) ^ 2 + (c.2 - z.im) ^ 2 = (z.re - c.1) ^ 2 + (z.im - c.2) ^ 2 by ring]
  rw [e, Complex.volume_ball, mul_comm, ENNReal.ofReal_mul Real.pi_pos.le, ENNReal.ofReal_pow hr]
  congr 1
  rw [← NNReal.coe_real_pi, ENNReal.ofReal_coe_nnreal]

theorem disc_open (c : ℝ × ℝ) (r : ℝ) : MeasurableSet {p : ℝ × ℝ | euclid p c < r} := by
  refine measurableSet_lt ?_ measurable_const
  unfold euclid
  fun_prop

/-- the area of a ring -/
theorem ring_area (c : ℝ × ℝ) {r R : ℝ} (hr : 0 ≤ r) (hR : 0 ≤ R) : ENNReal.ofReal (Real.pi * (R ^ 2 - r ^ 2)) ≤ volume {p : ℝ × ℝ | r ≤ euclid p c ∧ euclid p c < R} := by
  have e : {p : ℝ × ℝ | r ≤ euclid p c ∧ euclid p c < R} = {p | euclid p c < R} \ {p | euclid p c < r} := by
    ext p
    simp only [Set.mem_diff, Set.mem_setOf_eq, not_lt]
    exact and_comm
  rw [e]
  refine le_trans ?_ le_measure_diff
  rw [disc_area c hr, disc_area c hR, ← ENNReal.ofReal_sub _ (by positivity), mul_sub]

/-- one of `n` rays is near -/
theorem nearest_ray {n : ℤ} (hn : 0 < n) (φ : ℝ) : ∃ k : ℕ, k < n ∧ ∃ m : ℤ, |φ - 2 * Real.pi * k / n - m * (2 * Real.pi)| ≤ Real.pi / n := by
  have hnr : (0:ℝ) < n := by exact_mod_cast hn
  have hpi := Real.pi_pos
  set j := round (φ * n / (2 * Real.pi)) with hj
  have h := abs_sub_round (φ * n / (2 * Real.pi))
  rw [← hj] at h
  refine ⟨(j % n).toNat, ?_, j / n, ?_⟩
  · rw [Int.toNat_of_nonneg (Int.emod_nonneg _ hn.ne')]
    exact Int.emod_lt_of_pos _ hn
  · have e1 : (((j % n).toNat : ℕ) : ℝ) = ((j % n : ℤ) : ℝ) := by
      have := Int.toNat_of_nonneg (Int.emod_nonneg j hn.ne')
      exact_mod_cast congrArg (fun z : ℤ => (z : ℝ)) this
    have e2 : (j:ℝ) = ((j % n : ℤ) : ℝ) + n * ((j / n : ℤ) : ℝ) := by exact_mod_cast (Int.emod_add_mul_ediv j n).symm
    have e3 : φ - 2 * Real.pi * (((j % n).toNat : ℕ) : ℝ) / n - ((j / n : ℤ) : ℝ) * (2 * Real.pi) = (φ * n / (2 * Real.pi) - j) * (2 * Real.pi / n) := by
      rw [e1, e2]
      field_simp
      ring
    rw [e3, abs_mul, abs_of_pos (by positivity : 0 < 2 * Real.pi / n)]
    calc |φ * n / (2 * Real.pi) - j| * (2 * Real.pi / n) ≤ 1 / 2 * (2 * Real.pi / n) := mul_le_mul_of_nonneg_right h (by positivity)
      _ = Real.pi / n := by ring

/-- two places at the same distance from a centre -/
theorem arc_chord (x y : ℝ) {r : ℝ} (hr : 0 ≤ r) (φ θ : ℝ) : euclid (x + r * Real.cos θ, y + r * Real.sin θ) (x + r * Real.cos φ, y + r * Real.sin φ) ≤ r * |φ - θ| := by
  unfold euclid
  rw [Real.sqrt_le_left (by positivity), mul_pow, sq_abs]
  have h := Real.one_sub_sq_div_two_le_cos (x := φ - θ)
  rw [Real.cos_sub] at h
  have h1 := Real.sin_sq_add_cos_sq φ
  have h2 := Real.sin_sq_add_cos_sq θ
  have e : (x + r * Real.cos φ - (x + r * Real.cos θ)) ^ 2 + (y + r * Real.sin φ - (y + r * Real.sin θ)) ^ 2 =
      r ^ 2 * ((Real.sin φ ^ 2 + Real.cos φ ^ 2) + (Real.sin θ ^ 2 + Real.cos θ ^ 2) - 2 * (Real.cos φ * Real.cos θ + Real.sin φ * Real.sin θ)) := by ring
  rw [e, h1, h2]
  refine mul_le_mul_of_nonneg_left ?_ (sq_nonneg r)
  linarith

theorem polar (x y : ℝ) (p : ℝ × ℝ) : ∃ φ, p = (x + euclid p (x, y) * Real.cos φ, y + euclid p (x, y) * Real.sin φ) := by
  set z : ℂ := ⟨p.1 - x, p.2 - y⟩ with hz
  have hn : ‖z‖ = euclid p (x, y) := by
    rw [Complex.norm_eq_sqrt_sq_add_sq, euclid, hz]
    congr 1
    ring
  refine ⟨Complex.arg z, Prod.ext ?_ ?_⟩
  · simp only
    rw [← hn, Complex.norm_mul_cos_arg, hz]
    ring
  · simp only
    rw [← hn, Complex.norm_mul_sin_arg, hz]
    ring

/-- a place between the starting points and the fixed radius is near a place on a ray -/
theorem ray_near {w : Well ℝ} {t : SWell} (hr : 0 ≤ t.rw) (hx : t.xw = w.xw) (hy : t.yw = w.yw) {κ D : ℝ} (hκ : 0 ≤ κ) {n : ℤ} (hn : 0 < n) {p : ℝ × ℝ} (h1 : t.rw + 1 ≤ euclid p (t.xw, t.yw))
    (h2 : euclid p (t.xw, t.yw) ^ 2 < (t.rw + 1) ^ 2 + 2 * κ * D) : ∃ k : ℕ, k < n ∧ ∃ s, 0 ≤ s ∧ s ≤ D ∧ euclid (spoke w κ (t.start n k) s) p ≤ euclid p (t.xw, t.yw) * (Real.pi / n) := by
  set r := euclid p (t.xw, t.yw) with hrd
  have hρ : 0 < t.rw + 1 := by linarith
  have hr0 : 0 ≤ r := by linarith
  have hsq : (t.rw + 1) ^ 2 ≤ r ^ 2 := pow_le_pow_left₀ hρ.le h1 2
  have hκ0 : 0 < κ := by
    rcases hκ.lt_or_eq with h | h
    · exact h
    · rw [← h] at h2
      linarith
  obtain ⟨φ, hφ⟩ := polar t.xw t.yw p
  rw [← hrd] at hφ
  obtain ⟨k, hk, m, hm⟩ := nearest_ray hn φ
  have hst : w.r2 (t.start n k).1 (t.start n k).2 = (t.rw + 1) ^ 2 := by
    rw [← euclid_sq_r2, ← hx, ← hy, C131_start t hr n k]
  refine ⟨k, hk, (r ^ 2 - (t.rw + 1) ^ 2) / (2 * κ), div_nonneg (by linarith) (by linarith), ?_, ?_⟩
  · rw [div_le_iff₀ (by linarith)]
    linarith
  · have es : spoke w κ (t.start n k) ((r ^ 2 - (t.rw + 1) ^ 2) / (2 * κ)) = (t.xw + r * Real.cos (2 * Real.pi * k / n + m * (2 * Real.pi)), t.yw + r * Real.sin (2 * Real.pi * k / n + m * (2 * Real.pi))) := by
      unfold spoke
      rw [hst, show 1 + 2 * κ * ((r ^ 2 - (t.rw + 1) ^ 2) / (2 * κ)) / (t.rw + 1) ^ 2 = (r / (t.rw + 1)) ^ 2 by field_simp; ring, Real.sqrt_sq (by positivity), Real.cos_add_int_mul_two_pi, Real.sin_add_int_mul_two_pi, ← hx, ← hy]
      unfold SWell.start
      refine Prod.ext ?_ ?_
      · simp only
        field_simp
        ring
      · simp only
        field_simp
        ring
    rw [es]
    conv_lhs => rw [hφ]
    refine (arc_chord t.xw t.yw hr0 φ _).trans (mul_le_mul_of_nonneg_left ?_ hr0)
    rwa [← sub_sub]

end Oneka
