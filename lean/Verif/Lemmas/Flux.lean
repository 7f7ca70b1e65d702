import Mathlib.Analysis.Complex.CauchyIntegral
import Mathlib.Analysis.Real.Pi.Bounds
import Mathlib.Analysis.SpecialFunctions.Integrals.Basic
import Verif.Lemmas.Aquifer

namespace Oneka
namespace Aquifer
open Complex

/-- The flow of one unit well's kernel through the circle. -/
noncomputable def kernel (w : Well ℝ) (cx cy R θ : ℝ) : ℝ :=
  ((cx + R * Real.cos θ - w.xw) * Real.cos θ + (cy + R * Real.sin θ - w.yw) * Real.sin θ) * R /
    w.r2 (cx + R * Real.cos θ) (cy + R * Real.sin θ)

theorem kernel_im (w : Well ℝ) (cx cy R θ : ℝ) :
    kernel w cx cy R θ =
      (deriv (circleMap (⟨cx, cy⟩ : ℂ) R) θ • ((circleMap (⟨cx, cy⟩ : ℂ) R θ) - (⟨w.xw, w.yw⟩ : ℂ))⁻¹).im := by
  have e : circleMap (⟨cx, cy⟩ : ℂ) R θ - (⟨w.xw, w.yw⟩ : ℂ) =
      ⟨cx + R * Real.cos θ - w.xw, cy + R * Real.sin θ - w.yw⟩ := by
    apply Complex.ext
    · simp [circleMap, Complex.exp_re, Complex.exp_im]
    · simp [circleMap, Complex.exp_re, Complex.exp_im]
  have d : deriv (circleMap (⟨cx, cy⟩ : ℂ) R) θ = ⟨-(R * Real.sin θ), R * Real.cos θ⟩ := by
    rw [deriv_circleMap]
    apply Complex.ext
    · simp [circleMap, Complex.exp_re, Complex.exp_im]
    · simp [circleMap, Complex.exp_re, Complex.exp_im]
  rw [e, d]
  simp only [smul_eq_mul, Complex.mul_im, Complex.inv_re, Complex.inv_im, Complex.normSq_mk]
  unfold kernel Well.r2
  rw [pow_two, pow_two]
  ring

theorem dist_center (w : Well ℝ) (cx cy : ℝ) :
    dist (⟨w.xw, w.yw⟩ : ℂ) ⟨cx, cy⟩ = Real.sqrt ((w.xw - cx) ^ 2 + (w.yw - cy) ^ 2) := by
  rw [Complex.dist_mk]

theorem kernel_integrable (w : Well ℝ) (cx cy R : ℝ) (hR : 0 < R) (h : (w.xw - cx) ^ 2 + (w.yw - cy) ^ 2 ≠ R ^ 2) :
    IntervalIntegrable (fun θ => deriv (circleMap (⟨cx, cy⟩ : ℂ) R) θ • ((circleMap (⟨cx, cy⟩ : ℂ) R θ) - (⟨w.xw, w.yw⟩ : ℂ))⁻¹)
      MeasureTheory.volume 0 (2 * Real.pi) := by
  refine CircleIntegrable.out (f := fun z => (z - (⟨w.xw, w.yw⟩ : ℂ))⁻¹) ?_
  rw [circleIntegrable_sub_inv_iff]
  right
  rw [Metric.mem_sphere, dist_center, abs_of_pos hR]
  intro hh
  apply h
  rw [← hh, Real.sq_sqrt (by positivity)]

theorem kernel_integral (w : Well ℝ) (cx cy R : ℝ) (hR : 0 < R) (h : (w.xw - cx) ^ 2 + (w.yw - cy) ^ 2 ≠ R ^ 2) :
    IntervalIntegrable (kernel w cx cy R) MeasureTheory.volume 0 (2 * Real.pi) ∧
    ∫ θ in (0:ℝ)..2 * Real.pi, kernel w cx cy R θ =
      if (w.xw - cx) ^ 2 + (w.yw - cy) ^ 2 < R ^ 2 then 2 * Real.pi else 0 := by
  have hi := kernel_integrable w cx cy R hR h
  have ef : kernel w cx cy R = fun θ => Complex.imCLM
      (deriv (circleMap (⟨cx, cy⟩ : ℂ) R) θ • ((circleMap (⟨cx, cy⟩ : ℂ) R θ) - (⟨w.xw, w.yw⟩ : ℂ))⁻¹) := by
    funext θ; exact kernel_im w cx cy R θ
  have hc : (∮ z in C((⟨cx, cy⟩ : ℂ), R), (z - (⟨w.xw, w.yw⟩ : ℂ))⁻¹) =
      if (w.xw - cx) ^ 2 + (w.yw - cy) ^ 2 < R ^ 2 then 2 * Real.pi * I else 0 := by
    split_ifs with hlt
    · refine circleIntegral.integral_sub_inv_of_mem_ball ?_
      rw [Metric.mem_ball, dist_center]
      calc Real.sqrt ((w.xw - cx) ^ 2 + (w.yw - cy) ^ 2) < Real.sqrt (R ^ 2) := Real.sqrt_lt_sqrt (by positivity) hlt
        _ = R := Real.sqrt_sq hR.le
    · have hout : ∀ z ∈ Metric.closedBall (⟨cx, cy⟩ : ℂ) R, z - (⟨w.xw, w.yw⟩ : ℂ) ≠ 0 := by
        intro z hz hz0
        rw [sub_eq_zero] at hz0
        rw [hz0, Metric.mem_closedBall, dist_center] at hz
        apply hlt
        refine lt_of_le_of_ne ?_ h
        have := Real.sq_sqrt (show 0 ≤ (w.xw - cx) ^ 2 + (w.yw - cy) ^ 2 by positivity)
        rw [← this]
        exact pow_le_pow_left₀ (Real.sqrt_nonneg _) hz 2
      refine Complex.circleIntegral_eq_zero_of_differentiable_on_off_countable hR.le Set.countable_empty ?_ ?_
      · exact ((continuous_id.sub continuous_const).continuousOn).inv₀ hout
      · intro z hz
        exact ((differentiableAt_id).sub_const _).inv (hout z (Metric.ball_subset_closedBall hz.1))
  constructor
  · rw [ef]
    exact ⟨Complex.imCLM.integrable_comp hi.1, Complex.imCLM.integrable_comp hi.2⟩
  · rw [ef, Complex.imCLM.intervalIntegral_comp_comm hi]
    have : (∫ θ in (0:ℝ)..2 * Real.pi, deriv (circleMap (⟨cx, cy⟩ : ℂ) R) θ •
        ((circleMap (⟨cx, cy⟩ : ℂ) R θ) - (⟨w.xw, w.yw⟩ : ℂ))⁻¹) = _ := hc
    rw [this]
    split_ifs <;> simp

theorem trig_integral (a b c d e : ℝ) :
    ∫ θ in (0:ℝ)..2 * Real.pi, (a * Real.cos θ ^ 2 + b * Real.sin θ ^ 2 + c * (Real.sin θ * Real.cos θ) + d * Real.cos θ
      + e * Real.sin θ) = (a + b) * Real.pi := by
  have hd : ∀ θ ∈ Set.uIcc 0 (2 * Real.pi), HasDerivAt (fun θ => a * ((θ + Real.sin θ * Real.cos θ) / 2)
      + b * ((θ - Real.sin θ * Real.cos θ) / 2) + c * (Real.sin θ ^ 2 / 2) + d * Real.sin θ + e * (-Real.cos θ))
      (a * Real.cos θ ^ 2 + b * Real.sin θ ^ 2 + c * (Real.sin θ * Real.cos θ) + d * Real.cos θ + e * Real.sin θ) θ := by
    intro θ _
    have hs := Real.hasDerivAt_sin θ
    have hc := Real.hasDerivAt_cos θ
    have hsc := hs.mul hc
    have h := (((((((hasDerivAt_id θ).add hsc).div_const 2).const_mul a).add
      ((((hasDerivAt_id θ).sub hsc).div_const 2).const_mul b)).add (((hs.pow 2).div_const 2).const_mul c)).add
      (hs.const_mul d)).add ((hc.neg).const_mul e)
    refine h.congr_deriv ?_
    have := Real.sin_sq_add_cos_sq θ
    simp only [Nat.cast_ofNat, Nat.reduceSub, pow_one, neg_neg]
    linear_combination (-(a/2 + b/2)) * this
  rw [intervalIntegral.integral_eq_sub_of_hasDerivAt hd (by
    apply Continuous.intervalIntegrable
    fun_prop)]
  simp
  ring

theorem outflow_eq (m : Aquifer ℝ) (cx cy R : ℝ) (hR : 0 < R)
    (h : ∀ w ∈ m.wells, (w.xw - cx) ^ 2 + (w.yw - cy) ^ 2 ≠ R ^ 2) :
    outflow m.discharge cx cy R = -2 * (m.coef 0 + m.coef 1) * (Real.pi * R ^ 2) -
      (m.wells.map fun w => if (w.xw - cx) ^ 2 + (w.yw - cy) ^ 2 < R ^ 2 then w.qw * (2 * Real.pi * (twoPiInv : ℝ)) else 0).sum := by
  have wells : ∀ l : List (Well ℝ), (∀ w ∈ l, (w.xw - cx) ^ 2 + (w.yw - cy) ^ 2 ≠ R ^ 2) →
      IntervalIntegrable (fun θ => (l.map fun w => w.qw * (twoPiInv : ℝ) * kernel w cx cy R θ).sum) MeasureTheory.volume 0 (2 * Real.pi) ∧
      ∫ θ in (0:ℝ)..2 * Real.pi, (l.map fun w => w.qw * (twoPiInv : ℝ) * kernel w cx cy R θ).sum =
      (l.map fun w => if (w.xw - cx) ^ 2 + (w.yw - cy) ^ 2 < R ^ 2 then w.qw * (2 * Real.pi * (twoPiInv : ℝ)) else 0).sum := by
    intro l
    induction l with
    | nil => intro _; simp
    | cons w l ih =>
      intro hl
      obtain ⟨i1, e1⟩ := kernel_integral w cx cy R hR (hl w (by simp))
      obtain ⟨i2, e2⟩ := ih fun v hv => hl v (by simp [hv])
      simp only [List.map_cons, List.sum_cons]
      refine ⟨(i1.const_mul _).add i2, ?_⟩
      rw [intervalIntegral.integral_add (i1.const_mul _) i2, intervalIntegral.integral_const_mul, e1, e2]
      congr 1
      split_ifs <;> ring
  obtain ⟨iw, ew⟩ := wells m.wells h
  have hsplit : ∀ θ : ℝ, ((m.discharge (cx + R * Real.cos θ) (cy + R * Real.sin θ)).1 * Real.cos θ
      + (m.discharge (cx + R * Real.cos θ) (cy + R * Real.sin θ)).2 * Real.sin θ) * R =
      ((-2 * m.coef 0 * R ^ 2) * Real.cos θ ^ 2 + (-2 * m.coef 1 * R ^ 2) * Real.sin θ ^ 2
        + (-2 * m.coef 2 * R ^ 2) * (Real.sin θ * Real.cos θ)
        + (-(2 * m.coef 0 * (cx - m.xo) + m.coef 2 * (cy - m.yo) + m.coef 3) * R) * Real.cos θ
        + (-(2 * m.coef 1 * (cy - m.yo) + m.coef 2 * (cx - m.xo) + m.coef 4) * R) * Real.sin θ)
      - (m.wells.map fun w => w.qw * (twoPiInv : ℝ) * kernel w cx cy R θ).sum := by
    intro θ
    have hw : ∀ l : List (Well ℝ),
        ((l.map fun w => -(w.qw * (twoPiInv : ℝ) * ((cx + R * Real.cos θ - w.xw) / w.r2 (cx + R * Real.cos θ) (cy + R * Real.sin θ)))).sum * Real.cos θ
        + (l.map fun w => -(w.qw * (twoPiInv : ℝ) * ((cy + R * Real.sin θ - w.yw) / w.r2 (cx + R * Real.cos θ) (cy + R * Real.sin θ)))).sum * Real.sin θ) * R
        = -(l.map fun w => w.qw * (twoPiInv : ℝ) * kernel w cx cy R θ).sum := by
      intro l
      induction l with
      | nil => simp
      | cons w l ih =>
        simp only [List.map_cons, List.sum_cons]
        have : kernel w cx cy R θ = ((cx + R * Real.cos θ - w.xw) / w.r2 (cx + R * Real.cos θ) (cy + R * Real.sin θ) * Real.cos θ
          + (cy + R * Real.sin θ - w.yw) / w.r2 (cx + R * Real.cos θ) (cy + R * Real.sin θ) * Real.sin θ) * R := by
          unfold kernel; ring
        rw [this]
        linear_combination ih
    rw [discharge_eq]
    linear_combination hw m.wells
  unfold outflow
  simp only [hsplit]
  rw [intervalIntegral.integral_sub (by apply Continuous.intervalIntegrable; fun_prop) iw, trig_integral, ew]
  ring

/-- The code's constant is 1/(2π) up to a relative error below 10⁻¹⁶. -/
theorem twoPiInv_close : |2 * Real.pi * (twoPiInv : ℝ) - 1| < 1 / 10 ^ 16 := by
  have h1 := Real.pi_gt_d20
  have h2 := Real.pi_lt_d20
  unfold twoPiInv
  rw [abs_lt]
  constructor <;> norm_num at * <;> linarith

end Aquifer
end Oneka
