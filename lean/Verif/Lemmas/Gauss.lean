import Mathlib.Probability.Distributions.Gaussian.Multivariate
import Verif.Spec.Statistics

/-! Helper lemmas for C97: linear images of standard normal vectors. -/

namespace Oneka

open MeasureTheory ProbabilityTheory WithLp Matrix
open scoped RealInnerProductSpace

variable {Ω : Type} [MeasurableSpace Ω] {μ : Measure Ω} {z : Ω → Fin 6 → ℝ}

theorem StandardNormals.prob (h : StandardNormals μ z) : IsProbabilityMeasure μ := by
  have : IsProbabilityMeasure (μ.map z) := by rw [h.law]; infer_instance
  refine ⟨?_⟩
  rw [← Set.preimage_univ (f := z), ← Measure.map_apply h.measurable .univ, measure_univ]

theorem StandardNormals.std (h : StandardNormals μ z) : μ.map (fun ω => toLp 2 (z ω)) = stdGaussian (EuclideanSpace ℝ (Fin 6)) := by
  rw [← map_pi_eq_stdGaussian, ← h.law, Measure.map_map (by fun_prop) h.measurable]
  rfl

/-- the law of a linear function of the numbers -/
theorem StandardNormals.linear (h : StandardNormals μ z) (w : Fin 6 → ℝ) (c : ℝ) : μ.map (fun ω => c + w ⬝ᵥ z ω) = gaussianReal c (w ⬝ᵥ w).toNNReal := by
  have e : (fun ω => c + w ⬝ᵥ z ω) = (fun r => c + r) ∘ (innerSL ℝ (toLp 2 w) : EuclideanSpace ℝ (Fin 6) → ℝ) ∘ fun ω => toLp 2 (z ω) := by
    funext ω
    simp [PiLp.inner_apply, dotProduct, mul_comm]
  have hm := h.measurable
  rw [e, ← Measure.map_map (by fun_prop) (by fun_prop), ← Measure.map_map (by fun_prop) (by fun_prop), h.std, IsGaussian.map_eq_gaussianReal, gaussianReal_map_const_add]
  rw [integral_strongDual_stdGaussian, variance_dual_stdGaussian, zero_add]
  congr 2
  rw [innerSL_apply_norm, EuclideanSpace.real_norm_sq_eq]
  simp [dotProduct, pow_two]

/-- the law of an affine image of the numbers -/
theorem StandardNormals.affine (h : StandardNormals μ z) (ev : Fin 6 → ℝ) {B cov : Matrix (Fin 6) (Fin 6) ℝ} (hB : B * Bᵀ = cov) (w : Fin 6 → ℝ) (c : ℝ) :
    μ.map (fun ω => c + w ⬝ᵥ (ev + B *ᵥ z ω)) = gaussianReal (c + w ⬝ᵥ ev) (w ⬝ᵥ cov *ᵥ w).toNNReal := by
  have := h.linear (Bᵀ *ᵥ w) (c + w ⬝ᵥ ev)
  have e : (Bᵀ *ᵥ w) ⬝ᵥ (Bᵀ *ᵥ w) = w ⬝ᵥ cov *ᵥ w := by
    rw [← hB, ← mulVec_mulVec, dotProduct_mulVec w B, mulVec_transpose]
  rw [e] at this
  rw [← this]
  congr 1
  funext ω
  rw [dotProduct_add, dotProduct_mulVec w B, mulVec_transpose]
  ring

/-- the joint law -/
theorem StandardNormals.joint (h : StandardNormals μ z) (ev : Fin 6 → ℝ) {B cov : Matrix (Fin 6) (Fin 6) ℝ} (hB : B * Bᵀ = cov) (hc : cov.PosSemidef) :
    μ.map (fun ω => toLp 2 (ev + B *ᵥ z ω)) = multivariateGaussian (toLp 2 ev) cov := by
  have := h.prob
  have hm := h.measurable
  have hmm : Measurable fun ω => toLp 2 (ev + B *ᵥ z ω) := by
    have : Measurable fun v : Fin 6 → ℝ => ev + B *ᵥ v := by
      refine measurable_const.add ?_
      exact (Continuous.measurable (by fun_prop))
    exact (by fun_prop : Measurable (toLp 2 : (Fin 6 → ℝ) → EuclideanSpace ℝ (Fin 6))).comp (this.comp hm)
  have : IsProbabilityMeasure (μ.map (fun ω => toLp 2 (ev + B *ᵥ z ω))) := Measure.isProbabilityMeasure_map hmm.aemeasurable
  refine Measure.ext_of_charFun (E := EuclideanSpace ℝ (Fin 6)) ?_
  ext t
  rw [charFun_multivariateGaussian hc, charFun_apply, integral_map hmm.aemeasurable (by fun_prop)]
  have key := congrArg (fun ρ => charFun ρ 1) (h.affine ev hB t.ofLp 0)
  simp only [zero_add] at key
  rw [charFun_gaussianReal, charFun_apply, integral_map ?_ (by fun_prop)] at key
  · refine Eq.trans ?_ (key.trans ?_)
    · refine integral_congr_ae (.of_forall fun ω => ?_)
      simp [PiLp.inner_apply, dotProduct, mul_comm]
    · have h0 : 0 ≤ t.ofLp ⬝ᵥ cov *ᵥ t.ofLp := by
        have := hc.dotProduct_mulVec_nonneg t.ofLp
        simpa using this
      rw [Real.coe_toNNReal _ h0]
      congr 1
      simp [PiLp.inner_apply, dotProduct, mul_comm]
  · have : Measurable fun v : Fin 6 → ℝ => t.ofLp ⬝ᵥ (ev + B *ᵥ v) := Continuous.measurable (by fun_prop)
    exact (this.comp hm).aemeasurable

end Oneka
