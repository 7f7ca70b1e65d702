import Mathlib.Probability.StrongLaw
import Mathlib.Probability.Moments.SubGaussian
import Verif.Spec.Statistics

/-! Counting in a sequence of independent numbers with the same law. -/

namespace Oneka

open MeasureTheory ProbabilityTheory Filter Topology

section
variable {Ω : Type} [MeasurableSpace Ω] {μ : Measure Ω} {ν : Measure Numbers} {x : ℕ → Ω → Numbers}

theorem IidNumbers.preimage (h : IidNumbers μ ν x) (i : ℕ) {C : Set Numbers} (hC : MeasurableSet C) : μ (x i ⁻¹' C) = ν C := by
  rw [← h.law i, Measure.map_apply (h.measurable i) hC]

theorem IidNumbers.inter (h : IidNumbers μ ν x) (n : ℕ) {A : ℕ → Set Numbers} (hA : ∀ i, MeasurableSet (A i)) :
    μ {ω | ∀ i < n, x i ω ∈ A i} = ∏ i ∈ Finset.range n, ν (A i) := by
  have e : {ω | ∀ i < n, x i ω ∈ A i} = ⋂ i ∈ Finset.range n, x i ⁻¹' A i := by
    ext ω
    simp
  rw [e, iIndepFun_iff_measure_inter_preimage_eq_mul.mp h.indep _ fun i _ => hA i]
  exact Finset.prod_congr rfl fun i _ => h.preimage i (hA i)

open Classical in
theorem IidNumbers.binomial (h : IidNumbers μ ν x) (n m : ℕ) {C R : Set Numbers} (hC : MeasurableSet C) (hR : MeasurableSet R) (hCR : C ⊆ R) :
    μ {ω | (∀ i < n, x i ω ∈ R) ∧ ((Finset.range n).filter fun i => x i ω ∈ C).card = m} = (n.choose m) * ν C ^ m * ν (R \ C) ^ (n - m) := by
  let A : Finset ℕ → ℕ → Set Numbers := fun S i => if i ∈ S then C else R \ C
  have hA : ∀ S i, MeasurableSet (A S i) := fun S i => by
    simp only [A]
    split
    · exact hC
    · exact hR.diff hC
  have e : {ω | (∀ i < n, x i ω ∈ R) ∧ ((Finset.range n).filter fun i => x i ω ∈ C).card = m} =
      ⋃ S ∈ Finset.powersetCard m (Finset.range n), {ω | ∀ i < n, x i ω ∈ A S i} := by
    ext ω
    simp only [Set.mem_iUnion, Finset.mem_powersetCard, exists_prop]
    constructor
    · rintro ⟨h1, h2⟩
      refine ⟨(Finset.range n).filter fun i => x i ω ∈ C, ⟨Finset.filter_subset _ _, h2⟩, fun i hi => ?_⟩
      simp only [A, Finset.mem_filter, Finset.mem_range]
      by_cases hc : x i ω ∈ C
      · rw [if_pos ⟨hi, hc⟩]; exact hc
      · rw [if_neg (fun q => hc q.2)]; exact ⟨h1 i hi, hc⟩
    · rintro ⟨S, ⟨hS, hm⟩, h1⟩
      refine ⟨fun i hi => ?_, ?_⟩
      · have := h1 i hi
        simp only [A] at this
        split at this
        · exact hCR this
        · exact this.1
      · rw [← hm]
        congr 1
        ext i
        simp only [Finset.mem_filter, Finset.mem_range]
        constructor
        · rintro ⟨hi, hc⟩
          by_contra hn
          have := h1 i hi
          simp only [A, if_neg hn] at this
          exact this.2 hc
        · intro hi
          have hi' := Finset.mem_range.mp (hS hi)
          have := h1 i hi'
          simp only [A, if_pos hi] at this
          exact ⟨hi', this⟩
  rw [e, measure_biUnion_finset]
  · have : ∀ S ∈ Finset.powersetCard m (Finset.range n), μ {ω | ∀ i < n, x i ω ∈ A S i} = ν C ^ m * ν (R \ C) ^ (n - m) := by
      intro S hS
      obtain ⟨h1, h2⟩ := Finset.mem_powersetCard.mp hS
      rw [h.inter n (hA S)]
      have e2 : ∀ i ∈ Finset.range n, ν (A S i) = if i ∈ S then ν C else ν (R \ C) := by
        intro i _
        simp only [A]
        split <;> rfl
      rw [Finset.prod_congr rfl e2, Finset.prod_ite, Finset.prod_const, Finset.prod_const]
      have e3 : (Finset.range n).filter (· ∈ S) = S := by
        ext i
        simp only [Finset.mem_filter, and_iff_right_iff_imp]
        exact fun hi => h1 hi
      have e4 : (Finset.range n).filter (fun i => ¬ i ∈ S) = Finset.range n \ S := by
        ext i
        simp
      rw [e3, e4, h2, Finset.card_sdiff_of_subset h1, h2, Finset.card_range]
    rw [Finset.sum_congr rfl this, Finset.sum_const, Finset.card_powersetCard, Finset.card_range, nsmul_eq_mul, mul_assoc]
  · intro S hS T hT hne
    have hS' := (Finset.mem_powersetCard.mp (Finset.mem_coe.mp hS)).1
    have hT' := (Finset.mem_powersetCard.mp (Finset.mem_coe.mp hT)).1
    refine Set.disjoint_left.mpr fun ω h1 h2 => hne ?_
    ext i
    have key : ∀ {S T : Finset ℕ}, S ⊆ Finset.range n → ω ∈ {ω | ∀ i < n, x i ω ∈ A S i} → ω ∈ {ω | ∀ i < n, x i ω ∈ A T i} → i ∈ S → i ∈ T := by
      intro S T hS h1 h2 hi
      by_contra hn
      have hi' := Finset.mem_range.mp (hS hi)
      have q1 := h1 i hi'
      have q2 := h2 i hi'
      simp only [A, if_pos hi] at q1
      simp only [A, if_neg hn] at q2
      exact q2.2 q1
    exact ⟨key hS' h1 h2, key hT' h2 h1⟩
  · intro S _
    have : {ω | ∀ i < n, x i ω ∈ A S i} = ⋂ i ∈ Finset.range n, x i ⁻¹' A S i := by
      ext ω
      simp
    rw [this]
    exact Finset.measurableSet_biInter _ fun i _ => h.measurable i (hA S i)

/-- the indicator of a set of numbers -/
noncomputable def ind (C : Set Numbers) : Numbers → ℝ := C.indicator fun _ => 1

theorem measurable_ind {C : Set Numbers} (hC : MeasurableSet C) : Measurable (ind C) := measurable_const.indicator hC

theorem ind_mem (C : Set Numbers) (y : Numbers) : ind C y ∈ Set.Icc (0 : ℝ) 1 := by
  classical
  unfold ind
  rw [Set.indicator_apply]
  split <;> simp

open Classical in
theorem sum_ind (C : Set Numbers) (n : ℕ) (ω : Ω) : ∑ i ∈ Finset.range n, ind C (x i ω) = (((Finset.range n).filter fun i => x i ω ∈ C).card : ℝ) := by
  unfold ind
  simp only [Set.indicator_apply]
  rw [Finset.sum_boole]

theorem IidNumbers.mean (h : IidNumbers μ ν x) (i : ℕ) {C : Set Numbers} (hC : MeasurableSet C) : ∫ ω, ind C (x i ω) ∂μ = ν.real C := by
  rw [← integral_map (f := ind C) (h.measurable i).aemeasurable (measurable_ind hC).aestronglyMeasurable, h.law i]
  unfold ind
  rw [integral_indicator hC]
  simp

theorem IidNumbers.prob (h : IidNumbers μ ν x) : IsProbabilityMeasure μ := h.indep.isProbabilityMeasure

open Classical in
theorem IidNumbers.lln (h : IidNumbers μ ν x) {C : Set Numbers} (hC : MeasurableSet C) :
    ∀ᵐ ω ∂μ, Tendsto (fun n : ℕ => (((Finset.range n).filter fun i => x i ω ∈ C).card : ℝ) / n) atTop (𝓝 (ν.real C)) := by
  have := h.prob
  have hm := measurable_ind hC
  have hint : Integrable (fun ω => ind C (x 0 ω)) μ := Integrable.of_mem_Icc 0 1 (hm.comp (h.measurable 0)).aemeasurable (ae_of_all _ fun ω => ind_mem C _)
  have := strong_law_ae_real (fun i ω => ind C (x i ω)) hint (fun i j hij => (h.indep.indepFun hij).comp hm hm)
    (fun i => IdentDistrib.comp (u := ind C) ⟨(h.measurable i).aemeasurable, (h.measurable 0).aemeasurable, by rw [h.law, h.law]⟩ hm)
  simp only [h.mean 0 hC, sum_ind] at this
  exact this

open Classical in
theorem IidNumbers.hoeffding (h : IidNumbers μ ν x) {C : Set Numbers} (hC : MeasurableSet C) (n : ℕ) {ε : ℝ} (hε : 0 ≤ ε) :
    μ.real {ω | ε * n ≤ |(((Finset.range n).filter fun i => x i ω ∈ C).card : ℝ) - n * ν.real C|} ≤ 2 * Real.exp (-2 * n * ε ^ 2) := by
  have := h.prob
  have hm := measurable_ind hC
  rcases Nat.eq_zero_or_pos n with rfl | hn
  · simp only [Nat.cast_zero, mul_zero, zero_mul, Real.exp_zero, mul_one]
    exact measureReal_le_one.trans one_le_two
  have hn' : (0:ℝ) < n := Nat.cast_pos.mpr hn
  have hsub : ∀ i, HasSubgaussianMGF (fun ω => ind C (x i ω) - ν.real C) ((‖(1:ℝ) - 0‖₊ / 2) ^ 2) μ := fun i => by
    have := hasSubgaussianMGF_of_mem_Icc (μ := μ) (X := fun ω => ind C (x i ω)) (hm.comp (h.measurable i)).aemeasurable (ae_of_all _ fun ω => ind_mem C _)
    rwa [h.mean i hC] at this
  have hc : (((‖(1:ℝ) - 0‖₊ / 2) ^ 2 : NNReal) : ℝ) = 1 / 4 := by
    simp
    norm_num
  have ind1 : iIndepFun (fun i ω => ind C (x i ω) - ν.real C) μ := h.indep.comp (fun _ y => ind C y - ν.real C) fun _ => hm.sub_const _
  have ind2 : iIndepFun (fun i ω => -(ind C (x i ω) - ν.real C)) μ := h.indep.comp (fun _ y => -(ind C y - ν.real C)) fun _ => (hm.sub_const _).neg
  have t1 := HasSubgaussianMGF.measure_sum_range_ge_le_of_iIndepFun ind1 (n := n) (fun i _ => hsub i) (ε := ε * n) (by positivity)
  have t2 := HasSubgaussianMGF.measure_sum_range_ge_le_of_iIndepFun ind2 (n := n) (fun i _ => (hsub i).neg) (ε := ε * n) (by positivity)
  rw [hc] at t1 t2
  have he : -(ε * n) ^ 2 / (2 * n * (1 / 4)) = -2 * n * ε ^ 2 := by
    field_simp
    ring
  rw [he] at t1 t2
  have hs : ∀ ω, ∑ i ∈ Finset.range n, (ind C (x i ω) - ν.real C) = (((Finset.range n).filter fun i => x i ω ∈ C).card : ℝ) - n * ν.real C := by
    intro ω
    rw [Finset.sum_sub_distrib, sum_ind]
    simp
  have hs' : ∀ ω, ∑ i ∈ Finset.range n, -(ind C (x i ω) - ν.real C) = -((((Finset.range n).filter fun i => x i ω ∈ C).card : ℝ) - n * ν.real C) := by
    intro ω
    rw [Finset.sum_neg_distrib, hs]
  simp only [hs] at t1
  simp only [hs'] at t2
  refine (measureReal_mono (s₂ := {ω | ε * n ≤ (((Finset.range n).filter fun i => x i ω ∈ C).card : ℝ) - n * ν.real C} ∪
    {ω | ε * n ≤ -((((Finset.range n).filter fun i => x i ω ∈ C).card : ℝ) - n * ν.real C)}) ?_).trans ((measureReal_union_le _ _).trans (by linarith [t1, t2]))
  intro ω hω
  rcases le_abs.mp (show ε * n ≤ |(((Finset.range n).filter fun i => x i ω ∈ C).card : ℝ) - n * ν.real C| from hω) with q | q
  · exact .inl q
  · exact .inr q

end

end Oneka
