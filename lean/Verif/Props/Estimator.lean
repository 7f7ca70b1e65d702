import Verif.Lemmas.Estimator

/-!
# C106 and C107: the fit as an estimate from measured water levels

C106. Water levels measured with uncorrelated errors of mean zero and the stated standard deviations determine the flow without bias, the returned covariance matrix is the covariance matrix of the
returned coefficients, and no linear unbiased estimate has a smaller variance.  This holds while all measured levels are confined (`C106_confined_partial`); what is missing are unconfined levels,
and there it is false (`C106_fails_unconfined`).

C107. Raising one measured level raises the fitted potential at that place.  This holds among confined levels (`C107_confined_partial`); what is missing are unconfined levels, and across the thickness
it is false (`C107_fails_at_thickness`).
-/

namespace Oneka
open MeasureTheory ProbabilityTheory Matrix Aquifer

variable {Ω : Type} [MeasurableSpace Ω] {μ : Measure Ω} [IsProbabilityMeasure μ] {n : ℕ}

/-- C106, for confined levels: with probability one the fit succeeds, its coefficients `C` are unbiased, the matrix `V` it returns is their covariance matrix, and a linear function `φ` of them has the
least variance among all estimates `α · Z + b` that are right for every confined flow.  (Full claim: the same for all levels above the base.) -/
theorem C106_confined_partial (la : LinAlg) (hla : la.Correct) (hc : la.Converges) (m : Aquifer ℝ) (hK : 0 < m.conductivity) (hT : 0 < m.thickness) (xo yo : ℝ) (site : Fin n → Site)
    (hs : m.Suitable site) (c : Fin 6 → ℝ) (level : Fin n → ℝ) (hl : m.HasLevels xo yo c site level) (Z : Fin n → Ω → ℝ) (hZ : Measures μ site level Z)
    (hconf : ∀ᵐ ω ∂μ, ∀ i, m.thickness ≤ Z i ω - m.base) :
    ∃ (C : Ω → Fin 6 → ℝ) (V : Matrix (Fin 6) (Fin 6) ℝ),
      (∀ᵐ ω ∂μ, m.fitRegionalFlow la (observed site fun i => Z i ω) xo yo = ({ m with xo := xo, yo := yo, coef := C ω }, .ok (C ω, V))) ∧
      (∀ j, MemLp (fun ω => C ω j) 2 μ) ∧
      (∀ j, ∫ ω, C ω j ∂μ = c j) ∧
      (∀ j k, cov[fun ω => C ω j, fun ω => C ω k; μ] = V j k) ∧
      ∀ (α : Fin n → ℝ) (b : ℝ) (φ : Fin 6 → ℝ),
        (∀ c' level', m.HasLevels xo yo c' site level' → (∀ i, m.thickness ≤ level' i - m.base) → ∑ i, α i * level' i + b = φ ⬝ᵥ c') →
        Var[fun ω => φ ⬝ᵥ C ω; μ] ≤ Var[fun ω => ∑ i, α i * Z i ω + b; μ] := by
  set S := m.smoother xo yo site with hS
  have hlev : ∀ i, m.thickness ≤ level i - m.base := by
    intro i
    have hi : Integrable (Z i) μ := (hZ.square i).integrable (by norm_num)
    have := integral_mono_ae (integrable_const (m.thickness + m.base)) hi (hconf.mono fun ω h => by have := h i; dsimp only; linarith)
    rw [hZ.mean, integral_const] at this
    simp at this
    linarith
  have comp : ∀ ω (φ : Fin 6 → ℝ), φ ⬝ᵥ (S *ᵥ fun i => Z i ω / (site i).std + m.offset site i) =
      ∑ i, ((φ ᵥ* S) i / (site i).std) * Z i ω + ∑ i, (φ ᵥ* S) i * m.offset site i := by
    intro ω φ
    rw [Matrix.dotProduct_mulVec, ← Finset.sum_add_distrib]
    exact Finset.sum_congr rfl fun i _ => by ring
  have compj : ∀ ω j, (S *ᵥ fun i => Z i ω / (site i).std + m.offset site i) j = ∑ i, (S j i / (site i).std) * Z i ω + ∑ i, S j i * m.offset site i := by
    intro ω j
    rw [← Finset.sum_add_distrib]
    change ∑ i, S j i * (Z i ω / (site i).std + m.offset site i) = _
    exact Finset.sum_congr rfl fun i _ => by ring
  have wsum : ∀ g g' : Fin n → ℝ, ∑ i, g i / (site i).std * (g' i / (site i).std) * (site i).std ^ 2 = ∑ i, g i * g' i := by
    intro g g'
    refine Finset.sum_congr rfl fun i _ => ?_
    have := (hs.std_pos i).ne'
    field_simp
  refine ⟨fun ω => S *ᵥ fun i => Z i ω / (site i).std + m.offset site i, m.fitCov xo yo site, hconf.mono fun ω h => fit_confined hla hc hK hT hs h, fun j => ?_, fun j => ?_, fun j k => ?_,
    fun α b φ h => ?_⟩
  · simp only [compj]
    exact linear_lp hZ _ _
  · simp only [compj]
    rw [linear_mean hZ]
    have e : S *ᵥ (fun i => level i / (site i).std + m.offset site i) = c := by
      rw [level_confined hK hT hs hl hlev, Matrix.mulVec_mulVec, hS, smoother_design hK hT hs, Matrix.one_mulVec]
    have ej : ∑ i, S j i * (level i / (site i).std + m.offset site i) = c j := congrFun e j
    rw [← ej, ← Finset.sum_add_distrib]
    exact Finset.sum_congr rfl fun i _ => by ring
  · simp only [compj]
    rw [linear_cov hZ, wsum, ← smoother_smoother hK hT hs]
    rfl
  · have hb := best_weights hK hT hs (unbiased_weights hK hT hs h)
    simp only [comp]
    rw [← covariance_self (linear_lp hZ _ _).aemeasurable, ← covariance_self (linear_lp hZ _ _).aemeasurable, linear_cov hZ, linear_cov hZ, wsum]
    have q : ∑ i, (φ ᵥ* S) i * (φ ᵥ* S) i = φ ⬝ᵥ m.fitCov xo yo site *ᵥ φ := by
      rw [← smoother_smoother hK hT hs, ← Matrix.mulVec_mulVec, Matrix.dotProduct_mulVec, Matrix.mulVec_transpose]
      rfl
    rw [q]
    refine hb.trans (le_of_eq (Finset.sum_congr rfl fun i _ => by ring))

/-- C106 fails for unconfined levels: with six sites the fit succeeds with probability one, and on average the fitted potential at each site exceeds the true one by `K · std²`. -/
theorem C106_fails_unconfined (la : LinAlg) (hla : la.Correct) (hc : la.Converges) (m : Aquifer ℝ) (hK : 0 < m.conductivity) (hT : 0 < m.thickness) (xo yo : ℝ) (site : Fin 6 → Site)
    (hs : m.Suitable site) (c : Fin 6 → ℝ) (level : Fin 6 → ℝ) (hl : m.HasLevels xo yo c site level) (Z : Fin 6 → Ω → ℝ) (hZ : Measures μ site level Z)
    (hunc : ∀ᵐ ω ∂μ, ∀ i, 0 < Z i ω - m.base ∧ Z i ω - m.base < m.thickness) :
    ∃ (C : Ω → Fin 6 → ℝ) (V : Ω → Matrix (Fin 6) (Fin 6) ℝ),
      (∀ᵐ ω ∂μ, m.fitRegionalFlow la (observed site fun i => Z i ω) xo yo = ({ m with xo := xo, yo := yo, coef := C ω }, .ok (C ω, V ω))) ∧
      ∀ i, ∫ ω, ({ m with xo := xo, yo := yo, coef := C ω } : Aquifer ℝ).potential (site i).x (site i).y ∂μ =
        ({ m with xo := xo, yo := yo, coef := c } : Aquifer ℝ).potential (site i).x (site i).y + m.conductivity * (site i).std ^ 2 := by
  have hint : ∀ i, Integrable (Z i) μ := fun i => (hZ.square i).integrable (by norm_num)
  have hlt : ∀ i, level i - m.base < m.thickness := by
    intro i
    have hle : level i ≤ m.thickness + m.base := by
      have := integral_mono_ae (hint i) (integrable_const (m.thickness + m.base)) (hunc.mono fun ω h => by have := (h i).2; dsimp only; linarith)
      rw [hZ.mean, integral_const] at this
      simpa using this
    refine lt_of_le_of_ne (by linarith) fun e => ?_
    have h0 : ∫ ω, (m.thickness + m.base - Z i ω) ∂μ = 0 := by
      rw [integral_sub (integrable_const _) (hint i), hZ.mean, integral_const]
      simp
      linarith
    have hi : Integrable (fun ω => m.thickness + m.base - Z i ω) μ := (integrable_const _).sub (hint i)
    have hn : 0 ≤ᵐ[μ] fun ω => m.thickness + m.base - Z i ω := by
      filter_upwards [hunc] with ω h
      have := (h i).2
      change 0 ≤ m.thickness + m.base - Z i ω
      linarith
    have h3 := (integral_eq_zero_iff_of_nonneg_ae hn hi).mp h0
    obtain ⟨ω, h1, h2⟩ := (h3.and hunc).exists
    have := (h2 i).2
    change m.thickness + m.base - Z i ω = 0 at h1
    linarith
  have htrue : ∀ i, ({ m with xo := xo, yo := yo, coef := c } : Aquifer ℝ).potential (site i).x (site i).y = m.conductivity * (level i - m.base) ^ 2 / 2 := by
    intro i
    have hp := hl i
    rw [head_eq] at hp
    split_ifs at hp with h0
    have e := potential_headOf hK hT (not_le.mp h0)
    rw [Except.ok.inj hp] at e
    unfold potentialOfHead at e
    rw [if_pos (hlt i)] at e
    exact e.symm
  refine ⟨fun ω => (m.fitRegionalFlow la (observed site fun i => Z i ω) xo yo).1.coef,
    fun ω => (gram (((observed site fun i => Z i ω).map (m.rowOf xo yo)).map Prod.fst))⁻¹, ?_, fun i => ?_⟩
  · filter_upwards [hunc] with ω h
    have := (fit_closed (xo := xo) (yo := yo) hla hc hK hT hs (fun i => by linarith [(h i).1] : ∀ i, m.base < Z i ω)).2
    rw [this]
  · have key : (fun ω => ({ m with xo := xo, yo := yo, coef := (m.fitRegionalFlow la (observed site fun i => Z i ω) xo yo).1.coef } : Aquifer ℝ).potential (site i).x (site i).y) =ᵐ[μ]
        fun ω => m.conductivity / 2 * (Z i ω - m.base) ^ 2 + m.conductivity / 2 * (site i).std ^ 2 := by
      filter_upwards [hunc] with ω h
      have hz : ∀ i, m.base < Z i ω := fun i => by linarith [(h i).1]
      obtain ⟨m', r, h1, h2⟩ := interpolates (xo := xo) (yo := yo) hla hc hK hT hs hz
      have h3 := (fit_closed (xo := xo) (yo := yo) hla hc hK hT hs hz).2
      have h4 := h2 i
      rw [h1] at h3
      rw [h1]
      have h5 := congrArg Prod.fst h3
      dsimp only at h5
      have h6 : ({ m with xo := xo, yo := yo, coef := m'.coef } : Aquifer ℝ) = m' := by rw [h5]
      rw [h6, h4]
      unfold expectedPotential potentialOfHead
      rw [if_pos (h i).2, if_pos (h i).2]
      ring
    rw [integral_congr_ae key, htrue]
    have hsq : MemLp (fun ω => Z i ω - m.base) 2 μ := (hZ.square i).sub (memLp_const _)
    have hv : Var[Z i; μ] = (site i).std ^ 2 := by
      rw [← covariance_self (hZ.square i).aemeasurable, hZ.spread]
      simp
    have h2 : ∫ ω, (Z i ω - m.base) ^ 2 ∂μ = (level i - m.base) ^ 2 + (site i).std ^ 2 := by
      have e := variance_eq_sub hsq
      have e1 : Var[fun ω => Z i ω - m.base; μ] = (site i).std ^ 2 := by
        rw [variance_sub_const (hZ.square i).aestronglyMeasurable, hv]
      have e2 : ∫ ω, (Z i ω - m.base) ∂μ = level i - m.base := by
        rw [integral_sub (hint i) (integrable_const _), hZ.mean, integral_const]
        simp
      rw [e1, e2] at e
      have e3 : ∫ ω, ((fun ω => Z i ω - m.base) ^ 2) ω ∂μ = ∫ ω, (Z i ω - m.base) ^ 2 ∂μ := rfl
      linarith [e, e3]
    rw [integral_add (hsq.integrable_sq.const_mul _) (integrable_const _), integral_const_mul, h2, integral_const]
    simp
    ring

/-- C107, among confined levels: if one measured level is raised and the others stay, the fitted potential at that place becomes strictly larger.  (Full claim: the same for all levels above the
base.) -/
theorem C107_confined_partial (la : LinAlg) (hla : la.Correct) (hc : la.Converges) (m : Aquifer ℝ) (hK : 0 < m.conductivity) (hT : 0 < m.thickness) (xo yo : ℝ) (site : Fin n → Site)
    (hs : m.Suitable site) (z : Fin n → ℝ) (hz : ∀ i, m.thickness ≤ z i - m.base) (i : Fin n) (z' : ℝ) (hz' : z i < z') :
    ∃ m₁ r₁ m₂ r₂, m.fitRegionalFlow la (observed site z) xo yo = (m₁, .ok r₁) ∧ m.fitRegionalFlow la (observed site (Function.update z i z')) xo yo = (m₂, .ok r₂) ∧
      m₁.potential (site i).x (site i).y < m₂.potential (site i).x (site i).y := by
  have hz2 : ∀ k, m.thickness ≤ Function.update z i z' k - m.base := by
    intro k
    rcases eq_or_ne k i with rfl | h
    · simp; linarith [hz k]
    · simp [h]; exact hz k
  refine ⟨_, _, _, _, fit_confined hla hc hK hT hs hz, fit_confined hla hc hK hT hs hz2, ?_⟩
  set S := m.smoother xo yo site with hS
  set A := m.design xo yo site with hA
  have h0 := hs.std_pos i
  have hw : 0 < m.conductivity * m.thickness * (site i).std := by positivity
  have hp : ∀ c : Fin 6 → ℝ, ({ m with xo := xo, yo := yo, coef := c } : Aquifer ℝ).potential (site i).x (site i).y =
      m.conductivity * m.thickness * (site i).std * (A *ᵥ c) i + m.potentialWells (site i).x (site i).y := by
    intro c
    have hd : (A *ᵥ c) i = conic c ((site i).x - xo) ((site i).y - yo) / (m.conductivity * m.thickness * (site i).std) := by
      rw [← conic_mono c, Finset.sum_div]
      unfold Matrix.mulVec dotProduct
      rw [hA]
      unfold design
      exact Finset.sum_congr rfl fun k _ => by ring
    rw [potential_eq, potentialWells_eq, hd, mul_div_cancel₀ _ hw.ne']
  rw [hp, hp, Matrix.mulVec_mulVec, Matrix.mulVec_mulVec]
  have hupd : (fun k => Function.update z i z' k / (site k).std + m.offset site k) = (fun k => z k / (site k).std + m.offset site k) + Pi.single i ((z' - z i) / (site i).std) := by
    funext k
    rcases eq_or_ne k i with rfl | h
    · simp; ring
    · simp [h]
  rw [hupd, Matrix.mulVec_add]
  have hpos : 0 < (A * S) i i := leverage_pos hK hT hs i
  have hone : ((A * S) *ᵥ Pi.single i ((z' - z i) / (site i).std)) i = (A * S) i i * ((z' - z i) / (site i).std) := by
    change (A * S) i ⬝ᵥ Pi.single i ((z' - z i) / (site i).std) = _
    rw [dotProduct_single]
  rw [Pi.add_apply, hone]
  have hstep : 0 < (A * S) i i * ((z' - z i) / (site i).std) := mul_pos hpos (div_pos (by linarith) h0)
  nlinarith [mul_pos hw hstep]

/-- C107 fails across the thickness: with six sites, if a measured level is unconfined but so close to the thickness that `(z − base)² + std² > thickness²`, raising it to the thickness lowers the
fitted potential there. -/
theorem C107_fails_at_thickness (la : LinAlg) (hla : la.Correct) (hc : la.Converges) (m : Aquifer ℝ) (hK : 0 < m.conductivity) (hT : 0 < m.thickness) (xo yo : ℝ) (site : Fin 6 → Site)
    (hs : m.Suitable site) (z : Fin 6 → ℝ) (hz : ∀ i, m.base < z i) (i : Fin 6) (hlow : z i - m.base < m.thickness) (hnear : m.thickness ^ 2 < (z i - m.base) ^ 2 + (site i).std ^ 2) :
    ∃ m₁ r₁ m₂ r₂, m.fitRegionalFlow la (observed site z) xo yo = (m₁, .ok r₁) ∧
      m.fitRegionalFlow la (observed site (Function.update z i (m.base + m.thickness))) xo yo = (m₂, .ok r₂) ∧ z i < m.base + m.thickness ∧
      m₂.potential (site i).x (site i).y < m₁.potential (site i).x (site i).y := by
  have hz2 : ∀ k, m.base < Function.update z i (m.base + m.thickness) k := by
    intro k
    rcases eq_or_ne k i with rfl | h
    · simp [hT]
    · simp [h]; exact hz k
  obtain ⟨m₁, r₁, a1, a2⟩ := interpolates (xo := xo) (yo := yo) hla hc hK hT hs hz
  obtain ⟨m₂, r₂, b1, b2⟩ := interpolates (xo := xo) (yo := yo) hla hc hK hT hs hz2
  refine ⟨m₁, r₁, m₂, r₂, a1, b1, by linarith, ?_⟩
  rw [a2, b2]
  unfold expectedPotential potentialOfHead
  rw [if_pos hlow, if_pos hlow]
  simp only [Function.update_self, add_sub_cancel_left, lt_irrefl, if_false]
  nlinarith [mul_lt_mul_of_pos_left hnear hK]

end Oneka
