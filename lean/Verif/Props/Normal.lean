import Verif.Lemmas.PropsNormal

/-!
# C97: the law of the coefficients of a realization

The parameters of the realization (conductivity, porosity, thickness, pumping rates) have been drawn, which makes its model `m`; `m'` is the model that is fitted to the observations.
-/

namespace Oneka

open MeasureTheory ProbabilityTheory Filter Topology Matrix WithLp

section
variable (a : RunArgs) (t : SWell) {q : Dist → ℕ → Except PyErr ℝ} {interrupt : ℕ → ℕ → Option PyErr} {la : LinAlg} (hla : la.Correct) {mv : NormalGen} (hmv : mv.Factors)
  {m m' : Aquifer ℝ} (hm : DrawnModel a q m) (hK : 0 < m.conductivity) (hT : 0 < m.thickness) (hu : m.Usable a.obs) {ev : Fin 6 → ℝ} {cov : Matrix (Fin 6) (Fin 6) ℝ}
  (hf : m.fitRegionalFlow la a.obs t.xw t.yw = (m', .ok (ev, cov)))
  {Ω : Type} [MeasurableSpace Ω] {μ : Measure Ω} {z : Ω → Fin 6 → ℝ} (hz : StandardNormals μ z)

include hla hmv hm hK hT hu hf hz

/-- C97: the coefficients of the realization are normally distributed; their mean is the result of the fit, and their covariance is the covariance of the fit. -/
theorem C97_coefficients : ∃ c : Ω → Fin 6 → ℝ, μ.map (fun ω => toLp 2 (c ω)) = multivariateGaussian (toLp 2 ev) cov ∧
    (∀ i, ∫ ω, c ω i ∂μ = ev i) ∧ (∀ i j, covariance (fun ω => c ω i) (fun ω => c ω j) μ = cov i j) ∧
    ∀ ω L, Realized a la t q (fun ev cov => mv ev cov (z ω)) interrupt L → L.model.coef = c ω := by
  have hc := (C40_covariance la hla m m' hK hT a.obs t.xw t.yw ev cov hu hf).1.posSemidef
  obtain ⟨B, hB, hg⟩ := hmv ev cov hc
  have hj := hz.joint ev hB hc
  have hmm : Measurable fun ω => toLp 2 (ev + B *ᵥ z ω) := by
    have : Measurable fun v : Fin 6 → ℝ => ev + B *ᵥ v := Continuous.measurable (by fun_prop)
    exact (by fun_prop : Measurable (toLp 2 : (Fin 6 → ℝ) → EuclideanSpace ℝ (Fin 6))).comp (this.comp hz.measurable)
  refine ⟨fun ω => ev + B *ᵥ z ω, hj, fun i => ?_, fun i j => ?_, fun ω L R => ?_⟩
  · have h1 : MeasurePreserving (fun y : EuclideanSpace ℝ (Fin 6) => y i) (multivariateGaussian (toLp 2 ev) cov) _ := measurePreserving_eval_multivariateGaussian hc
    have h2 : ∫ y : EuclideanSpace ℝ (Fin 6), y i ∂(multivariateGaussian (toLp 2 ev) cov) = ev i := by
      have := integral_map (μ := multivariateGaussian (toLp 2 ev) cov) (φ := fun y => y i) (f := fun r : ℝ => r) h1.measurable.aemeasurable (by fun_prop)
      rw [h1.map_eq, integral_id_gaussianReal] at this
      exact this.symm
    rw [← h2, ← hj, integral_map hmm.aemeasurable (by fun_prop)]
  · rw [← covariance_eval_multivariateGaussian (μ := toLp 2 ev) hc i j, ← hj, covariance_map (by fun_prop) (by fun_prop) hmm.aemeasurable]
    rfl
  · have := (realized_of_fit hla hm hK hT hu hf R).1
    rw [hg] at this
    exact (Except.ok.inj this).symm

/-- C97: so the potential of the realization is normally distributed at every point; its mean is the potential of the fitted model. -/
theorem C97_potential (X Y : ℝ) :
    let φ : Fin 6 → ℝ := ![(X - t.xw) ^ 2, (Y - t.yw) ^ 2, (X - t.xw) * (Y - t.yw), X - t.xw, Y - t.yw, 1]
    ∃ Φ : Ω → ℝ, μ.map Φ = gaussianReal (m'.potential X Y) (φ ⬝ᵥ cov *ᵥ φ).toNNReal ∧
      ∀ ω L, Realized a la t q (fun ev cov => mv ev cov (z ω)) interrupt L → L.model.potential X Y = Φ ω := by
  intro φ
  have hc := (C40_covariance la hla m m' hK hT a.obs t.xw t.yw ev cov hu hf).1.posSemidef
  obtain ⟨B, hB, hg⟩ := hmv ev cov hc
  obtain ⟨e1, e2, e3, -⟩ := C35_minimises la hla m m' hK hT a.obs t.xw t.yw ev cov hu hf
  have key : ∀ c : Fin 6 → ℝ, ({ m' with coef := c } : Aquifer ℝ).potential X Y = m'.potentialWells X Y + φ ⬝ᵥ c := by
    intro c
    rw [Aquifer.potential_eq, Aquifer.potentialWells_eq]
    simp [e1, e2, φ, conic, dotProduct, Fin.sum_univ_succ]
    ring
  refine ⟨fun ω => m'.potentialWells X Y + φ ⬝ᵥ (ev + B *ᵥ z ω), ?_, fun ω L R => ?_⟩
  · rw [hz.affine ev hB φ, ← key ev, ← e3]
  · obtain ⟨h1, h2, h3⟩ := realized_of_fit hla hm hK hT hu hf R
    rw [hg] at h1
    rw [h3, key, ← Except.ok.inj h1]

/-- C97: and so are the components of the discharge. -/
theorem C97_discharge (X Y : ℝ) :
    let φ : Fin 6 → ℝ := ![-(2 * (X - t.xw)), 0, -(Y - t.yw), -1, 0, 0]
    let ψ : Fin 6 → ℝ := ![0, -(2 * (Y - t.yw)), -(X - t.xw), 0, -1, 0]
    ∃ Q : Ω → ℝ × ℝ, μ.map (fun ω => (Q ω).1) = gaussianReal (m'.discharge X Y).1 (φ ⬝ᵥ cov *ᵥ φ).toNNReal ∧
      μ.map (fun ω => (Q ω).2) = gaussianReal (m'.discharge X Y).2 (ψ ⬝ᵥ cov *ᵥ ψ).toNNReal ∧
      ∀ ω L, Realized a la t q (fun ev cov => mv ev cov (z ω)) interrupt L → L.model.discharge X Y = Q ω := by
  intro φ ψ
  have hc := (C40_covariance la hla m m' hK hT a.obs t.xw t.yw ev cov hu hf).1.posSemidef
  obtain ⟨B, hB, hg⟩ := hmv ev cov hc
  obtain ⟨e1, e2, e3, -⟩ := C35_minimises la hla m m' hK hT a.obs t.xw t.yw ev cov hu hf
  have key : ∃ A : ℝ × ℝ, ∀ c : Fin 6 → ℝ, ({ m' with coef := c } : Aquifer ℝ).discharge X Y = (A.1 + φ ⬝ᵥ c, A.2 + ψ ⬝ᵥ c) := by
    refine ⟨((m'.wells.map fun w => -(w.qw * (Aquifer.twoPiInv : ℝ) * ((X - w.xw) / w.r2 X Y))).sum, (m'.wells.map fun w => -(w.qw * (Aquifer.twoPiInv : ℝ) * ((Y - w.yw) / w.r2 X Y))).sum), fun c => ?_⟩
    rw [Aquifer.discharge_eq]
    refine Prod.ext ?_ ?_ <;> simp [e1, e2, φ, ψ, dotProduct, Fin.sum_univ_succ] <;> ring
  obtain ⟨A, key⟩ := key
  have e4 : m'.discharge X Y = (A.1 + φ ⬝ᵥ ev, A.2 + ψ ⬝ᵥ ev) := by rw [← key ev, ← e3]
  refine ⟨fun ω => (A.1 + φ ⬝ᵥ (ev + B *ᵥ z ω), A.2 + ψ ⬝ᵥ (ev + B *ᵥ z ω)), ?_, ?_, fun ω L R => ?_⟩
  · rw [e4]; exact hz.affine ev hB φ A.1
  · rw [e4]; exact hz.affine ev hB ψ A.2
  · obtain ⟨h1, h2, h3⟩ := realized_of_fit hla hm hK hT hu hf R
    rw [hg] at h1
    rw [h3, key, ← Except.ok.inj h1]

end

/-- C97: if the parameters are not random (whatever numbers are drawn, the model is `m`), the average of the coefficients over the realizations of a run converges, almost surely, to the result of the fit. -/
theorem C97_average (a : RunArgs) (k : ℕ) (t : SWell) (hk : a.target = k) (ht : a.wells[k]? = some t) {la : LinAlg} (hla : la.Correct) {mv : NormalGen} (hmv : mv.Factors)
    {m m' : Aquifer ℝ} (hm : ∀ u : ℕ → ℝ, DrawnModel a (fun d j => d.sample (u j)) m) (hK : 0 < m.conductivity) (hT : 0 < m.thickness) (hu : m.Usable a.obs)
    {ev : Fin 6 → ℝ} {cov : Matrix (Fin 6) (Fin 6) ℝ} (hf : m.fitRegionalFlow la a.obs t.xw t.yw = (m', .ok (ev, cov)))
    {Ω : Type} [MeasurableSpace Ω] {μ : Measure Ω} {ν : Measure Numbers} {x : ℕ → Ω → Numbers} (hx : IidNumbers μ ν x) (hν : StandardNormals ν Prod.snd) :
    ∀ᵐ ω ∂μ, ∀ r : ℕ → RunResult, (∀ n : ℕ, createStochastic a n (envOf la mv fun i => x i ω) = some (r n) ∧ ∃ f, (r n).outcome = .ok f) →
      ∀ j, Tendsto (fun n => ((r n).log.map fun L => L.model.coef j).sum / n) atTop (𝓝 (ev j)) := by
  have hc := (C40_covariance la hla m m' hK hT a.obs t.xw t.yw ev cov hu hf).1.posSemidef
  obtain ⟨B, hB, hg⟩ := hmv ev cov hc
  have := fun j => hx.average hν (B j) (ev j)
  filter_upwards [ae_all_iff.mpr this] with ω hω r hr j
  refine (hω j).congr fun n => ?_
  obtain ⟨h1, f, h2⟩ := hr n
  obtain ⟨hl, -⟩ := C44_frequencies a n k _ t hk ht h1 h2
  rw [sum_log (r n).log n hl _ _ fun i L hL => ?_]
  have hi : i < n := by rw [← hl]; exact (List.getElem?_eq_some_iff.mp hL).1
  obtain ⟨L', hL', R⟩ := C45_realizations a n k _ t hk ht h1 h2 i hi
  rw [hL] at hL'
  obtain rfl := Option.some.inj hL'
  have h3 := (realized_of_fit hla (hm (x i ω).1) hK hT hu hf R).1
  have h4 := hg (x i ω).2
  have : (Except.ok (ev + B *ᵥ (x i ω).2) : Except PyErr _) = .ok L.model.coef := h4.symm.trans h3
  rw [← Except.ok.inj this]
  rfl

end Oneka
