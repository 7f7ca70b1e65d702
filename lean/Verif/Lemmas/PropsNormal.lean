import Mathlib.Probability.StrongLaw
import Verif.Lemmas.Gauss
import Verif.Lemmas.PropsStatistics
import Verif.Props.Fit

/-! Helper lemmas for C97. -/

namespace Oneka

open MeasureTheory ProbabilityTheory Filter Topology Matrix Aquifer

section
variable {a : RunArgs} {la : LinAlg} {t : SWell} {q : Dist → ℕ → Except PyErr ℝ} {interrupt : ℕ → ℕ → Option PyErr} {mv : NormalGen}
  {m m' : Aquifer ℝ} {ev : Fin 6 → ℝ} {cov : Matrix (Fin 6) (Fin 6) ℝ}

/-- the model of a realization whose parameters have been drawn -/
theorem realized_of_fit (hla : la.Correct) (hm : DrawnModel a q m) (hK : 0 < m.conductivity) (hT : 0 < m.thickness) (hu : m.Usable a.obs)
    (hf : m.fitRegionalFlow la a.obs t.xw t.yw = (m', .ok (ev, cov))) {coefs : (Fin 6 → ℝ) → Matrix (Fin 6) (Fin 6) ℝ → Except PyErr (Fin 6 → ℝ)} {L : RealizationLog}
    (R : Realized a la t q coefs interrupt L) : coefs ev cov = .ok L.model.coef ∧ m'.coef = ev ∧ L.model = { m' with coef := L.model.coef } := by
  obtain ⟨g, h1, h2, h3⟩ := R.drawn
  obtain rfl := h1.unique hm
  rw [hf] at h2
  obtain ⟨rfl, rfl⟩ := Prod.mk.inj (Except.ok.inj h2)
  obtain ⟨e1, e2, e3, e4, e5, e6, e7, e8, -⟩ := C35_minimises la hla g m' hK hT a.obs t.xw t.yw _ _ hu hf
  refine ⟨R.coef, e3, ?_⟩
  rw [h3]
  cases m'
  simp only at e1 e2 e4 e5 e6 e7 e8 ⊢
  rw [e1, e2, e4, e5, e6, e7, e8]

end

theorem sum_log (log : List RealizationLog) (n : ℕ) (hl : log.length = n) (g : RealizationLog → ℝ) (b : ℕ → ℝ) (h : ∀ i L, log[i]? = some L → g L = b i) :
    (log.map g).sum = ∑ i ∈ Finset.range n, b i := by
  subst hl
  induction log using List.reverseRecOn with
  | nil => simp
  | append_singleton l L ih =>
    rw [List.map_append, List.sum_append, ih fun i L' h' => h i L' (by
      rw [List.getElem?_append_left (List.getElem?_eq_some_iff.mp h').1]; exact h'), List.length_append, List.length_singleton, Finset.sum_range_succ]
    simp [h l.length L (by simp)]

/-- averages of linear functions of the numbers -/
theorem IidNumbers.average {Ω : Type} [MeasurableSpace Ω] {μ : Measure Ω} {ν : Measure Numbers} {x : ℕ → Ω → Numbers} (h : IidNumbers μ ν x) (hn : StandardNormals ν Prod.snd) (w : Fin 6 → ℝ) (c : ℝ) :
    ∀ᵐ ω ∂μ, Tendsto (fun n : ℕ => (∑ i ∈ Finset.range n, (c + w ⬝ᵥ (x i ω).2)) / n) atTop (𝓝 c) := by
  have hmeas : Measurable fun y : Numbers => c + w ⬝ᵥ y.2 := by
    have : Measurable fun v : Fin 6 → ℝ => c + w ⬝ᵥ v := Continuous.measurable (by fun_prop)
    exact this.comp measurable_snd
  have hlaw : μ.map (fun ω => c + w ⬝ᵥ (x 0 ω).2) = gaussianReal c (w ⬝ᵥ w).toNNReal := by
    rw [← hn.linear w c, ← h.law 0, Measure.map_map hmeas (h.measurable 0)]
    rfl
  have hid : IdentDistrib (fun ω => c + w ⬝ᵥ (x 0 ω).2) id μ (gaussianReal c (w ⬝ᵥ w).toNNReal) := ⟨(hmeas.comp (h.measurable 0)).aemeasurable, aemeasurable_id, by rw [hlaw, Measure.map_id]⟩
  have hint : Integrable (fun ω => c + w ⬝ᵥ (x 0 ω).2) μ := hid.integrable_iff.mpr (IsGaussian.integrable_id)
  have := strong_law_ae_real (fun i ω => c + w ⬝ᵥ (x i ω).2) hint (fun i j hij => (h.indep.indepFun hij).comp hmeas hmeas)
    (fun i => IdentDistrib.comp (u := fun y : Numbers => c + w ⬝ᵥ y.2) ⟨(h.measurable i).aemeasurable, (h.measurable 0).aemeasurable, by rw [h.law, h.law]⟩ hmeas)
  rw [hid.integral_eq] at this
  simpa using this

end Oneka
