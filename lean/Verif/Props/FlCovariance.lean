import Verif.Lemmas.FlCovariance

/-!
# C114: the covariance matrix in floating-point arithmetic

`m.flFitRegionalFlow la obs xo yo` is `fit_regional_flow` with every operation of `construct_fit` rounded (`Verif/Model/FlFit.lean`); `la` stands for numpy's linear algebra. Of numpy only this is used: an entry of
`matmul` is off by at most `γ`, and the product of a matrix with its `inv` differs from the unit matrix by at most `δ`, both relative to the terms that are added up (`Spec/FlCovariance.lean`; `γ` and `δ` may depend on
the data). `κ` says how well the observations determine the flow (`Determined`, as in C111); it enters squared.
-/

namespace Oneka
open Matrix Aquifer

variable [LibM] [LibObs]

/-- C114: every entry of the covariance matrix that `fit_regional_flow` returns differs from that of the exact fit by at most `ρ / (1 - ρ)` times the product of the two standard deviations. -/
theorem C114_covariance (hlog : LogAccurate) (hl : LibObs.Accurate) (la : FlLinAlg) (γ : List (Fin 6 → Fl) → ℝ) (hγ : ∀ rows, 0 ≤ γ rows) (hmul : la.Multiplies γ) (δ : Matrix (Fin 6) (Fin 6) Fl → ℝ)
    (hδ : ∀ A, 0 ≤ δ A) (hinv : la.Inverts δ) (la₀ : LinAlg) (hla₀ : la₀.Correct) (m : Aquifer Fl) (hK : 0 < m.conductivity.val) (hT : 0 < m.thickness.val) (hn : m.wells.length ≤ 2 ^ 40) (obs : List FlObs)
    (xo yo : Fl) (hu : m.exact.Usable (obs.map FlObs.exact)) (hc : ∀ o ∈ obs, m.exact.LevelClear o.exact) (κ : ℝ) (hκ0 : 0 ≤ κ) (hκ : m.exact.Determined (obs.map FlObs.exact) xo.val yo.val κ)
    (rows : List ((Fin 6 → Fl) × Fl)) (hrows : m.flConstructFit xo yo obs = .ok rows) (ρ : ℝ) (hρ0 : 0 ≤ ρ) (hρ1 : ρ < 1)
    (hρ : κ ^ 2 * ((1 + γ (rows.map Prod.fst)) * (1 + δ (la.normal (rows.map Prod.fst))) * (1 + 2 ^ (-49 : ℤ)) ^ 2 - 1) ≤ ρ)
    (m' : Aquifer Fl) (c' : Fin 6 → Fl) (V' : Matrix (Fin 6) (Fin 6) Fl) (hf : m.flFitRegionalFlow la obs xo yo = (m', .ok (c', V')))
    (m₀ : Aquifer ℝ) (c : Fin 6 → ℝ) (V : Matrix (Fin 6) (Fin 6) ℝ) (hf₀ : m.exact.fitRegionalFlow la₀ (obs.map FlObs.exact) xo.val yo.val = (m₀, .ok (c, V))) (i j : Fin 6) :
    |(V' i j).val - V i j| ≤ ρ / (1 - ρ) * (√(V i i) * √(V j j)) := by
  obtain ⟨hg, hcol⟩ := flFit_inverse hlog hl hγ hmul hδ hinv hla₀ hK hT hn hu hc hκ0 hκ hrows hρ0 hρ1 hρ hf hf₀
  have hτ : 0 ≤ ρ / (1 - ρ) := div_nonneg hρ0 (by linarith)
  have := within_spread hg (φ := Pi.single i 1) (mul_nonneg hτ (Real.sqrt_nonneg _)) (hcol j)
  rw [single_dotProduct, one_mul, single_dotProduct, one_mul, Matrix.mulVec_single_one] at this
  change |(V' i j).val - V i j| ≤ ρ / (1 - ρ) * √(V j j) * √(V i i) at this
  linarith

/-- C114: the variance of the regional flow. At every point the variance of the potential according to the returned matrix differs from that of the exact fit by at most `ρ / (1 - ρ)` times the standard deviation of the
exact fit and the terms that it is computed from. -/
theorem C114_variance (hlog : LogAccurate) (hl : LibObs.Accurate) (la : FlLinAlg) (γ : List (Fin 6 → Fl) → ℝ) (hγ : ∀ rows, 0 ≤ γ rows) (hmul : la.Multiplies γ) (δ : Matrix (Fin 6) (Fin 6) Fl → ℝ)
    (hδ : ∀ A, 0 ≤ δ A) (hinv : la.Inverts δ) (la₀ : LinAlg) (hla₀ : la₀.Correct) (m : Aquifer Fl) (hK : 0 < m.conductivity.val) (hT : 0 < m.thickness.val) (hn : m.wells.length ≤ 2 ^ 40) (obs : List FlObs)
    (xo yo : Fl) (hu : m.exact.Usable (obs.map FlObs.exact)) (hc : ∀ o ∈ obs, m.exact.LevelClear o.exact) (κ : ℝ) (hκ0 : 0 ≤ κ) (hκ : m.exact.Determined (obs.map FlObs.exact) xo.val yo.val κ)
    (rows : List ((Fin 6 → Fl) × Fl)) (hrows : m.flConstructFit xo yo obs = .ok rows) (ρ : ℝ) (hρ0 : 0 ≤ ρ) (hρ1 : ρ < 1)
    (hρ : κ ^ 2 * ((1 + γ (rows.map Prod.fst)) * (1 + δ (la.normal (rows.map Prod.fst))) * (1 + 2 ^ (-49 : ℤ)) ^ 2 - 1) ≤ ρ)
    (m' : Aquifer Fl) (c' : Fin 6 → Fl) (V' : Matrix (Fin 6) (Fin 6) Fl) (hf : m.flFitRegionalFlow la obs xo yo = (m', .ok (c', V')))
    (m₀ : Aquifer ℝ) (c : Fin 6 → ℝ) (V : Matrix (Fin 6) (Fin 6) ℝ) (hf₀ : m.exact.fitRegionalFlow la₀ (obs.map FlObs.exact) xo.val yo.val = (m₀, .ok (c, V))) (u v : ℝ) :
    |(![u ^ 2, v ^ 2, u * v, u, v, 1] : Fin 6 → ℝ) ⬝ᵥ ((Matrix.of fun i j => (V' i j).val) *ᵥ ![u ^ 2, v ^ 2, u * v, u, v, 1]) - spread V u v ^ 2| ≤
      ρ / (1 - ρ) * (spread V u v * conicTerms (fun i => √(V i i)) u v) := by
  obtain ⟨hg, hcol⟩ := flFit_inverse hlog hl hγ hmul hδ hinv hla₀ hK hT hn hu hc hκ0 hκ hrows hρ0 hρ1 hρ hf hf₀
  have hτ : 0 ≤ ρ / (1 - ρ) := div_nonneg hρ0 (by linarith)
  change |mono u v ⬝ᵥ ((Matrix.of fun i j => (V' i j).val) *ᵥ mono u v) - _| ≤ _
  rw [spread_eq, Real.sq_sqrt (inverse_nonneg hg _)]
  have key : ∀ j, |mono u v j * (mono u v ⬝ᵥ ((fun i => (V' i j).val) - fun i => V i j))| ≤ ρ / (1 - ρ) * √(mono u v ⬝ᵥ (V *ᵥ mono u v)) * |√(V j j) * mono u v j| := by
    intro j
    have h := within_spread hg (φ := mono u v) (mul_nonneg hτ (Real.sqrt_nonneg (V j j))) (hcol j)
    rw [abs_mul, abs_mul, abs_of_nonneg (Real.sqrt_nonneg (V j j))]
    have := mul_le_mul_of_nonneg_left h (abs_nonneg (mono u v j))
    linarith
  have e : mono u v ⬝ᵥ ((Matrix.of fun i j => (V' i j).val) *ᵥ mono u v) - mono u v ⬝ᵥ (V *ᵥ mono u v) = ∑ j, mono u v j * (mono u v ⬝ᵥ ((fun i => (V' i j).val) - fun i => V i j)) := by
    rw [← dotProduct_sub, ← Matrix.sub_mulVec]
    simp only [dotProduct, Matrix.mulVec, Matrix.sub_apply, Matrix.of_apply, Pi.sub_apply, Finset.mul_sum]
    rw [Finset.sum_comm]
    exact Finset.sum_congr rfl fun j _ => Finset.sum_congr rfl fun i _ => by ring
  rw [e]
  refine ((Finset.abs_sum_le_sum_abs _ _).trans (Finset.sum_le_sum fun j _ => key j)).trans (le_of_eq ?_)
  rw [← Finset.mul_sum, mul_assoc]
  congr 2
  rw [Fin.sum_univ_six]
  have e2 : √(V 2 2) * mono u v 2 = √(V 2 2) * u * v := (mul_assoc _ _ _).symm
  have e5 : √(V 5 5) * mono u v 5 = √(V 5 5) := mul_one _
  rw [e2, e5]
  rfl

/-- C114: standard deviations and correlations. With `ρ` below one half, the variances that are returned have a relative error of at most `ρ / (1 - ρ)`, and the correlations that they and the covariances give are off by at
most `2 ρ / (1 - 2 ρ)`. -/
theorem C114_correlations (hlog : LogAccurate) (hl : LibObs.Accurate) (la : FlLinAlg) (γ : List (Fin 6 → Fl) → ℝ) (hγ : ∀ rows, 0 ≤ γ rows) (hmul : la.Multiplies γ) (δ : Matrix (Fin 6) (Fin 6) Fl → ℝ)
    (hδ : ∀ A, 0 ≤ δ A) (hinv : la.Inverts δ) (la₀ : LinAlg) (hla₀ : la₀.Correct) (m : Aquifer Fl) (hK : 0 < m.conductivity.val) (hT : 0 < m.thickness.val) (hn : m.wells.length ≤ 2 ^ 40) (obs : List FlObs)
    (xo yo : Fl) (hu : m.exact.Usable (obs.map FlObs.exact)) (hc : ∀ o ∈ obs, m.exact.LevelClear o.exact) (κ : ℝ) (hκ0 : 0 ≤ κ) (hκ : m.exact.Determined (obs.map FlObs.exact) xo.val yo.val κ)
    (rows : List ((Fin 6 → Fl) × Fl)) (hrows : m.flConstructFit xo yo obs = .ok rows) (ρ : ℝ) (hρ0 : 0 ≤ ρ) (hρ1 : ρ < 1/2)
    (hρ : κ ^ 2 * ((1 + γ (rows.map Prod.fst)) * (1 + δ (la.normal (rows.map Prod.fst))) * (1 + 2 ^ (-49 : ℤ)) ^ 2 - 1) ≤ ρ)
    (m' : Aquifer Fl) (c' : Fin 6 → Fl) (V' : Matrix (Fin 6) (Fin 6) Fl) (hf : m.flFitRegionalFlow la obs xo yo = (m', .ok (c', V')))
    (m₀ : Aquifer ℝ) (c : Fin 6 → ℝ) (V : Matrix (Fin 6) (Fin 6) ℝ) (hf₀ : m.exact.fitRegionalFlow la₀ (obs.map FlObs.exact) xo.val yo.val = (m₀, .ok (c, V))) (i j : Fin 6) :
    |(V' i i).val - V i i| ≤ ρ / (1 - ρ) * V i i ∧ |(V' i j).val / (√(V' i i).val * √(V' j j).val) - V i j / (√(V i i) * √(V j j))| ≤ 2 * ρ / (1 - 2 * ρ) := by
  obtain ⟨hg, -⟩ := flFit_inverse hlog hl hγ hmul hδ hinv hla₀ hK hT hn hu hc hκ0 hκ hrows hρ0 (by linarith) hρ hf hf₀
  have cov := C114_covariance hlog hl la γ hγ hmul δ hδ hinv la₀ hla₀ m hK hT hn obs xo yo hu hc κ hκ0 hκ rows hrows ρ hρ0 (by linarith) hρ m' c' V' hf m₀ c V hf₀
  have pos := inverse_diag_pos hg
  constructor
  · have := cov i i
    rwa [Real.mul_self_sqrt (pos i).le] at this
  · have h := correlation_near (V' := fun i j => (V' i j).val) (by rw [div_lt_one (by linarith)]; linarith) pos (inverse_diag_cauchy hg) cov i j
    refine h.trans (le_of_eq ?_)
    have h1 : 1 - ρ ≠ 0 := by linarith
    have h2 : 1 - 2 * ρ ≠ 0 := by linarith
    have h3 : 1 - ρ / (1 - ρ) = (1 - 2 * ρ) / (1 - ρ) := by field_simp; ring
    rw [h3]
    field_simp

/-- C114: the fit returns. If `inv` raises only for matrices that a relative change of their entries by `δ` can make singular, and `lstsq` does not fail, then `fit_regional_flow` returns. -/
theorem C114_returns (hlog : LogAccurate) (hl : LibObs.Accurate) (la : FlLinAlg) (hconv : la.Converges) (γ : List (Fin 6 → Fl) → ℝ) (hγ : ∀ rows, 0 ≤ γ rows) (hmul : la.Multiplies γ)
    (δ : Matrix (Fin 6) (Fin 6) Fl → ℝ) (hδ : ∀ A, 0 ≤ δ A) (hgive : la.Gives δ) (m : Aquifer Fl) (hK : 0 < m.conductivity.val) (hT : 0 < m.thickness.val) (hn : m.wells.length ≤ 2 ^ 40) (obs : List FlObs)
    (xo yo : Fl) (hu : m.exact.Usable (obs.map FlObs.exact)) (hc : ∀ o ∈ obs, m.exact.LevelClear o.exact) (hgen : ¬ OnOneConic (obs.map FlObs.exact)) (κ : ℝ) (hκ0 : 0 ≤ κ)
    (hκ : m.exact.Determined (obs.map FlObs.exact) xo.val yo.val κ) (rows : List ((Fin 6 → Fl) × Fl)) (hrows : m.flConstructFit xo yo obs = .ok rows)
    (hρ : κ ^ 2 * ((1 + γ (rows.map Prod.fst)) * (1 + δ (la.normal (rows.map Prod.fst))) * (1 + 2 ^ (-49 : ℤ)) ^ 2 - 1) < 1) :
    ∃ m' c' V', m.flFitRegionalFlow la obs xo yo = (m', .ok (c', V')) := by
  obtain ⟨c, hc'⟩ := hconv rows
  cases hi : la.inv (la.normal (rows.map Prod.fst)) with
  | ok B => exact ⟨{ m with xo := xo, yo := yo, coef := c }, c, B, by simp only [flFitRegionalFlow, hrows, hc', hi]⟩
  | error e =>
    exfalso
    obtain ⟨E, hE, hnear⟩ := hgive _ e hi
    obtain ⟨x, hx0, hx⟩ := Matrix.exists_mulVec_eq_zero_iff.mpr hE
    have hz := flFit_regular hlog hl hγ hmul hδ hK hT hn hu hc hκ0 hκ hrows hρ hnear hx
    have hd := rows_degenerate m.exact hK hT xo.val yo.val (obs.map FlObs.exact) hu
    refine hgen (hd.mp ⟨x, hx0, fun r hr => ?_⟩)
    rw [List.map_map, List.map_map] at hr
    obtain ⟨o, ho, rfl⟩ := List.mem_map.mp hr
    exact hz o ho

end Oneka
