import Mathlib.Probability.Moments.Covariance
import Verif.Spec.Aquifer

/-!
# Vocabulary for C106 and C107: the fit as an estimate from measured water levels
-/

namespace Oneka
open MeasureTheory ProbabilityTheory

/-- A place where the water level is measured, and the standard deviation of the measurement. -/
structure Site where
  x : ℝ
  y : ℝ
  std : ℝ

/-- The list of observations with the levels `z`. -/
def observed {n : ℕ} (site : Fin n → Site) (z : Fin n → ℝ) : List Obs := List.ofFn fun i => ⟨(site i).x, (site i).y, z i, (site i).std⟩

/-- The levels `Z` are measured with errors: on average they are the true ones, their standard deviations are the stated ones, and they are uncorrelated. -/
structure Measures {Ω : Type} [MeasurableSpace Ω] (μ : Measure Ω) {n : ℕ} (site : Fin n → Site) (level : Fin n → ℝ) (Z : Fin n → Ω → ℝ) : Prop where
  square : ∀ i, MemLp (Z i) 2 μ
  mean : ∀ i, ∫ ω, Z i ω ∂μ = level i
  spread : ∀ i j, cov[Z i, Z j; μ] = if i = j then (site i).std ^ 2 else 0

/-- The flow with coefficients `c` about `(xo, yo)` has at the sites the water levels `level`. -/
def Aquifer.HasLevels (m : Aquifer ℝ) (xo yo : ℝ) (c : Fin 6 → ℝ) {n : ℕ} (site : Fin n → Site) (level : Fin n → ℝ) : Prop :=
  ∀ i, ({ m with xo := xo, yo := yo, coef := c } : Aquifer ℝ).head (site i).x (site i).y = .ok (level i - m.base)

/-- The sites can be used for a fit: positive standard deviations, no site exactly at a well, not all sites on one conic. -/
structure Aquifer.Suitable (m : Aquifer ℝ) {n : ℕ} (site : Fin n → Site) : Prop where
  std_pos : ∀ i, 0 < (site i).std
  off : ∀ i, m.OffWells (site i).x (site i).y
  general : ¬ ∃ c : Fin 6 → ℝ, c ≠ 0 ∧ ∀ i, conic c (site i).x (site i).y = 0

end Oneka
