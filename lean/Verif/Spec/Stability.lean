import Verif.Spec.Estimator

/-!
# Vocabulary for C110: how far the fitted potential can be off
-/

namespace Oneka
open Matrix

/-- The standard deviation, according to the covariance matrix `V` of the coefficients, of the quadratic `c₀u² + c₁v² + c₂uv + c₃u + c₄v + c₅` at `(u, v)`. -/
noncomputable def spread (V : Matrix (Fin 6) (Fin 6) ℝ) (u v : ℝ) : ℝ :=
  √((![u ^ 2, v ^ 2, u * v, u, v, 1] : Fin 6 → ℝ) ⬝ᵥ (V *ᵥ ![u ^ 2, v ^ 2, u * v, u, v, 1]))

/-- A linear-algebra package whose least-squares solver comes within `η ^ 2` of the least sum of squared residuals.  Nothing is assumed of its matrix inversion. -/
def LinAlg.Within (la : LinAlg) (η : ℝ) : Prop :=
  ∀ (rows : List ((Fin 6 → ℝ) × ℝ)) (c : Fin 6 → ℝ), la.lstsq (rows.map finRow) = .ok c → ∀ c' : Fin 6 → ℝ,
    (rows.map fun r => (∑ i, r.1 i * c i - r.2) ^ 2).sum ≤ (rows.map fun r => (∑ i, r.1 i * c' i - r.2) ^ 2).sum + η ^ 2

/-- The change of the measured levels from `z` to `z'`, in standard deviations. -/
noncomputable def levelChange {n : ℕ} (site : Fin n → Site) (z z' : Fin n → ℝ) : ℝ := √(∑ i, ((z' i - z i) / (site i).std) ^ 2)

end Oneka
