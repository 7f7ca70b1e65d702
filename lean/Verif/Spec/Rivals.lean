import Verif.Spec.Stability

/-!
# Vocabulary for C112: discharge and pathlines of flows that fit almost as well
-/

namespace Oneka
open Matrix

/-- The standard deviation, according to the covariance matrix `V` of the coefficients, of the derivative in the direction `(a, b)` of the quadratic `c₀u² + c₁v² + c₂uv + c₃u + c₄v + c₅` at `(u, v)`. -/
noncomputable def slopeSpread (V : Matrix (Fin 6) (Fin 6) ℝ) (u v a b : ℝ) : ℝ :=
  √((![2 * a * u, 2 * b * v, a * v + b * u, a, b, 0] : Fin 6 → ℝ) ⬝ᵥ (V *ᵥ ![2 * a * u, 2 * b * v, a * v + b * u, a, b, 0]))

/-- The larger of the standard deviations of the two components of the gradient. -/
noncomputable def gradientSpread (V : Matrix (Fin 6) (Fin 6) ℝ) (u v : ℝ) : ℝ := max (slopeSpread V u v 1 0) (slopeSpread V u v 0 1)

end Oneka
