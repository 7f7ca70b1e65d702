import Verif.Spec.Oneka
import Verif.Spec.Upstream

/-!
# Vocabulary for calls about different target wells
-/

namespace Oneka

/-- The call with another target. -/
def Inputs.withTarget (n : Inputs) (k : ℤ) : Inputs := { n with run := { n.run with target := k } }

/-- Two models of the same aquifer and the same wells (whatever the regional flow). -/
structure Aquifer.SameAquifer (m m' : Aquifer ℝ) : Prop where
  base : m'.base = m.base
  conductivity : m'.conductivity = m.conductivity
  porosity : m'.porosity = m.porosity
  thickness : m'.thickness = m.thickness
  wells : m'.wells = m.wells

/-- The six terms of the regional flow at the place `p`, with the origin `(xo, yo)`. -/
def flowTerms (xo yo : ℝ) (p : ℝ × ℝ) : Fin 6 → ℝ := ![(p.1 - xo) ^ 2, (p.2 - yo) ^ 2, (p.1 - xo) * (p.2 - yo), p.1 - xo, p.2 - yo, 1]

/-- The potential with coefficients `c` about the origin `(xo, yo)`: regional flow and wells. -/
noncomputable def Aquifer.surface (m : Aquifer ℝ) (xo yo : ℝ) (c : Fin 6 → ℝ) (p : ℝ × ℝ) : ℝ := ∑ i, c i * flowTerms xo yo p i + m.potentialWells p.1 p.2

/-- The covariance of the potentials at the places `p` and `p'`, if the coefficients about the origin `(xo, yo)` have the covariance matrix `cov`. -/
noncomputable def surfaceCov (xo yo : ℝ) (cov : Matrix (Fin 6) (Fin 6) ℝ) (p p' : ℝ × ℝ) : ℝ := ∑ i, ∑ j, flowTerms xo yo p i * cov i j * flowTerms xo yo p' j

end Oneka
