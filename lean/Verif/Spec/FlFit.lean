import Verif.Model.FlFit
import Verif.Spec.FlUtilities
import Verif.Spec.RoundingAquifer
import Verif.Spec.Stability

/-!
# Vocabulary for C111: the fit in floating-point arithmetic
-/

namespace Oneka

/-- On the rows `rows` the least-squares solver comes within `η rows ^ 2` of the least sum of squared residuals. -/
def FlLinAlg.Within (la : FlLinAlg) (η : List ((Fin 6 → Fl) × Fl) → ℝ) : Prop :=
  ∀ (rows : List ((Fin 6 → Fl) × Fl)) (c : Fin 6 → Fl), la.lstsq rows = .ok c → ∀ c' : Fin 6 → ℝ,
    (rows.map fun r => (∑ i, (r.1 i).val * (c i).val - r.2.val) ^ 2).sum ≤ (rows.map fun r => (∑ i, (r.1 i).val * c' i - r.2.val) ^ 2).sum + η rows ^ 2

/-- The head above the base is not just below the thickness of the aquifer (by half a unit in the last place), so that rounding does not decide whether it counts as confined. -/
def Aquifer.LevelClear (m : Aquifer ℝ) (o : Obs) : Prop := m.thickness ≤ o.z - m.base ∨ (1 + 2 ^ (-52 : ℤ)) * (o.z - m.base) < m.thickness

/-- The absolute values of the terms of `c₀u² + c₁v² + c₂uv + c₃u + c₄v + c₅`, added up. -/
def conicTerms (c : Fin 6 → ℝ) (u v : ℝ) : ℝ := |c 0 * u ^ 2| + |c 1 * v ^ 2| + |c 2 * u * v| + |c 3 * u| + |c 4 * v| + |c 5|

/-- The absolute values of the contributions of the wells, added up, each logarithm increased by 1 (and with 12 for 4π). -/
noncomputable def Aquifer.wellTerms (m : Aquifer ℝ) (x y : ℝ) : ℝ := (m.wells.map fun w => |w.qw| / 12 * (1 + |Real.log (w.r2 x y)|)).sum

/-- How well the observations determine the flow: for no quadratic are the terms at the observations (their absolute values added up) altogether more than `κ` times as large as the values, both in standard deviations
of the measured potentials and as root of the sum of squares. -/
def Aquifer.Determined (m : Aquifer ℝ) (obs : List Obs) (xo yo κ : ℝ) : Prop :=
  ∀ d : Fin 6 → ℝ, √(obs.map fun o => (conicTerms d (o.x - xo) (o.y - yo) / potentialStd m.conductivity m.thickness (o.z - m.base) o.std) ^ 2).sum ≤
    κ * √(obs.map fun o => (conic d (o.x - xo) (o.y - yo) / potentialStd m.conductivity m.thickness (o.z - m.base) o.std) ^ 2).sum

/-- The size of the numbers from which the residuals of the flow with coefficients `c` are computed, in standard deviations: at every observation the terms of the regional flow, the measured potential and the
contributions of the wells, as root of the sum of squares. -/
noncomputable def Aquifer.residualTerms (m : Aquifer ℝ) (obs : List Obs) (xo yo : ℝ) (c : Fin 6 → ℝ) : ℝ :=
  √(obs.map fun o => ((conicTerms c (o.x - xo) (o.y - yo) + expectedPotential m.conductivity m.thickness (o.z - m.base) o.std + m.wellTerms o.x o.y) /
    potentialStd m.conductivity m.thickness (o.z - m.base) o.std) ^ 2).sum

end Oneka
