import Verif.Spec.Run
import Verif.Spec.Visualize

/-!
# The capture zones of single realizations
-/

namespace Oneka

/-- The nodes of the lattice through `(xo, yo)` with spacing `s` that the realization captures with the umbra `u`. -/
def RealizationLog.zone (L : RealizationLog) (xo yo s u : ℝ) : Set (ℝ × ℝ) := {p | OnLattice xo yo s s p.1 p.2 ∧ L.Captures u p.1 p.2}

/-- The area of the cells around these nodes. -/
noncomputable def RealizationLog.zoneArea (L : RealizationLog) (xo yo s u : ℝ) : ℝ := (L.zone xo yo s u).ncard * s ^ 2

/-- The mean of these areas. -/
noncomputable def meanZoneArea (Ls : List RealizationLog) (xo yo s u : ℝ) : ℝ := (Ls.map fun L => L.zoneArea xo yo s u).sum / Ls.length

end Oneka
