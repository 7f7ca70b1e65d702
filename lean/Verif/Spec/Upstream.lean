import Verif.Spec.Aquifer
import Verif.Py.Ext
import Mathlib.Analysis.Calculus.Deriv.Basic

/-!
# The direction in which the runs trace
-/

namespace Oneka

/-- `b` is the saturated thickness at `(x, y)`: the thickness of the aquifer if it is treated as confined; otherwise the smaller of the thickness and the head, the positive height `h`
whose potential (in the textbook's relation) is the potential at `(x, y)`. There is none where the potential is not positive. -/
def Aquifer.Saturated (m : Aquifer ℝ) (confined : Bool) (x y b : ℝ) : Prop :=
  if confined then b = m.thickness
  else ∃ h, 0 < h ∧ potentialOfHead m.conductivity m.thickness h = m.potential x y ∧ b = min h m.thickness

/-- `f` leads upstream: wherever there is groundwater flow (off the wells, and at a positive potential if the aquifer is not treated as confined) `f` times the porosity times the saturated
thickness is the gradient of the discharge potential. So `f` is the reverse of the velocity of the groundwater. -/
def Aquifer.Upstream (m : Aquifer ℝ) (confined : Bool) (f : ℝ × ℝ → ℝ × ℝ) : Prop :=
  ∀ x y b, m.OffWells x y → m.Saturated confined x y b →
    HasDerivAt (fun s => m.potential s y) (m.porosity * b * (f (x, y)).1) x ∧ HasDerivAt (fun s => m.potential x s) (m.porosity * b * (f (x, y)).2) y

/-- A point of the plane as a pair of floats. -/
def floats (p : ℝ × ℝ) : XR × XR := (.fin p.1, .fin p.2)

end Oneka
