import Verif.Spec.Width

/-!
# Vocabulary for the dividing streamline of a well in a uniform flow
-/

namespace Oneka

/-- `p` is inside the dividing streamline, on which the distance from the axis times the discharge of the uniform flow is the share `c |bearing|` of the discharge of the well. (`c` is `1 / 2π`.) -/
def InsideDivide (w : Well ℝ) (u v c : ℝ) (p : ℝ × ℝ) : Prop := |leftOf w u v p| ≤ w.qw * c * |bearing w u v p|

/-- `p` is in the classical capture zone of the well: not downstream of the stagnation point, and from the axis at most the share `|bearing| / π` of the half width that the zone has far upstream (both up to a relative error of `1 / 10 ^ 16`). -/
def ClassicalZone (w : Well ℝ) (u v : ℝ) (p : ℝ × ℝ) : Prop :=
  below w u v p ≤ (1 + 1 / 10 ^ 16) * stagnation w u v ∧ fromAxis w u v p ≤ (1 + 1 / 10 ^ 16) * halfWidth w u v * (|bearing w u v p| / Real.pi)

end Oneka
