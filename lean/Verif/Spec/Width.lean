import Verif.Spec.Arrival

/-!
# Vocabulary for a well in a uniform flow
-/

namespace Oneka

/-- The regional flow is uniform: it discharges `(u, v)` everywhere, and there is just the well `w`. -/
structure Aquifer.UniformFlow (m : Aquifer ℝ) (w : Well ℝ) (u v : ℝ) : Prop where
  wells : m.wells = [w]
  noRecharge : m.coef 0 = 0 ∧ m.coef 1 = 0 ∧ m.coef 2 = 0
  discharge : m.coef 3 = -u ∧ m.coef 4 = -v

/-- How far `p` is downstream of the well, times the length of `(u, v)`. -/
def downstream (w : Well ℝ) (u v : ℝ) (p : ℝ × ℝ) : ℝ := u * (p.1 - w.xw) + v * (p.2 - w.yw)

/-- How far `p` is to the left of the line through the well in the direction of `(u, v)`, times the length of `(u, v)`. -/
def leftOf (w : Well ℝ) (u v : ℝ) (p : ℝ × ℝ) : ℝ := u * (p.2 - w.yw) - v * (p.1 - w.xw)

/-- The distance of `p` from the line through the well in the direction of `(u, v)`. -/
noncomputable def fromAxis (w : Well ℝ) (u v : ℝ) (p : ℝ × ℝ) : ℝ := |leftOf w u v p| / Real.sqrt (u ^ 2 + v ^ 2)

/-- How far `p` is downstream of the well. -/
noncomputable def below (w : Well ℝ) (u v : ℝ) (p : ℝ × ℝ) : ℝ := downstream w u v p / Real.sqrt (u ^ 2 + v ^ 2)

/-- Half the width of the strip of the uniform flow that discharges as much as the well. -/
noncomputable def halfWidth (w : Well ℝ) (u v : ℝ) : ℝ := w.qw / (2 * Real.sqrt (u ^ 2 + v ^ 2))

/-- How far downstream of the well the water stands still. -/
noncomputable def stagnation (w : Well ℝ) (u v : ℝ) : ℝ := w.qw / (2 * Real.pi * Real.sqrt (u ^ 2 + v ^ 2))

/-- The direction from the well to `p`, as an angle from the direction of `(u, v)`, between `-π` and `π`. -/
noncomputable def bearing (w : Well ℝ) (u v : ℝ) (p : ℝ × ℝ) : ℝ := (Complex.mk (downstream w u v p) (leftOf w u v p)).arg

end Oneka
