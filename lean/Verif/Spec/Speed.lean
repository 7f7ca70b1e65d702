import Mathlib.Data.Real.Basic

/-!
# Vocabulary for C147: how far a trace can lead
-/

namespace Oneka

/-- the component of a displacement or a velocity in the direction `u` -/
def along (u v : ℝ × ℝ) : ℝ := u.1 * v.1 + u.2 * v.2

/-- the square of the length -/
def lengthSq (v : ℝ × ℝ) : ℝ := v.1 ^ 2 + v.2 ^ 2

/-- The Dormand-Prince method gives one of the velocities of a step a negative weight. This is its size, about 0.3224. (oneka/capturezone.py:207) -/
noncomputable def overshoot : ℝ := 2187 / 6784

end Oneka
