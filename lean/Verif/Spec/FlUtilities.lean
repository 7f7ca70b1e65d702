import Verif.Model.FlUtilities
import Verif.Spec.Utilities
import Verif.Spec.Rounding

/-!
# Vocabulary for C109: `filter_obs` in floating-point arithmetic
-/

namespace Oneka

/-- `np.hypot` and `**2` are off by at most one unit in the last place. -/
structure LibObs.Accurate [LibObs] : Prop where
  hypot : ∀ x y : Fl, |(LibObs.hypot x y).val - Real.sqrt (x.val ^ 2 + y.val ^ 2)| ≤ 2 ^ (-52 : ℤ) * Real.sqrt (x.val ^ 2 + y.val ^ 2)
  square : ∀ x : Fl, |(LibObs.square x).val - x.val ^ 2| ≤ 2 ^ (-52 : ℤ) * x.val ^ 2

/-- the same observation, as real numbers -/
def FlObs.exact (o : FlObs) : Obs := ⟨o.x.val, o.y.val, o.z.val, o.std.val⟩

/-- horizontal distance -/
noncomputable def FlObs.dist (o : FlObs) (x y : Fl) : ℝ := Real.sqrt ((o.x.val - x.val) ^ 2 + (o.y.val - y.val) ^ 2)

/-- The distance `d` is zero, or not so close to the limit `b` that rounding could decide on which side it is. -/
def Clear (d b : ℝ) : Prop := d = 0 ∨ (1 + 2 ^ (-51 : ℤ)) * d < b ∨ b < (1 - 2 ^ (-51 : ℤ)) * d

/-- No distance is critical: between observations and wells compared with the buffer, and between observations compared with 1. -/
structure NoneCritical (obs : List FlObs) (wells : List (Fl × Fl)) (buffer : Fl) : Prop where
  wells : ∀ o ∈ obs, ∀ w ∈ wells, Clear (o.dist w.1 w.2) buffer.val
  pairs : ∀ o ∈ obs, ∀ p ∈ obs, Clear (o.dist p.x p.y) 1

/-- `f` is the observation `e` up to rounding: at the same place, the head within `c * M` and the standard deviation within the relative error `c`. -/
structure NearObs (c M : ℝ) (f : FlObs) (e : Obs) : Prop where
  x : f.x.val = e.x
  y : f.y.val = e.y
  z : |f.z.val - e.z| ≤ c * M
  std : |f.std.val - e.std| ≤ c * |e.std|

end Oneka
