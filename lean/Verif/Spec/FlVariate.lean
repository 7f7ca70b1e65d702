import Verif.Model.FlVariate
import Verif.Spec.Rounding

/-!
# Vocabulary for C108: random parameters in floating-point arithmetic
-/

namespace Oneka

/-- A draw of the generator of numpy: a multiple of `2^-53` in `[0, 1)`. -/
def IsDraw (u : Fl) : Prop := ∃ k : ℕ, k < 2 ^ 53 ∧ u.val = k * 2 ^ (-53 : ℤ)

namespace FlDist

/-- The entries ascend, and a triple is not constant. -/
def Ordered : FlDist → Prop
  | .const _ => True
  | .pair a b => a.val ≤ b.val
  | .triple a m b => a.val ≤ m.val ∧ m.val ≤ b.val ∧ a.val < b.val

/-- the smallest value -/
def lo : FlDist → ℝ
  | .const c => c.val
  | .pair a _ => a.val
  | .triple a _ _ => a.val

/-- the largest value -/
def hi : FlDist → ℝ
  | .const c => c.val
  | .pair _ b => b.val
  | .triple _ _ b => b.val

/-- the same distribution, in exact arithmetic -/
def exact : FlDist → Dist
  | .const c => .const c.val
  | .pair a b => .tuple [a.val, b.val]
  | .triple a m b => .tuple [a.val, m.val, b.val]

end FlDist

end Oneka
