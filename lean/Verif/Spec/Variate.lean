import Verif.Model.Variate

/-!
# Distributions
-/

namespace Oneka

/-- `arg` denotes a distribution on `[lo, hi]`: a scalar, an ordered pair, or an ordered triple with minimum below maximum; all finite. -/
inductive IsDist : PyVal → ℝ → ℝ → Prop
  | scalar (v : PyVal) (c : ℝ) : v.num = some (.fin c) → IsDist v c c
  | pair (a b : PyVal) (x y : ℝ) : a.num = some (.fin x) → b.num = some (.fin y) → x ≤ y → IsDist (.tuple [a, b]) x y
  | triple (a m b : PyVal) (x c y : ℝ) : a.num = some (.fin x) → m.num = some (.fin c) → b.num = some (.fin y) →
      x ≤ c → c ≤ y → x < y → IsDist (.tuple [a, m, b]) x y

/-- `arg` contains only finite numbers -/
def AllFinite : PyVal → Prop
  | .tuple l => ∀ v ∈ l, ∀ x, v.num = some x → x.IsFin
  | v => ∀ x, v.num = some x → x.IsFin

/-- The distribution function of the uniform distribution on `[a, b]`. -/
noncomputable def uniformCdf (a b z : ℝ) : ℝ := if z ≤ a then 0 else if z ≤ b then (z - a) / (b - a) else 1

/-- The distribution function of the triangular distribution on `[a, b]` with mode `c`. -/
noncomputable def triangularCdf (a c b z : ℝ) : ℝ :=
  if z ≤ a then 0 else if z ≤ c then (z - a)^2 / ((b - a) * (c - a)) else if z ≤ b then 1 - (b - z)^2 / ((b - a) * (b - c)) else 1

/-- The draws `u` in `[0, 1)` for which `generate_random_variate(arg)` returns a number that is at most `z`. -/
def drawsBelow (arg : PyVal) (z : ℝ) : Set ℝ := {u | 0 ≤ u ∧ u < 1 ∧ ∃ v r, generateRandomVariate arg u = .ok v ∧ v.num = some (.fin r) ∧ r ≤ z}

end Oneka
