import Verif.Spec.Field
import Mathlib.Data.Real.Basic
import Mathlib.Data.Set.Card

/-!
# Vocabulary for the properties of the plots
-/

namespace Oneka

/-- The probability of capture of the place `(X, Y)`: its share of the total weight. -/
noncomputable def PField.probAt (f : PField ℝ) (X Y : ℝ) : ℝ := f.weightAt X Y / f.total

/-- The nodes whose probability of capture satisfies `P`. -/
def PField.nodesWhere (f : PField ℝ) (P : ℝ → Prop) : Set (ℝ × ℝ) := {p | f.IsNode p.1 p.2 ∧ P (f.probAt p.1 p.2)}

/-- The area of the cells around these nodes, `spacing` being the side of a cell. -/
noncomputable def PField.areaWhere (f : PField ℝ) (spacing : ℝ) (P : ℝ → Prop) : ℝ := (f.nodesWhere P).ncard * spacing ^ 2

/-- position of the node in column `k` (row `k`) of a map with `n` columns (rows) from `a` to `b` -/
noncomputable def mapNode (a b : ℝ) (n k : ℕ) : ℝ := a + k * ((b - a) / ((n:ℝ) - 1))

end Oneka
