import Verif.Spec.Rounding
import Mathlib.Data.Finset.Prod

/-!
# Vocabulary for reports computed in floating-point arithmetic
-/

namespace Oneka

/-- The lines of the decile table for 0.40, 0.45, 0.50, 0.55 and 0.80, counted from 0. -/
def lowRows : List ℕ := [7, 8, 9, 10, 15]

/-- The share of the total weight that the node in row `i` and column `j` has (the exact quotient). -/
noncomputable def Body.share (b : Body Fl) (i j : ℕ) : ℝ := (b.pgrid.val i j).val / b.totalWeight.val

open Classical in
/-- The nodes (row, column) whose share satisfies `P`. -/
noncomputable def PField.nodesOf (f : PField Fl) (b : Body Fl) (P : ℝ → Prop) : Finset (ℕ × ℕ) :=
  (Finset.range f.nrows ×ˢ Finset.range f.ncols).filter fun n => P (b.share n.1 n.2)

/-- `x` is the largest number with the property. -/
def LargestShare (f : PField Fl) (b : Body Fl) (P : ℝ → Prop) (x : ℝ) : Prop :=
  (∃ n ∈ f.nodesOf b P, b.share n.1 n.2 = x) ∧ ∀ n ∈ f.nodesOf b P, b.share n.1 n.2 ≤ x

/-- What counts as above the threshold of line `k`: more than (k+1)/20; in the lines for 0.40, 0.45, 0.50, 0.55 and 0.80 also (k+1)/20 itself. -/
def AboveLevel (k : ℕ) (s : ℝ) : Prop := if k ∈ lowRows then ((k : ℝ) + 1) / 20 ≤ s else ((k : ℝ) + 1) / 20 < s

end Oneka
