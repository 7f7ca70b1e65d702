import Verif.Spec.Visualize
import Mathlib.Data.Int.Interval
import Mathlib.Analysis.SpecialFunctions.Exp

/-!
# Vocabulary for the smoothed probability map
-/

namespace Oneka

/-- How many nodes far the smoothing reaches: four standard deviations, rounded to the nearest whole number. -/
noncomputable def smoothReach (σ : ℝ) : ℕ := ⌊4 * σ + 1/2⌋₊

/-- The square of nodes, relative to a node, that the smoothing takes into account: (rows north, columns east). -/
noncomputable def smoothWindow (σ : ℝ) : Finset (ℤ × ℤ) := Finset.Icc (-(smoothReach σ : ℤ)) (smoothReach σ) ×ˢ Finset.Icc (-(smoothReach σ : ℤ)) (smoothReach σ)

/-- The bell-shaped weight of the node `d`, with standard deviation `σ`. -/
noncomputable def bell (σ : ℝ) (d : ℤ × ℤ) : ℝ := Real.exp (-(((d.1:ℝ) ^ 2 + (d.2:ℝ) ^ 2) / (2 * σ ^ 2)))

/-- The average of `p` over the window around a node with these weights. -/
noncomputable def bellAverage (σ : ℝ) (p : ℤ × ℤ → ℝ) : ℝ := (∑ d ∈ smoothWindow σ, bell σ d * p d) / ∑ d ∈ smoothWindow σ, bell σ d

/-- The entry of a table, 0 beyond its borders. -/
def Grid.beyond (g : Grid ℝ) (i j : ℤ) : ℝ := if 0 ≤ i ∧ i < g.rows ∧ 0 ≤ j ∧ j < g.cols then g.val i.toNat j.toNat else 0

end Oneka
