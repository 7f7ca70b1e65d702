import Verif.Model.Aquifer
import Mathlib.Analysis.Real.Sqrt
import Mathlib.Algebra.BigOperators.Group.List.Basic

/-!
# Vocabulary for the properties of `filter_obs`
-/

namespace Oneka

/-- horizontal distance -/
noncomputable def Obs.dist (o : Obs) (x y : ℝ) : ℝ := Real.sqrt ((o.x - x) ^ 2 + (o.y - y) ^ 2)

/-- `groups` is the division of `obs` into runs of duplicates: consecutive, non-empty, every member closer than 1 to the first
one of its group, and the first one of the next group at least 1 away from the first one of this group. -/
inductive Grouping : List Obs → List (List Obs) → Prop
  | nil : Grouping [] []
  | cons (o : Obs) (os rest : List Obs) (gs : List (List Obs)) : (∀ p ∈ os, o.dist p.x p.y < 1) →
      (∀ p ∈ rest.head?, 1 ≤ o.dist p.x p.y) → Grouping rest gs → Grouping (o :: os ++ rest) ((o :: os) :: gs)

/-- `r` stands for the group `g`: at the place of its first member; unchanged if there is only one; otherwise precisions and precision-weighted heads
add up. -/
structure Represents (r : Obs) (g : List Obs) : Prop where
  place : ∃ o, g.head? = some o ∧ r.x = o.x ∧ r.y = o.y
  single : ∀ o, g = [o] → r = o
  several : 1 < g.length → 0 < r.std ∧ 1 / r.std ^ 2 = (g.map fun o => 1 / o.std ^ 2).sum ∧
    r.z / r.std ^ 2 = (g.map fun o => o.z / o.std ^ 2).sum

end Oneka
