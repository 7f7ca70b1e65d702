import Mathlib.Data.Rat.Defs
import Mathlib.Algebra.BigOperators.Group.List.Basic
import Mathlib.Algebra.Order.Field.Rat

/-!
# Rooted trees and order conditions

A Runge–Kutta method `(A, b)` has order `p` iff `Φ(τ) = 1/γ(τ)` for every rooted tree `τ` with at most `p` nodes
(Butcher; Hairer–Nørsett–Wanner, *Solving ODEs I*, Thm II.2.13). Trees are written with an ordered list of
children; every rooted tree is represented (several times), so quantifying over these is quantifying over all.
-/

namespace Oneka

/-- A rooted tree. -/
inductive RTree
  | node (children : List RTree)

mutual
  /-- number of nodes -/
  def RTree.order : RTree → ℕ
    | .node cs => 1 + RTree.orderF cs
  /-- number of nodes of a forest -/
  def RTree.orderF : List RTree → ℕ
    | [] => 0
    | t :: ts => t.order + RTree.orderF ts
end

mutual
  /-- `γ(τ)` -/
  def RTree.density : RTree → ℕ
    | .node cs => (1 + RTree.orderF cs) * RTree.densityF cs
  /-- product of the densities of a forest -/
  def RTree.densityF : List RTree → ℕ
    | [] => 1
    | t :: ts => t.density * RTree.densityF ts
end

/-- `Σ xᵢ yᵢ` -/
def dotQ (xs ys : List ℚ) : ℚ := (List.zipWith (fun x y => x * y) xs ys).sum

mutual
  /-- `gᵢ(τ) = Π_{children c} Σⱼ aᵢⱼ gⱼ(c)`, listed over the stages `i` -/
  def RTree.stageW (A : List (List ℚ)) : RTree → List ℚ
    | .node cs => RTree.stageWF A cs
  /-- the same for a forest of children -/
  def RTree.stageWF (A : List (List ℚ)) : List RTree → List ℚ
    | [] => A.map (fun _ => 1)
    | t :: ts => List.zipWith (fun x y => x * y) (A.map (fun row => dotQ row (t.stageW A))) (RTree.stageWF A ts)
end

/-- the order condition `Σ bᵢ gᵢ(τ) = 1/γ(τ)` -/
def OrderCondition (A : List (List ℚ)) (b : List ℚ) (τ : RTree) : Prop := dotQ b (τ.stageW A) = 1 / (τ.density : ℚ)

instance (A b τ) : Decidable (OrderCondition A b τ) := inferInstanceAs (Decidable (_ = _))

end Oneka
