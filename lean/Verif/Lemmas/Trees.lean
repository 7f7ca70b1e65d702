import Verif.Spec.Trees
import Verif.Spec.RK
import Verif.Lemmas.RK
import Verif.Tac

namespace Oneka

/-- All forests with exactly `n` nodes (fuel `k ≥ n`). -/
def forests : ℕ → ℕ → List (List RTree)
  | _, 0 => [[]]
  | 0, _ => []
  | k+1, n+1 => (List.range (n+1)).flatMap fun i =>
      (forests k i).flatMap fun g => (forests k (n - i)).map fun rest => .node g :: rest

theorem mem_forests (k : ℕ) (ts : List RTree) (h : RTree.orderF ts ≤ k) : ts ∈ forests k (RTree.orderF ts) := by
  induction k generalizing ts with
  | zero =>
    cases ts with
    | nil => simp [RTree.orderF, forests]
    | cons t ts =>
      obtain ⟨cs⟩ := t
      simp only [RTree.orderF, RTree.order] at h
      omega
  | succ k ih =>
    cases ts with
    | nil => simp [RTree.orderF, forests]
    | cons t ts =>
      obtain ⟨cs⟩ := t
      simp only [RTree.orderF, RTree.order] at h ⊢
      have e : 1 + RTree.orderF cs + RTree.orderF ts = (RTree.orderF cs + RTree.orderF ts) + 1 := by omega
      rw [e]
      simp only [forests, List.mem_flatMap, List.mem_range, List.mem_map]
      refine ⟨RTree.orderF cs, by omega, cs, ih cs (by omega), ts, ?_, rfl⟩
      have : RTree.orderF cs + RTree.orderF ts - RTree.orderF cs = RTree.orderF ts := by omega
      rw [this]
      exact ih ts (by omega)

theorem order_conditions_of_check {A : List (List ℚ)} {b : List ℚ} {p : ℕ}
    (h : ∀ n ∈ List.range p, ∀ cs ∈ forests p n, OrderCondition A b (.node cs)) (τ : RTree) (hτ : τ.order ≤ p) :
    OrderCondition A b τ := by
  obtain ⟨cs⟩ := τ
  simp only [RTree.order] at hτ
  exact h (RTree.orderF cs) (List.mem_range.mpr (by omega)) cs (mem_forests p cs (by omega))

theorem dp5_order (τ : RTree) (h : τ.order ≤ 5) : OrderCondition dpA dp5 τ :=
  order_conditions_of_check (by decide +kernel) τ h

theorem dp4_order (τ : RTree) (h : τ.order ≤ 4) : OrderCondition dpA dp4 τ :=
  order_conditions_of_check (by decide +kernel) τ h

theorem dp4_not_order5 : ∃ τ : RTree, τ.order = 5 ∧ ¬ OrderCondition dpA dp4 τ :=
  ⟨.node [.node [], .node [], .node [], .node []], by decide +kernel, by decide +kernel⟩

theorem dp5_not_order6 : ∃ τ : RTree, τ.order = 6 ∧ ¬ OrderCondition dpA dp5 τ :=
  ⟨.node [.node [], .node [], .node [], .node [], .node []], by decide +kernel, by decide +kernel⟩

variable {V : Type} [AddCommGroup V] [Module ℝ V]

theorem dp5_linear (A : V →ₗ[ℝ] V) (h : ℝ) (y : V) :
    rkStep A dpA dp5 h y = y + h • A y + (h^2/2) • A (A y) + (h^3/6) • A (A (A y)) + (h^4/24) • A (A (A (A y)))
      + (h^5/120) • A (A (A (A (A y)))) + (h^6/600) • A (A (A (A (A (A y))))) := by
  obtain ⟨k1, k2, k3, k4, k5, k6, k7, H⟩ := exists_dpStages A h y
  rw [dp_step5 A h y H]
  obtain ⟨rfl, rfl, rfl, rfl, rfl, rfl, -⟩ := H
  simp only [map_add, map_smul]
  module

end Oneka
