import Verif.Props.Smooth
import Verif.Props.Examples

/-!
# Examples for C143
-/

namespace Oneka

/-- a table with a single certain node in its middle -/
noncomputable def oneCertain : Grid ℝ := ⟨3, 3, fun i j => if i = 1 ∧ j = 1 then 1 else 0⟩

/-- With `smooth=2`, as in most of the shipped data modules, the smoothing reaches eight nodes far; the node that is captured with certainty is not shown as such, and all nodes around are shown as possibly captured. -/
example : smoothReach 2 = 8 ∧ (gaussianFilter oneCertain 2).val 1 1 < 1 ∧ ∀ i j : ℕ, i < 3 → j < 3 → 0 < (gaussianFilter oneCertain 2).val i j := by
  have hr : smoothReach 2 = 8 := by
    unfold smoothReach
    rw [Nat.floor_eq_iff (by norm_num)]
    norm_num
  have h01 : ∀ i j : ℤ, 0 ≤ oneCertain.beyond i j ∧ oneCertain.beyond i j ≤ 1 := by
    intro i j
    unfold Grid.beyond oneCertain
    simp only
    split_ifs <;> norm_num
  obtain ⟨-, -, h⟩ := C143_filter oneCertain 2
  refine ⟨hr, ?_, fun i j hi hj => ?_⟩
  · rw [h 1 1 (by simp [oneCertain]) (by simp [oneCertain])]
    refine lt_of_le_of_ne (average_le fun d _ => (h01 _ _).2) fun e => ?_
    have := (average_one fun d _ => (h01 _ _).2).mp e (8, 0) (by unfold smoothWindow; rw [hr]; decide)
    simp [Grid.beyond, oneCertain] at this
  · rw [h i j hi hj]
    refine lt_of_le_of_ne (average_nonneg fun d _ => (h01 _ _).1) fun e => ?_
    have := (average_zero fun d _ => (h01 _ _).1).mp e.symm (1 - (i:ℤ), 1 - (j:ℤ)) (by
      unfold smoothWindow
      rw [hr, Finset.mem_product, Finset.mem_Icc, Finset.mem_Icc]
      simp only
      push_cast
      omega)
    simp [Grid.beyond, oneCertain] at this

/-- the example call with the smoothing of scipy -/
theorem smooth_returns (r : ℤ) (N : ℕ) (t : DateTime) : (oneka (exampleCall r) { exampleCallEnv N t with gaussian := gaussianFilter }).ending = .returns .none :=
  C70_returns (env := { exampleCallEnv N t with gaussian := gaussianFilter }) (exampleCall_acceptable r) (exampleCall_denotes r) (exampleInputs_regular r) (example_draws r N t) perfect_correct
    perfect_converges sevenObs 0 _ (example_retained r) rfl rfl (by simp [sevenObs, sixObs]) (fun o ho => (sevenObs_usable o ho).1) sevenObs_general
    (fun _ _ ev _ => ⟨ev, rfl⟩) (example_no_endless _ N _) rfl rfl

/-- It meets the hypotheses of `C143_map`. -/
example (N : ℕ) (t : DateTime) (fs : Files) := C143_map (exampleCall 100) (exampleInputs 100) { exampleCallEnv N t with gaussian := gaussianFilter } .none (exampleCall_denotes 100) (by simp [exampleInputs]) (smooth_returns 100 N t) fs rfl

/-- Two tables that meet the hypotheses of `C143_monotone`. -/
example : (gaussianFilter oneCertain 1).val 0 0 ≤ (gaussianFilter ⟨3, 3, fun _ _ => 1⟩ 1).val 0 0 :=
  (C143_monotone oneCertain ⟨3, 3, fun _ _ => 1⟩ 1 rfl rfl (fun i j _ _ => by unfold oneCertain; simp only; split_ifs <;> norm_num) 0 0 (by simp [oneCertain]) (by simp [oneCertain])).1

end Oneka
