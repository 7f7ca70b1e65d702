import Verif.Lemmas.Upstream
import Verif.Lemmas.Accuracy

/-! Helper lemmas for C82. -/

namespace Oneka
namespace Aquifer

/-- off the wells, where there is a saturated thickness, the velocity function answers -/
theorem flows (m : Aquifer ℝ) (hm : m.Physical) (c : Bool) {x y b : ℝ} (hs : m.Saturated c x y b) : ∃ w, m.backVelocity c (x, y) = .ok w := by
  cases c with
  | true => exact ⟨_, rfl⟩
  | false =>
    simp only [Saturated, Bool.false_eq_true, if_false] at hs
    obtain ⟨h, h0, hp, rfl⟩ := hs
    have hT := hm.thickness
    have hp' : 0 < m.potential x y := by
      rw [← hp]
      unfold potentialOfHead
      have hK := hm.conductivity
      split_ifs with hlt
      · positivity
      · have : 0 < h - m.thickness / 2 := by linarith
        positivity
    unfold backVelocity
    simp only [Bool.false_eq_true, if_false]
    rw [velocity_eq m hm, if_neg (not_le.mpr hp')]
    exact ⟨_, rfl⟩

theorem flows_total (m : Aquifer ℝ) (hm : m.Physical) (c : Bool) {q : ℝ × ℝ} (hoff : m.OffWells q.1 q.2) {b : ℝ} (hs : m.Saturated c q.1 q.2 b) (n : ℕ) :
    ∃ v, finPart (fun _ => m.toX.backVelocity c) n q = .ok v := by
  obtain ⟨w, hw⟩ := flows m hm c hs
  refine ⟨w, finPart_ok.mpr ?_⟩
  show m.toX.backVelocity c (.fin q.1, .fin q.2) = _
  rw [backVelocity_toX m hm c hoff, hw]
  rfl

end Aquifer
end Oneka
