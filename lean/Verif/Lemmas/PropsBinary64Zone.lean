import Verif.Lemmas.Binary64Path
import Verif.Props.RoundingAquifer
import Verif.Spec.Binary64

/-! A helper lemma for C119. -/

namespace Oneka
open Aquifer

variable [LibM]

/-- a trace that follows an exact pathline stays in the tube around it -/
theorem stays_in_tube (hlog : LogAccurate) (hroot : RootAccurate) {m : Aquifer Fl} {confined : Bool} {start : Fl × Fl} {D tol maxstep : Fl} {Qx Qy δ : ℝ} {P : ℝ → ℝ × ℝ} {f : ℝ × ℝ → ℝ × ℝ}
    {L M H ρ R ν η μ mm T E : ℝ} {N : ℕ} (h : RoundedFollowed m confined start D tol maxstep Qx Qy δ P f L M H ρ R ν η μ mm T E N)
    (hplace : ∀ q ∈ Tube P T ρ, (2 ^ (-40 : ℤ) ≤ |q.1| ∧ |q.1| ≤ 2 ^ (40 : ℤ)) ∧ (2 ^ (-40 : ℤ) ≤ |q.2| ∧ |q.2| ≤ 2 ^ (40 : ℤ))) (hM : M + ν ≤ 2 ^ 40) :
    StaysIn m confined start D tol maxstep (fun q => fv q ∈ Tube P T ρ) (M + ν) := by
  have vel : ∀ q : Fl × Fl, fv q ∈ Tube P T ρ → ∃ v, m.reverseVelocity confined q = .ok v ∧ ‖fv v - f (fv q)‖ ≤ ν := by
    intro q hq
    obtain ⟨hoff, hκ, b, hb, hle⟩ := h.flow _ hq
    obtain ⟨v, hv, h⟩ := C93_velocity hlog m h.physical confined f h.upstream q b hoff hb hκ
    exact ⟨v, hv, h.trans hle⟩
  refine ⟨fun q hq => ?_, by linarith [h.M_nonneg, h.ν_nonneg], hM, h.tol_way, h.maxstep_way, h.near, ?_⟩
  · obtain ⟨v, hv, hn⟩ := vel q hq
    obtain ⟨b1, b2⟩ := hplace _ hq
    refine ⟨Or.inr b1, Or.inr b2, (h.flow _ hq).1, fun v' hv' => ?_⟩
    obtain rfl := Except.ok.inj (hv'.symm.trans hv)
    have := norm_add_le (fv v' - f (fv q)) (f (fv q))
    rw [sub_add_cancel] at this
    linarith [h.moderate.bound _ hq]
  · obtain ⟨r, hr, hw, -⟩ := C91_follows hroot (fun _ => within (fun q => fv q ∈ Tube P T ρ) (m.reverseVelocity confined)) f P start.1 start.2 D tol maxstep L M H ρ R ν η μ mm T N h.η_eq h.μ_eq h.mm_eq h.T_eq
      h.exact h.bounded h.moderate
      (fun n q v hq hv => by
        obtain ⟨v', hv', h⟩ := vel q hq
        rw [(within_ok hv).2] at hv'
        exact Except.ok.inj hv' ▸ h)
      (fun n q hq => by
        obtain ⟨v, hv, -⟩ := vel q hq
        exact ⟨v, by simp only [within, if_pos hq]; exact hv⟩)
      h.D_pos h.D_le h.tol_ge h.maxstep_ge h.tol_way h.maxstep_way h.near h.L_pos h.M_nonneg h.H_ge h.ν_nonneg h.ρ_nonneg h.H_le (by rw [← h.E_eq]; exact h.wide) h.fast h.fine h.steps
    exact ⟨r, hr, hw⟩

end Oneka
