import Verif.Lemmas.Bridge
import Verif.Lemmas.AquiferX
import Verif.Spec.Upstream
import Verif.Props.Aquifer

/-! The velocity function of the runs leads upstream. -/

namespace Oneka
namespace Aquifer

theorem backVelocity_off (m : Aquifer ℝ) (hm : m.Physical) (c : Bool) {x y : ℝ} {v : XR × XR} (h : m.toX.backVelocity c (.fin x, .fin y) = .ok v) :
    (m.OffWells x y ∧ ∃ w, m.backVelocity c (x, y) = .ok w ∧ v = emb w) ∨ HasNaN v := by
  by_cases hoff : m.OffWells x y
  · left
    rw [backVelocity_toX m hm c hoff] at h
    cases hw : m.backVelocity c (x, y) with
    | error e => rw [hw] at h; simp [Except.map] at h
    | ok w =>
      rw [hw] at h
      exact ⟨hoff, w, rfl, (Except.ok.inj h).symm⟩
  · right
    have hd := discharge_at_well m hoff
    unfold backVelocity at h
    cases c with
    | true =>
      simp only [if_true, velocityConfined, hd, XR.nan_div, XR.neg_nan] at h
      rw [← Except.ok.inj h]
      exact .inl rfl
    | false =>
      simp only [Bool.false_eq_true, if_false, velocity, hd, XR.nan_div] at h
      split at h
      · simp at h
      · rename_i V hV
        split at hV
        · simp at hV
        · split_ifs at hV <;>
          · rw [← Except.ok.inj h, ← Except.ok.inj hV]
            exact .inl rfl

theorem discharge_nan (m : Aquifer XR) {x y : XR} (h : x = .nan ∨ y = .nan) : (m.discharge x y).1 = .nan := by
  unfold discharge
  have key : ∀ (ws : List (Well XR)) (Q : XR × XR), Q.1 = .nan → (ws.foldl (fun Q well =>
    let dx := x - well.xw
    let dy := y - well.yw
    let r2 := dx * dx + dy * dy
    (Q.1 + (-well.qw) * dx / r2 * PyMath.q twoPiInv, Q.2 + (-well.qw) * dy / r2 * PyMath.q twoPiInv)) Q).1 = .nan := by
    intro ws
    induction ws with
    | nil => intro Q h; exact h
    | cons w ws ih =>
      intro Q h
      rw [List.foldl_cons]
      exact ih _ (by simp only [h, XR.nan_add])
  refine key _ _ ?_
  rcases h with rfl | rfl <;> simp

theorem backVelocity_nan (m : Aquifer XR) (c : Bool) {p v : XR × XR} (hp : HasNaN p) (h : m.backVelocity c p = .ok v) : HasNaN v := by
  have hd := discharge_nan m hp
  unfold backVelocity at h
  cases c with
  | true =>
    simp only [if_true, velocityConfined, hd, XR.nan_div, XR.neg_nan] at h
    rw [← Except.ok.inj h]
    exact .inl rfl
  | false =>
    simp only [Bool.false_eq_true, if_false, velocity, hd, XR.nan_div] at h
    split at h
    · simp at h
    · rename_i V hV
      split at hV
      · simp at hV
      · split_ifs at hV <;>
        · rw [← Except.ok.inj h, ← Except.ok.inj hV]
          exact .inl rfl

/-- any program that answers the velocity of the model, or raises -/
theorem tame_of (m : Aquifer ℝ) (hm : m.Physical) (c : Bool) {fe : XEval} (hfe : ∀ n p v, fe n p = .ok v → m.toX.backVelocity c p = .ok v) : Tame fe where
  fin n p v h := (backVelocity_off m hm c (hfe _ _ _ h)).imp_left fun ⟨_, w, _, e⟩ => ⟨w, e⟩
  nan n p v hp h := backVelocity_nan _ _ hp (hfe _ _ _ h)

/-- the saturated thickness determines the velocity -/
theorem upstream_eq (m : Aquifer ℝ) (hm : m.Physical) (c : Bool) {f : ℝ × ℝ → ℝ × ℝ} (hf : m.Upstream c f) {p w : ℝ × ℝ} (hoff : m.OffWells p.1 p.2)
    (h : m.backVelocity c p = .ok w) : w = f p := by
  have hn := hm.porosity
  have hT := hm.thickness
  obtain ⟨d1, d2⟩ := C29_partials m p.1 p.2 hoff
  have main : ∀ b, 0 < b → m.Saturated c p.1 p.2 b → w = (-((m.discharge p.1 p.2).1 / (m.porosity * b)), -((m.discharge p.1 p.2).2 / (m.porosity * b))) → w = f p := by
    intro b hb hs hw
    obtain ⟨e1, e2⟩ := hf p.1 p.2 b hoff hs
    have q1 := d1.unique e1
    have q2 := d2.unique e2
    rw [hw]
    have hnb : m.porosity * b ≠ 0 := (mul_pos hn hb).ne'
    refine Prod.ext ?_ ?_
    · show -((m.discharge p.1 p.2).1 / (m.porosity * b)) = _
      rw [← neg_div, q1, mul_div_cancel_left₀ _ hnb]
    · show -((m.discharge p.1 p.2).2 / (m.porosity * b)) = _
      rw [← neg_div, q2, mul_div_cancel_left₀ _ hnb]
  cases c with
  | true =>
    refine main m.thickness hT (by simp [Saturated]) ?_
    have h' := (Except.ok.inj h).symm
    rw [h']
    simp only [velocityConfined, mul_comm m.porosity]
  | false =>
    unfold backVelocity at h
    simp only [Bool.false_eq_true, if_false] at h
    rw [velocity_eq m hm] at h
    by_cases hp : m.potential p.1 p.2 ≤ 0
    · rw [if_pos hp] at h; simp at h
    · rw [if_neg hp] at h
      have hp' := not_le.mp hp
      have hh := headOf_pos hm.conductivity hT hp'
      refine main _ (lt_min hh hT) ?_ (Except.ok.inj h).symm
      simp only [Saturated, Bool.false_eq_true, if_false]
      exact ⟨_, hh, potential_headOf hm.conductivity hT hp', rfl⟩

theorem computes_of (m : Aquifer ℝ) (hm : m.Physical) (c : Bool) {f : ℝ × ℝ → ℝ × ℝ} (hf : m.Upstream c f) {fe : XEval}
    (hfe : ∀ n p v, fe n p = .ok v → m.toX.backVelocity c p = .ok v) : Computes (finPart fe) f := by
  intro n p v h
  rw [finPart_ok] at h
  rcases backVelocity_off m hm c (hfe _ _ _ h) with ⟨hoff, w, hw, e⟩ | hn
  · have : v = w := by
      have h1 := XR.fin.inj (congrArg Prod.fst e)
      have h2 := XR.fin.inj (congrArg Prod.snd e)
      exact Prod.ext h1 h2
    rw [this]
    exact upstream_eq m hm c hf hoff hw
  · exact absurd hn (emb_not_nan v)

/-- there is such a function -/
theorem exists_upstream (m : Aquifer ℝ) (hm : m.Physical) (c : Bool) : ∃ f, m.Upstream c f := by
  classical
  refine ⟨fun p => match m.backVelocity c p with | .ok w => w | .error _ => 0, fun x y b hoff hs => ?_⟩
  have hn := hm.porosity
  have hT := hm.thickness
  obtain ⟨d1, d2⟩ := C29_partials m x y hoff
  have main : 0 < b → m.backVelocity c (x, y) = .ok (-((m.discharge x y).1 / (m.porosity * b)), -((m.discharge x y).2 / (m.porosity * b))) →
      HasDerivAt (fun s => m.potential s y) (m.porosity * b * (match m.backVelocity c (x, y) with | .ok w => w | .error _ => 0 : ℝ × ℝ).1) x ∧
      HasDerivAt (fun s => m.potential x s) (m.porosity * b * (match m.backVelocity c (x, y) with | .ok w => w | .error _ => 0 : ℝ × ℝ).2) y := by
    intro hb hw
    rw [hw]
    have hnb : m.porosity * b ≠ 0 := (mul_pos hn hb).ne'
    constructor
    · refine d1.congr_deriv ?_
      simp only [← neg_div]
      rw [mul_div_cancel₀ _ hnb]
    · refine d2.congr_deriv ?_
      simp only [← neg_div]
      rw [mul_div_cancel₀ _ hnb]
  cases c with
  | true =>
    simp only [Saturated, if_true] at hs
    subst hs
    refine main hT ?_
    simp only [backVelocity, if_true, velocityConfined, mul_comm m.porosity]
  | false =>
    simp only [Saturated, Bool.false_eq_true, if_false] at hs
    obtain ⟨h, h0, hp, rfl⟩ := hs
    refine main (lt_min h0 hT) ?_
    have hp' : 0 < m.potential x y := by
      rw [← hp]
      unfold potentialOfHead
      have hK := hm.conductivity
      split_ifs with hlt
      · positivity
      · have : 0 < h - m.thickness / 2 := by linarith
        positivity
    have e := head_unique hm.conductivity hT h0 (headOf_pos hm.conductivity hT hp') (by rw [hp, potential_headOf hm.conductivity hT hp'])
    unfold backVelocity
    simp only [Bool.false_eq_true, if_false]
    rw [velocity_eq m hm, if_neg (not_le.mpr hp'), ← e]

end Aquifer
end Oneka
