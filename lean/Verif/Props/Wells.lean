import Verif.Lemmas.PropsWells

/-!
# C21, C33 at special positions: exactly on a well, at NaN positions

`m.toX` is the model `m` with the same (finite) parameters, evaluated with inf and NaN as numpy does.
-/

namespace Oneka

open Aquifer

/-! ## C33 -/

/-- C33 with inf and NaN: the head raises AquiferError exactly if `potential <= 0` holds in Python, and nothing else. -/
theorem C33_head_floats (m : Aquifer XR) (x y : XR) :
    (m.potential x y ≤ .fin 0 → m.head x y = .error .aquiferError) ∧
    (¬ m.potential x y ≤ .fin 0 → ∃ h, m.head x y = .ok h) := by
  have e : (PyMath.q 0 : XR) = .fin 0 := by simp
  unfold head
  simp only [e]
  refine ⟨fun h => by rw [if_pos h], fun h => ?_⟩
  rw [if_neg h]
  split <;> exact ⟨_, rfl⟩

/-- C33 with inf and NaN, for every position whatsoever (finite, infinite, NaN, on a well): so does the velocity. -/
theorem C33_velocity_floats (m : Aquifer ℝ) (hm : m.Physical) (x y : XR) :
    (m.toX.potential x y ≤ .fin 0 → m.toX.velocity x y = .error .aquiferError) ∧
    (¬ m.toX.potential x y ≤ .fin 0 → ∃ v, m.toX.velocity x y = .ok v) := by
  have hK := hm.conductivity
  have hT := hm.thickness
  refine ⟨fun h => ?_, fun h => ?_⟩
  · unfold velocity
    simp only [(C33_head_floats m.toX x y).1 h]
  · have key : ∀ hd, m.toX.head x y = .ok hd → ¬ hd ≤ XR.fin 0 := by
      intro hd hh
      unfold head at hh
      have e : (PyMath.q 0 : XR) = .fin 0 := by simp
      simp only [e] at hh
      rw [if_neg h] at hh
      cases hp : m.toX.potential x y with
      | fin p =>
        have hpos : 0 < p := by
          rw [hp] at h; exact not_le.mp h
        rw [hp] at hh
        simp only [toX, XR.q_fin, XR.fin_mul, XR.fin_lt, XR.fin_add] at hh
        split at hh
        · rw [XR.fin_div _ _ hK.ne', XR.sqrt_nonneg (by push_cast; positivity)] at hh
          rw [← Except.ok.inj hh, XR.fin_le, not_le]
          push_cast
          positivity
        · rw [XR.fin_div _ _ (mul_pos hK hT).ne'] at hh
          rw [← Except.ok.inj hh, XR.fin_le, not_le]
          push_cast
          positivity
      | pinf =>
        rw [hp] at hh
        have : ¬ (XR.pinf < PyMath.q (1/2) * m.toX.conductivity * (m.toX.thickness * m.toX.thickness)) := fun h => h
        rw [if_neg this] at hh
        rw [← Except.ok.inj hh]
        show ¬ (XR.div XR.pinf (.fin (m.conductivity * m.thickness))).le (.fin 0)
        simp [XR.div, (mul_pos hK hT).le.not_gt, XR.le]
      | ninf =>
        rw [hp] at h
        exact absurd trivial h
      | nan =>
        rw [hp] at hh
        simp at hh
        rw [← hh]
        simp
    obtain ⟨hd, hh⟩ := (C33_head_floats m.toX x y).2 h
    have e : (PyMath.q 0 : XR) = .fin 0 := by simp
    unfold velocity
    simp only [hh, e]
    rw [if_neg (key hd hh)]
    split <;> exact ⟨_, rfl⟩

/-- C33: off the wells, the floats agree with the real-number model of C29–C34. -/
theorem C33_agrees_with_reals (m : Aquifer ℝ) (hm : m.Physical) (x y : ℝ) (hoff : m.OffWells x y) :
    m.toX.potential (.fin x) (.fin y) = .fin (m.potential x y) ∧
    m.toX.discharge (.fin x) (.fin y) = (.fin (m.discharge x y).1, .fin (m.discharge x y).2) ∧
    m.toX.head (.fin x) (.fin y) = (m.head x y).map .fin ∧
    m.toX.velocity (.fin x) (.fin y) = (m.velocity x y).map (fun v => (.fin v.1, .fin v.2)) ∧
    m.toX.velocityConfined (.fin x) (.fin y) = (.fin (m.velocityConfined x y).1, .fin (m.velocityConfined x y).2) :=
  ⟨potential_toX m hoff, discharge_toX m hoff, head_toX m hm hoff, velocity_toX m hm hoff, velocityConfined_toX m hm hoff⟩

/-- C33: exactly on a well (numpy floats) the discharge and the confined velocity are NaN without any error; the velocity raises AquiferError
iff every well there pumps, and is NaN without any error otherwise. -/
theorem C33_on_a_well (m : Aquifer ℝ) (hm : m.Physical) (x y : ℝ) (hon : ∃ w ∈ m.wells, (w.xw, w.yw) = (x, y)) :
    m.toX.discharge (.fin x) (.fin y) = (.nan, .nan) ∧ m.toX.velocityConfined (.fin x) (.fin y) = (.nan, .nan) ∧
    ((∀ w ∈ m.wells, (w.xw, w.yw) = (x, y) → 0 < w.qw) → m.toX.velocity (.fin x) (.fin y) = .error .aquiferError) ∧
    ((∃ w ∈ m.wells, (w.xw, w.yw) = (x, y) ∧ w.qw ≤ 0) → m.toX.velocity (.fin x) (.fin y) = .ok (.nan, .nan)) := by
  have hoff : ¬ m.OffWells x y := by
    obtain ⟨w, hw, e⟩ := hon
    exact fun h => h w hw e.symm
  have hd := discharge_at_well m hoff
  refine ⟨hd, ?_, fun hq => ?_, fun hq => ?_⟩
  · unfold velocityConfined
    simp [hd]
  · apply (C33_velocity_floats m hm _ _).1
    rw [potential_at_pumping m hoff (fun w hw e => hq w hw e.symm)]
    trivial
  · have hp := potential_at_other m (x := x) (y := y) (by
      obtain ⟨w, hw, e, hq⟩ := hq
      exact ⟨w, hw, e.symm, hq⟩)
    have hn : ¬ m.toX.potential (.fin x) (.fin y) ≤ .fin 0 := by
      rcases hp with hp | hp <;> rw [hp]
      · exact fun h => h
      · simp
    obtain ⟨v, hv⟩ := (C33_velocity_floats m hm _ _).2 hn
    rw [hv]
    unfold velocity at hv
    simp only [hd, XR.nan_div] at hv
    split at hv
    · simp at hv
    · split_ifs at hv <;> exact congrArg _ (Except.ok.inj hv).symm

example : ∃ w ∈ demoAquifer.wells, (w.xw, w.yw) = (100, 0) := ⟨⟨100, 0, 0.1, -30⟩, by simp [demoAquifer], rfl⟩

/-! ## C21 -/

/-- C21 fails on wells: a trace started exactly on a well, with the velocity function used by the runs, never returns if the aquifer is treated as
confined, or if some well there injects or is idle; whatever the tolerances, for every non-zero duration. -/
theorem C21_fails_on_wells (m : Aquifer ℝ) (hm : m.Physical) (confined : Bool) (x y duration : ℝ) (tol maxstep : XR)
    (hd : duration ≠ 0) (hon : ∃ w ∈ m.wells, (w.xw, w.yw) = (x, y) ∧ (confined = true ∨ w.qw ≤ 0)) :
    computeBacktrace (.fin x) (.fin y) (.fin duration) tol maxstep (fun _ => m.toX.reverseVelocity confined) = none := by
  simp only [reverseVelocity_eq]
  have hat : ∃ w ∈ m.wells, (w.xw, w.yw) = (x, y) := by
    obtain ⟨w, hw, e, -⟩ := hon
    exact ⟨w, hw, e⟩
  have hv : m.toX.backVelocity confined (.fin x, .fin y) = .ok (.nan, .nan) := by
    obtain ⟨-, h2, -, h4⟩ := C33_on_a_well m hm x y hat
    unfold backVelocity
    cases hc : confined with
    | true => simp [h2]
    | false =>
      obtain ⟨w, hw, e, h⟩ := hon
      simp [h4 ⟨w, hw, e, h.resolve_left (by simp [hc])⟩]
  exact C21_fails_for_nan_velocity _ _ _ _ _ _ (.nan, .nan) hv (Or.inl rfl)
    (fun _ p hp => backVelocity_quiet m.toX confined hp) (by
      show (0:ℝ) < |duration|
      exact abs_pos.mpr hd)

/-- C21 fails for whole capture zones: a second well exactly `radius + 1` east of the target hangs the computation, for every number of paths, if
the aquifer is treated as confined, or if that well injects or is idle. -/
theorem C21_fails_for_second_well_east (m : Aquifer ℝ) (hm : m.Physical) (confined : Bool) (xt yt rt duration u w0 : ℝ)
    (tol maxstep : XR) (n : ℤ) (hn : 0 < n) (f : PField ℝ) (hd : duration ≠ 0)
    (hon : ∃ w ∈ m.wells, (w.xw, w.yw) = (xt + (rt + 1), yt) ∧ (confined = true ∨ w.qw ≤ 0)) :
    computeCapturezone xt yt rt n (.fin duration) f u w0 tol maxstep (fun _ _ => m.toX.reverseVelocity confined) = none := by
  unfold computeCapturezone startAngles
  rw [if_neg (by omega)]
  obtain ⟨k, rfl⟩ : ∃ k : ℕ, n = (k + 1 : ℕ) := ⟨(n - 1).toNat, by omega⟩
  simp only [Int.toNat_natCast, List.range_succ_eq_map, List.map_cons, captureLoop]
  have := C21_fails_on_wells m hm confined (xt + (rt + 1)) yt duration tol maxstep hd hon
  have e1 : (rt + 1) * Real.cos (((0:ℕ):ℝ) * (2 * Real.pi / ((k + 1 : ℕ) : ℤ))) + xt = xt + (rt + 1) := by
    simp; ring
  have e2 : (rt + 1) * Real.sin (((0:ℕ):ℝ) * (2 * Real.pi / ((k + 1 : ℕ) : ℤ))) + yt = yt := by
    simp
  rw [e1, e2, this]

/-- target well of radius 0.25 at the origin and an injection well 1.25 m to the east -/
example : ∃ w ∈ ({ demoAquifer with wells := [⟨0, 0, 0.25, 500⟩, ⟨1.25, 0, 0.1, -200⟩] } : Aquifer ℝ).wells,
    (w.xw, w.yw) = (0 + (0.25 + 1), 0) ∧ (false = true ∨ w.qw ≤ 0) := by
  refine ⟨⟨1.25, 0, 0.1, -200⟩, by simp, ?_, Or.inr (by norm_num)⟩
  norm_num

/-! ## C64 -/

/-- C64: a trace along the model's own velocity which stops (raises) as soon as the velocity is evaluated closer than `δ` to a well or at a
head below `δ`, however small `δ > 0`, always returns; and if it did not have to stop, it is the trace without the stopping rule. `fe` may also stop for other
reasons. So the tracer can hang only by evaluating the velocity arbitrarily close to a well or to a dry place. -/
theorem C64_returns_unless_singular (m : Aquifer ℝ) (hm : m.Physical) (confined : Bool) (δ : ℝ) (hδ : 0 < δ)
    (x y duration tol maxstep : ℝ) (htol : (10/9)^5 * (2:ℝ)^(-52 : ℤ) < tol) (hmax : (10/9) * (2:ℝ)^(-52 : ℤ) < maxstep)
    (fe : ℕ → XR × XR → Except PyErr (XR × XR))
    (hsame : ∀ n p, fe n p = m.toX.reverseVelocity confined p ∨ ∃ e, fe n p = .error e)
    (hstop : ∀ n x y, ¬ m.Clear confined δ x y → ∃ e, fe n (.fin x, .fin y) = .error e) :
    ∃ r, computeBacktrace (.fin x) (.fin y) (.fin duration) (.fin tol) (.fin maxstep) fe = some r ∧
      (r.warning = none → computeBacktrace (.fin x) (.fin y) (.fin duration) (.fin tol) (.fin maxstep)
        (fun _ => m.toX.reverseVelocity confined) = some r) := by
  simp only [reverseVelocity_eq] at hsame ⊢
  obtain ⟨M, L, hM, hL, hb⟩ := backVelocity_growth m hm confined δ hδ
  obtain ⟨r, hr⟩ := C21_terminates_partial x y duration tol maxstep M L fe hM hL (by
    intro n x y
    by_cases hc : m.Clear confined δ x y
    · rcases hsame n (.fin x, .fin y) with h | h
      · have hoff : m.OffWells x y := by
          intro w hw e
          obtain ⟨rfl, rfl⟩ := Prod.mk.inj e
          have := hc.1 w hw
          simp at this
          linarith
        rw [backVelocity_toX m hm confined hoff] at h
        cases hv : m.backVelocity confined (x, y) with
        | error e => left; exact ⟨e, by rw [h, hv]; rfl⟩
        | ok v =>
          right
          exact ⟨v.1, v.2, by rw [h, hv]; rfl, hb x y hc v hv⟩
      · exact Or.inl h
    · exact Or.inl (hstop n x y hc)) htol hmax
  exact ⟨r, hr, fun hw => undisturbed (fe := fun _ => m.toX.backVelocity confined) hsame hr hw⟩

open Classical in
/-- such an `fe`: stop within 1 cm -/
example (m : Aquifer ℝ) : ∃ fe : ℕ → XR × XR → Except PyErr (XR × XR),
    (∀ n p, fe n p = m.toX.reverseVelocity true p ∨ ∃ e, fe n p = .error e) ∧
    (∀ n x y, ¬ m.Clear true 0.01 x y → ∃ e, fe n (.fin x, .fin y) = .error e) := by
  refine ⟨fun _ p => if ∀ x y : ℝ, p = (.fin x, .fin y) → m.Clear true 0.01 x y then m.toX.reverseVelocity true p else
    .error .aquiferError, fun n p => ?_, fun n x y h => ⟨.aquiferError, ?_⟩⟩
  · dsimp only
    split
    · exact Or.inl rfl
    · exact Or.inr ⟨_, rfl⟩
  · dsimp only
    rw [if_neg]
    push Not
    exact ⟨x, y, rfl, h⟩

end Oneka
