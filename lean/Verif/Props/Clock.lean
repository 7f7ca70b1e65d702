import Verif.Lemmas.Clock
import Verif.Props.Arrival

/-!
# C154: treating the aquifer as confined never enlarges the capture zone

Vocabulary: Spec/Arrival.lean. Examples: Props/ClockExamples.lean.
-/

namespace Oneka

open Aquifer

/-- **C154.** Water that flows to a place with a positive head takes the same way whether the aquifer is confined or not. In the confined aquifer it needs the time `τ`; where the thickness is limited by the head it is not slower. -/
theorem C154_faster {m : Aquifer ℝ} (hm : m.Physical) {γ : ℝ → ℝ × ℝ} {τ : ℝ} (h0 : 0 ≤ τ) (hpos : 0 < m.potential (γ τ).1 (γ τ).2) (h : m.Carries true γ τ) :
    ∃ (θ : ℝ → ℝ) (τ' : ℝ), 0 ≤ τ' ∧ τ' ≤ τ ∧ θ 0 = 0 ∧ θ τ' = τ ∧ StrictMono θ ∧ m.Carries false (fun s => γ (θ s)) τ' := by
  have hH := hm.thickness
  have hb0 : 0 < thickAt m false (γ τ) := saturated_pos hm (thickAt_saturated hm false hpos)
  have e : ∀ t, thickAt m true (γ t) = m.thickness := fun _ => rfl
  obtain ⟨θ, τ', a1, -, a3, a4, a5, a6, a7⟩ := change_clock hm (c' := false) (lo := thickAt m false (γ τ) / m.thickness) (hi := 1) h0 h hpos (by positivity)
    (fun t ht => ⟨by rw [e, div_mul_cancel₀ _ hH.ne']; exact thickAt_upstream hm false h ht.1 ht.2, by rw [e, one_mul]; exact thickAt_le m false _⟩)
  exact ⟨θ, τ', a1, by linarith, a4, a5, a6, a7⟩

/-- **C154.** Conversely, water of the unconfined aquifer takes the same way in the confined one. It needs at least as long, and at most `1/β` times as long if the head at the goal is at least `β` times the thickness. -/
theorem C154_slower {m : Aquifer ℝ} (hm : m.Physical) {γ : ℝ → ℝ × ℝ} {τ β : ℝ} (h0 : 0 ≤ τ) (hβ : 0 < β) (hβ1 : β ≤ 1) (hpot : m.conductivity * (β * m.thickness) ^ 2 / 2 ≤ m.potential (γ τ).1 (γ τ).2) (h : m.Carries false γ τ) :
    ∃ (θ : ℝ → ℝ) (τ' : ℝ), τ ≤ τ' ∧ τ' ≤ τ / β ∧ θ 0 = 0 ∧ θ τ' = τ ∧ StrictMono θ ∧ m.Carries true (fun s => γ (θ s)) τ' := by
  have hH := hm.thickness
  have hK := hm.conductivity
  have hpos : 0 < m.potential (γ τ).1 (γ τ).2 := lt_of_lt_of_le (by positivity) hpot
  have hend : β * m.thickness ≤ thickAt m false (γ τ) := by
    simp only [thickAt, Bool.false_eq_true, if_false]
    refine le_min (Real.le_sqrt_of_sq_le ?_) (by nlinarith)
    rw [le_div_iff₀ hK]
    linarith
  have e : ∀ t, thickAt m true (γ t) = m.thickness := fun _ => rfl
  obtain ⟨θ, τ', -, a2, a3, a4, a5, a6, a7⟩ := change_clock hm (c' := true) (lo := 1) (hi := 1 / β) h0 h hpos one_pos
    (fun t ht => ⟨by rw [one_mul]; exact thickAt_le m false _, by
      rw [e, one_div, ← div_eq_inv_mul, le_div_iff₀ hβ, mul_comm]
      exact hend.trans (thickAt_upstream hm false h ht.1 ht.2)⟩)
  exact ⟨θ, τ', by linarith, by rw [div_eq_inv_mul]; simpa using a3, a4, a5, a6, a7⟩

/-- **C154.** What the confined aquifer delivers to a place with a positive head within the time `D`, the unconfined one delivers within `D` too. -/
theorem C154_delivers {m : Aquifer ℝ} (hm : m.Physical) {p : ℝ × ℝ} (hpos : 0 < m.potential p.1 p.2) {D d X Y : ℝ} (h : m.Delivers true D d X Y p) : m.Delivers false D d X Y p := by
  obtain ⟨γ, τ, h0, h1, hγ, hd, rfl⟩ := h
  obtain ⟨θ, τ', a1, a2, a3, a4, -, a6⟩ := C154_faster hm h0 hpos hγ
  exact ⟨_, τ', a1, a2.trans h1, a6, by simpa only [a3] using hd, by simp only [a4]⟩

/-- **C154.** What the unconfined aquifer delivers to a place where the head is at least `β` times the thickness within the time `D`, the confined one delivers within `D / β`. -/
theorem C154_later {m : Aquifer ℝ} (hm : m.Physical) {p : ℝ × ℝ} {β : ℝ} (hβ : 0 < β) (hβ1 : β ≤ 1) (hpot : m.conductivity * (β * m.thickness) ^ 2 / 2 ≤ m.potential p.1 p.2) {D d X Y : ℝ}
    (h : m.Delivers false D d X Y p) : m.Delivers true (D / β) d X Y p := by
  obtain ⟨γ, τ, h0, h1, hγ, hd, rfl⟩ := h
  obtain ⟨θ, τ', a1, a2, a3, a4, -, a6⟩ := C154_slower hm h0 hβ hβ1 hpot hγ
  exact ⟨_, τ', h0.trans a1, a2.trans (by gcongr), a6, by simpa only [a3] using hd, by simp only [a4]⟩

/-- **C154.** Two realizations of the same model, the first one treated as confined and the second one not, of which the second one runs at least as long: what the first captures, the second one captures with an umbra
that is larger by the accuracy of both traces. -/
theorem C154_captures {a a' : RunArgs} {la la' : LinAlg} {t : SWell} {q q' : Dist → ℕ → Except PyErr ℝ} {coefs coefs' : (Fin 6 → ℝ) → Matrix (Fin 6) (Fin 6) ℝ → Except PyErr (Fin 6 → ℝ)}
    {interrupt interrupt' : ℕ → ℕ → Option PyErr} {T T' : RealizationLog} (R : Realized a la t q coefs interrupt T) (R' : Realized a' la' t q' coefs' interrupt' T')
    (hmod : T'.model = T.model) (hc : a.confined = true) (hc' : a'.confined = false) (hn : a'.npaths = a.npaths)
    {D D' tol tol' maxstep maxstep' δ δ' : ℝ} (hd : a.duration = .fin D) (ht : a.tol = .fin tol) (hm : a.maxstep = .fin maxstep)
    (hd' : a'.duration = .fin D') (ht' : a'.tol = .fin tol') (hm' : a'.maxstep = .fin maxstep') (hD : 0 < D) (hDD : D ≤ D') (htol : (10/9)^5 * (2:ℝ)^(-52 : ℤ) < tol) (htol' : (10/9)^5 * (2:ℝ)^(-52 : ℤ) < tol')
    (hmax : (10/9) * (2:ℝ)^(-52 : ℤ) < maxstep) (hmax' : (10/9) * (2:ℝ)^(-52 : ℤ) < maxstep') (hi : ∀ k n, interrupt k n = none) (hi' : ∀ k n, interrupt' k n = none)
    (hP : ∀ k : ℕ, k < a.npaths → ∃ P, Follows T.model true (t.start a.npaths k) D maxstep δ P) (hP' : ∀ k : ℕ, k < a.npaths → ∃ P, Follows T.model false (t.start a.npaths k) D' maxstep' δ' P)
    {u X Y : ℝ} (hu : 0 ≤ u) (h : T.Captures u X Y) : T'.Captures (u + δ + δ') X Y := by
  obtain ⟨k, hk, hdel⟩ := (C131_captures R hd ht hm hD htol hmax hi (by rw [hc]; exact hP) u X Y).2 hu h
  rw [hc] at hdel
  obtain ⟨P, hF⟩ := hP' k hk
  have hms' : 0 < maxstep' := lt_trans (by positivity) hmax'
  refine (C131_captures R' hd' ht' hm' (hD.trans_le hDD) htol' hmax' hi' (by rw [hc', hn, hmod]; exact hP') (u + δ + δ') X Y).1 ⟨k, by rw [hn]; exact hk, ?_⟩
  rw [hc', hn, hmod, add_sub_cancel_right]
  obtain ⟨phys, pos⟩ := follows_wet hF (hD.trans_le hDD) hms'
  obtain ⟨γ, τ, b1, b2, b3⟩ := C154_delivers phys pos hdel
  exact ⟨γ, τ, b1, b2.trans hDD, b3⟩

/-- **C154.** The other way round: what the unconfined realization captures within `D'`, the confined one captures within any `D ≥ D' / β`, if the head at the starting points is at least `β` times the thickness. -/
theorem C154_enough {a a' : RunArgs} {la la' : LinAlg} {t : SWell} {q q' : Dist → ℕ → Except PyErr ℝ} {coefs coefs' : (Fin 6 → ℝ) → Matrix (Fin 6) (Fin 6) ℝ → Except PyErr (Fin 6 → ℝ)}
    {interrupt interrupt' : ℕ → ℕ → Option PyErr} {T T' : RealizationLog} (R : Realized a la t q coefs interrupt T) (R' : Realized a' la' t q' coefs' interrupt' T')
    (hmod : T'.model = T.model) (hc : a.confined = true) (hc' : a'.confined = false) (hn : a'.npaths = a.npaths)
    {D D' tol tol' maxstep maxstep' δ δ' β : ℝ} (hd : a.duration = .fin D) (ht : a.tol = .fin tol) (hm : a.maxstep = .fin maxstep)
    (hd' : a'.duration = .fin D') (ht' : a'.tol = .fin tol') (hm' : a'.maxstep = .fin maxstep') (hD' : 0 < D') (hβ : 0 < β) (hβ1 : β ≤ 1) (hDD : D' / β ≤ D)
    (htol : (10/9)^5 * (2:ℝ)^(-52 : ℤ) < tol) (htol' : (10/9)^5 * (2:ℝ)^(-52 : ℤ) < tol') (hmax : (10/9) * (2:ℝ)^(-52 : ℤ) < maxstep) (hmax' : (10/9) * (2:ℝ)^(-52 : ℤ) < maxstep')
    (hi : ∀ k n, interrupt k n = none) (hi' : ∀ k n, interrupt' k n = none)
    (hP : ∀ k : ℕ, k < a.npaths → ∃ P, Follows T.model true (t.start a.npaths k) D maxstep δ P) (hP' : ∀ k : ℕ, k < a.npaths → ∃ P, Follows T.model false (t.start a.npaths k) D' maxstep' δ' P)
    (hpot : ∀ k : ℕ, k < a.npaths → T.model.conductivity * (β * T.model.thickness) ^ 2 / 2 ≤ T.model.potential (t.start a.npaths k).1 (t.start a.npaths k).2)
    {u X Y : ℝ} (hu : 0 ≤ u) (h : T'.Captures u X Y) : T.Captures (u + δ' + δ) X Y := by
  obtain ⟨k, hk, hdel⟩ := (C131_captures R' hd' ht' hm' hD' htol' hmax' hi' (by rw [hc', hn, hmod]; exact hP') u X Y).2 hu h
  rw [hn] at hk
  rw [hc', hmod, hn] at hdel
  obtain ⟨P, hF⟩ := hP' k hk
  have hD : 0 < D := lt_of_lt_of_le (by positivity) hDD
  refine (C131_captures R hd ht hm hD htol hmax hi (by rw [hc]; exact hP) (u + δ' + δ) X Y).1 ⟨k, hk, ?_⟩
  rw [hc, add_sub_cancel_right]
  obtain ⟨γ, τ, b1, b2, b3⟩ := C154_later (follows_wet hF hD' (lt_trans (by positivity) hmax')).1 hβ hβ1 (hpot k hk) hdel
  exact ⟨γ, τ, b1, b2.trans hDD, b3⟩

open Classical in
/-- **C154.** What is archived by a run that treats the aquifer as confined: the weight of a node counts only realizations in which, without this simplification, water from within the umbra (and the accuracy) of the node arrives within the duration,
provided the head at the starting points is positive. By a run that does not: only realizations in which it arrives in the confined aquifer within `1/β` times the duration, provided the head at the starting points is at least `β` times the thickness. -/
theorem C154_archived (a : PyArgs) (n : Inputs) (env : CallEnv) (v : PyVal) (hden : a.Denotes n) (h : (oneka a env).ending = .returns v) (fs : Files)
    {D tol maxstep δ β : ℝ} (hd : n.run.duration = .fin D) (ht : n.run.tol = .fin tol) (hm : n.run.maxstep = .fin maxstep) (hD : 0 < D) (htol : (10/9)^5 * (2:ℝ)^(-52 : ℤ) < tol)
    (hmax : (10/9) * (2:ℝ)^(-52 : ℤ) < maxstep) (hi : ∀ i k j, env.run.interrupt i k j = none) (hβ : 0 < β) (hβ1 : β ≤ 1) :
    ∃ (d : Dict) (f : PField ℝ) (k : ℕ) (t : SWell),
      loadOneka ((oneka a env).events.foldl Effect.apply fs) env.now.archiveName = .ok d ∧ d.get "pfield" = some (.field (.field f)) ∧ n.run.target = k ∧ n.run.wells[k]? = some t ∧
      ((∀ L ∈ realizations (oneka a env).events, L.model.Physical ∧ ∀ j : ℕ, j < n.run.npaths → (∃ P, Follows L.model n.run.confined (t.start n.run.npaths j) D maxstep δ P) ∧
          L.model.conductivity * (β * L.model.thickness) ^ 2 / 2 ≤ L.model.potential (t.start n.run.npaths j).1 (t.start n.run.npaths j).2) →
        ∀ p q : ℤ, (|p| ≤ 1 ∧ |q| ≤ 1) ∨ n.run.umbra ≤ n.run.spacing → ∀ X Y : ℝ, X = t.xw + p * n.run.spacing → Y = t.yw + q * n.run.spacing →
          (n.run.confined = true → f.weightAt X Y ≤ ((realizations (oneka a env).events).countP fun L => ∃ j : ℕ, j < n.run.npaths ∧ L.model.Delivers false D (n.run.umbra + δ) X Y (t.start n.run.npaths j))) ∧
          (n.run.confined = false → f.weightAt X Y ≤ ((realizations (oneka a env).events).countP fun L => ∃ j : ℕ, j < n.run.npaths ∧ L.model.Delivers true (D / β) (n.run.umbra + δ) X Y (t.start n.run.npaths j)))) := by
  obtain ⟨d, f, k, t, h1, h2, h3, h4, h5⟩ := C131_archived a n env v hden h fs (δ := δ) hd ht hm hD htol hmax hi
  refine ⟨d, f, k, t, h1, h2, h3, h4, fun hP p q hpq X Y hX hY => ?_⟩
  obtain ⟨-, up⟩ := h5 (fun L hL j hj => ((hP L hL).2 j hj).1) p q hpq X Y hX hY
  refine ⟨fun hc => up.trans (Nat.cast_le.mpr (List.countP_mono_left fun L hL => ?_)), fun hc => up.trans (Nat.cast_le.mpr (List.countP_mono_left fun L hL => ?_))⟩
  all_goals
    simp only [decide_eq_true_eq]
    rintro ⟨j, hj, hdel⟩
    rw [hc] at hdel
    obtain ⟨phys, hs⟩ := hP L hL
    have hpot := (hs j hj).2
    have hK := phys.conductivity
    have hH := phys.thickness
    have hpos : 0 < L.model.potential (t.start n.run.npaths j).1 (t.start n.run.npaths j).2 := lt_of_lt_of_le (by positivity) hpot
  · exact ⟨j, hj, C154_delivers phys hpos hdel⟩
  · exact ⟨j, hj, C154_later phys hβ hβ1 hpot hdel⟩

end Oneka
