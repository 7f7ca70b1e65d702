import Verif.Lemmas.PropsEndless

/-!
# What the log says about calls that fail or never return (C101)
-/

namespace Oneka

open PField

section

variable {a : PyArgs} {n : Inputs} {env : CallEnv} (ha : Acceptable a) (hd : a.Denotes n) (obs : List Obs)
  (ho : filterObs n.run.obs (n.run.wells.map fun w => (w.xw, w.yw)) n.buffer = .ok obs)
include ha hd ho

open Classical in
/-- C101: however a stochastic call with accepted, finite arguments ends, the realizations in its log are the first ones, in order, with their own draws. All of them are complete, except for the last one
if the call never returns: that one is the realization that hangs. If the log contains all realizations and the call raises, it is the archive that could not be written. -/
theorem C101_stochastic (h1 : 1 < n.nrealizations) :
    ∃ (k : ℕ) (t : SWell), n.run.target = k ∧ n.run.wells[k]? = some t ∧
      ((realizations (oneka a env).events).length : ℤ) ≤ n.nrealizations ∧
      (∀ (i : ℕ) (L : RealizationLog), (realizations (oneka a env).events)[i]? = some L →
        L.recharge = 2 * (L.model.coef 0 + L.model.coef 1) ∧
        if (oneka a env).ending = .diverges ∧ i + 1 = (realizations (oneka a env).events).length then
          Stalled { n.run with obs := obs } env.run.la t (fun d j => d.sample (env.run.u i j)) (env.run.mvn i) (env.run.interrupt i) L
        else Realized { n.run with obs := obs } env.run.la t (fun d j => d.sample (env.run.u i j)) (env.run.mvn i) (env.run.interrupt i) L) ∧
      ((oneka a env).ending = .diverges → realizations (oneka a env).events ≠ []) ∧
      (∀ e, (oneka a env).ending = .raises e → ((realizations (oneka a env).events).length : ℤ) = n.nrealizations → env.openError = some e ∨ env.writeError = some e) := by
  obtain ⟨⟨k, t, hk, ht⟩, hnp, hsp, -⟩ := accepted_inputs ha hd
  refine ⟨k, t, hk, ht, ?_⟩
  obtain ⟨f0, hf0⟩ := new_ok (x := t.xw) (y := t.yw) hsp
  obtain ⟨-, -, -, -, hr0, hm0, -, ⟨b, hb, -⟩, -⟩ := new_spec hf0
  have hb0 : f0.body ≠ none := by rw [hb]; simp
  have e1 : createStochastic { n.run with obs := obs } n.nrealizations env.run =
      stochasticLoop { n.run with obs := obs } env.run t n.nrealizations.toNat 0 f0 [] := by
    unfold createStochastic
    simp only [hk, getWell_nat ht, hf0]
  have e2 : endlessStochastic { n.run with obs := obs } n.nrealizations env.run =
      endlessLoop { n.run with obs := obs } env.run t n.nrealizations.toNat 0 f0 := by
    unfold endlessStochastic
    simp only [hk, getWell_nat ht, hf0]
  rcases logged_course env ha hd ho with ⟨h2, -, h3⟩ | ⟨h2, h3, h4⟩ | ⟨r, h2, h3, h4, h5⟩
  · rw [h2]
    refine ⟨by simp; omega, by simp, by rw [h3]; simp, fun e _ h => ?_⟩
    simp at h
    omega
  · unfold theRun at h3
    unfold theEndless at h2
    rw [if_pos h1, e1] at h3
    rw [if_pos h1, e2] at h2
    obtain ⟨Ls, S, l1, l2, l3, l4, l5⟩ := loop_endless_log _ _ _ _ hr0 hb0 hm0 h3
    rw [h2, l1]
    refine ⟨by simp; omega, fun i L hL => ?_, by simp, fun e he => by rw [h4] at he; simp at he⟩
    by_cases hi : i < Ls.length
    · rw [List.getElem?_append_left hi] at hL
      obtain ⟨q1, q2⟩ := l3 i L hL
      refine ⟨q2, ?_⟩
      rw [if_neg (by simp; omega)]
      simpa using q1
    · obtain rfl : i = Ls.length := by
        have := (List.getElem?_eq_some_iff.mp hL).1
        simp at this
        omega
      obtain rfl : S = L := by simpa using hL
      refine ⟨l5, ?_⟩
      rw [if_pos ⟨h4, by simp⟩]
      simpa using l4
  · unfold theRun at h3
    rw [if_pos h1, e1] at h3
    obtain ⟨Ls, l1, l2, l2', l3⟩ := loop_log (a := { n.run with obs := obs }) (by simp only; omega) _ _ _ _ _ hr0 hb0 hm0 h3
    rw [h2, l1]
    refine ⟨by simp; omega, fun i L hL => ?_, fun h => absurd h h4, fun e he hlen => ?_⟩
    · obtain ⟨q1, q2⟩ := l3 i L (by simpa using hL)
      refine ⟨q2, ?_⟩
      rw [if_neg (by simp [h4])]
      simpa using q1
    · cases hout : r.outcome with
      | ok f => exact h5 f hout e he
      | error e' =>
        have := l2' e' hout
        simp at hlen
        omega

open Classical in
/-- C101: and a deterministic call logs its realization, complete or, if the call never returns, hanging; none if it raises (unless the archive could not be written). -/
theorem C101_deterministic (h1 : n.nrealizations ≤ 1) :
    ∃ (k : ℕ) (t : SWell), n.run.target = k ∧ n.run.wells[k]? = some t ∧
      (realizations (oneka a env).events).length ≤ 1 ∧
      (∀ L ∈ realizations (oneka a env).events,
        L.recharge = -2 * (L.model.coef 0 + L.model.coef 1) ∧
        if (oneka a env).ending = .diverges then
          Stalled { n.run with obs := obs } env.run.la t (fun d _ => d.mean) (fun ev _ => .ok ev) (env.run.interrupt 0) L
        else Realized { n.run with obs := obs } env.run.la t (fun d _ => d.mean) (fun ev _ => .ok ev) (env.run.interrupt 0) L) ∧
      ((oneka a env).ending = .diverges → realizations (oneka a env).events ≠ []) ∧
      (∀ e, (oneka a env).ending = .raises e → realizations (oneka a env).events ≠ [] → env.openError = some e ∨ env.writeError = some e) := by
  obtain ⟨⟨k, t, hk, ht⟩, hnp, hsp, -⟩ := accepted_inputs ha hd
  refine ⟨k, t, hk, ht, ?_⟩
  obtain ⟨f0, hf0⟩ := new_ok (x := t.xw) (y := t.yw) hsp
  obtain ⟨-, -, -, -, hr0, hm0, -, ⟨b, hb, -⟩, -⟩ := new_spec hf0
  have hb0 : f0.body ≠ none := by rw [hb]; simp
  have h1' : ¬ 1 < n.nrealizations := by omega
  rcases logged_course env ha hd ho with ⟨h2, -, h3⟩ | ⟨h2, h3, h4⟩ | ⟨r, h2, h3, h4, h5⟩
  · rw [h2, h3]
    simp
  · unfold theRun at h3
    unfold theEndless at h2
    rw [if_neg h1'] at h2 h3
    unfold createDeterministic at h3
    unfold endlessDeterministic at h2
    simp only [hk, getWell_nat ht, hf0] at h2 h3
    split at h3
    swap
    · simp at h3
    rename_i hreal
    obtain ⟨S, l1, l2, l3⟩ := endless_realization (reachable_wf hr0) hreal
    rw [h2, l1]
    refine ⟨by simp, fun L hL => ?_, by simp, fun e he => by rw [h4] at he; simp at he⟩
    obtain rfl : L = S := by simpa using hL
    rw [← hk] at l2
    exact ⟨l3, by rw [if_pos h4]; exact l2⟩
  · unfold theRun at h3
    rw [if_neg h1'] at h3
    unfold createDeterministic at h3
    simp only [hk, getWell_nat ht, hf0] at h3
    split at h3
    · simp at h3
    rename_i o l hreal
    obtain rfl := Option.some.inj h3
    rw [h2]
    simp only at h5 ⊢
    cases o with
    | error e =>
      obtain rfl := realize_error_log (reachable_wf hr0) hb0 (by simp only; omega) hreal
      exact ⟨by simp, by simp, fun h => absurd h h4, by simp⟩
    | ok f =>
      obtain ⟨L, rfl, hL, hrc, -⟩ := realize_spec hr0 hb hm0 hreal
      refine ⟨by simp, fun L' hL' => ?_, by simp, fun e he _ => h5 f rfl e he⟩
      obtain rfl : L' = L := by simpa using hL'
      rw [← hk] at hL
      exact ⟨hrc, by rw [if_neg h4]; exact hL⟩

end

end Oneka
