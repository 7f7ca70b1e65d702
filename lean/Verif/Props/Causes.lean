import Verif.Lemmas.PropsCauses

/-!
# Why a call fails (C70)
-/

namespace Oneka

open PField

/-! ## C70 -/

section

variable {a : PyArgs} {n : Inputs} {env : CallEnv} (ha : Acceptable a) (hd : a.Denotes n) (hr : n.Regular)
  (hs : 1 < n.nrealizations → n.Spread ∧ ∀ i j, 0 ≤ env.run.u i j ∧ env.run.u i j < 1)
  (hla : env.run.la.Correct) (hc : env.run.la.Converges)

include ha hd hr hs hla hc

/-- C70: a call with accepted, finite, regular arguments raises only for one of the six reasons, with the exception that belongs to the reason. Example: `Props/Examples.lean`. -/
theorem C70_raises (e : PyErr) (h : (oneka a env).ending = .raises e) :
    ∃ obs, filterObs n.run.obs (n.run.wells.map fun w => (w.xw, w.yw)) n.buffer = .ok obs ∧ Failure n obs env e := by
  obtain ⟨⟨k, t, hk, ht⟩, -⟩ := accepted_inputs ha hd
  obtain ⟨obs, ho⟩ := filter_ok hr.2.2 n.wellfield n.buffer
  refine ⟨obs, ho, ?_⟩
  have hst : stage a env = compute n env := by unfold stage; rw [inputs_of_denotes hd]
  obtain ⟨ws, os, -, -, hl⟩ := log_accepted ha hd.nrealizations
  rcases course a env with ⟨e', h1, -⟩ | ⟨e', -, h1, -⟩ | ⟨e', -, -, h1, h2⟩ | ⟨-, -, -, h2⟩ | ⟨f, e', -, -, -, h1, h2⟩ | ⟨f, e', -, -, -, h0, h1, h2⟩ | ⟨f, -, -, -, -, -, h2⟩
  · exact absurd ha h1
  · rw [hl] at h1; simp at h1
  · obtain rfl : e' = e := by rw [h2] at h; simpa using h
    rw [hst] at h1
    rcases computed env ho hk ht with ⟨h6, c⟩ | ⟨cols, -, -, -, c⟩ | ⟨cols, r, e, -, -, hrun, hout, c⟩ | ⟨cols, r, f, pl, im, lines, -, -, -, -, -, -, -, -, -, -, c⟩ |
      ⟨cols, r, f, pl, -, -, -, -, -, -, -, -, c⟩
    · obtain rfl : PyErr.assertionError = e' := by rw [c] at h1; simpa using h1
      exact .few h6
    · rw [c] at h1; simp at h1
    · obtain rfl : e = e' := by rw [c] at h1; simpa using h1
      exact run_failure ha hd hr hs hla hc ho hrun hout
    · rw [c] at h1; simp at h1
    · rw [c] at h1; simp at h1
  · rw [h2] at h; simp at h
  · obtain rfl : e' = e := by rw [h2] at h; simpa using h
    exact .opening _ h1
  · obtain rfl : e' = e := by rw [h2] at h; simpa using h
    exact .writing _ h0 h1
  · rw [h2] at h; simp at h

omit hr hs hla hc in
/-- C70: a call with accepted, finite arguments runs forever only if one of the traces of its realizations does. Example: `Props/Examples.lean`. -/
theorem C70_diverges (h : (oneka a env).ending = .diverges) :
    ∃ (obs : List Obs) (k : ℕ) (t : SWell), filterObs n.run.obs (n.run.wells.map fun w => (w.xw, w.yw)) n.buffer = .ok obs ∧ n.run.target = k ∧
      n.run.wells[k]? = some t ∧ EndlessRun n obs env.run t := by
  obtain ⟨⟨k, t, hk, ht⟩, -⟩ := accepted_inputs ha hd
  have hst : stage a env = compute n env := by unfold stage; rw [inputs_of_denotes hd]
  cases ho : filterObs n.run.obs n.wellfield n.buffer with
  | error e =>
    have := stage_raises (a := a) (env := env) (e := e) ha hd (by rw [hst, compute_unfiltered ho])
    rw [this] at h; simp at h
  | ok obs =>
  refine ⟨obs, k, t, ho, hk, ht, ?_⟩
  rcases course a env with ⟨e', h1, -, h2⟩ | ⟨e', -, h1, h2⟩ | ⟨e', -, -, h1, h2⟩ | ⟨-, -, h1, h2⟩ | ⟨f, e', -, -, -, h1, h2⟩ | ⟨f, e', -, -, -, h0, h1, h2⟩ | ⟨f, -, -, -, -, -, h2⟩
  · exact absurd ha h1
  · rw [h2] at h; simp at h
  · rw [h2] at h; simp at h
  · rw [hst] at h1
    rcases computed env ho hk ht with ⟨h6, c⟩ | ⟨cols, -, -, hrun, c⟩ | ⟨cols, r, e, -, -, hrun, hout, c⟩ | ⟨cols, r, f, pl, im, lines, -, -, -, -, -, -, -, -, -, -, c⟩ |
      ⟨cols, r, f, pl, -, -, -, -, -, -, -, -, c⟩
    · rw [c] at h1; simp at h1
    · unfold theRun at hrun
      unfold EndlessRun
      split at hrun
      · rename_i h1
        rw [if_pos h1]
        rw [show n.nrealizations = ((n.nrealizations.toNat : ℕ) : ℤ) by omega] at hrun
        obtain ⟨j, hj, H⟩ := stochastic_endless (a := { n.run with obs := obs }) hk ht hrun
        exact ⟨j, by omega, H⟩
      · rename_i h1
        rw [if_neg h1]
        exact deterministic_endless (a := { n.run with obs := obs }) hk ht hrun
    · rw [c] at h1; simp at h1
    · rw [c] at h1; simp at h1
    · rw [c] at h1; simp at h1
  · rw [h2] at h; simp at h
  · rw [h2] at h; simp at h
  · rw [h2] at h; simp at h

/-- C70: and otherwise it returns: if at least seven observations are retained, all of them above the base and not on one conic, the coefficients can be drawn, every trace returns, and
the archive can be written, the call returns. Example: `Props/Examples.lean`. -/
theorem C70_returns (obs : List Obs) (k : ℕ) (t : SWell) (ho : filterObs n.run.obs (n.run.wells.map fun w => (w.xw, w.yw)) n.buffer = .ok obs)
    (hk : n.run.target = k) (ht : n.run.wells[k]? = some t) (h7 : 7 ≤ obs.length) (hz : ∀ o ∈ obs, n.run.base < o.z) (hcon : ¬ OnOneConic obs)
    (hm : 1 < n.nrealizations → ∀ i ev cov, ∃ c, env.run.mvn i ev cov = .ok c) (ht' : ¬ EndlessRun n obs env.run t)
    (ho1 : env.openError = none) (ho2 : env.writeError = none) : (oneka a env).ending = .returns .none := by
  cases he : (oneka a env).ending with
  | returns v =>
    obtain ⟨rfl, -⟩ := returned_course he
    rfl
  | raises e =>
    exfalso
    obtain ⟨obs', ho', hf⟩ := C70_raises ha hd hr hs hla hc e he
    obtain rfl : obs = obs' := by rw [ho] at ho'; exact Except.ok.inj ho'
    cases hf with
    | few h => omega
    | dry o h1 h2 => exact absurd (hz o h1) (not_lt.mpr h2)
    | conic h => exact hcon h
    | coefficients i ev cov e h1 h2 h3 =>
      obtain ⟨c, h4⟩ := hm h1 i ev cov
      rw [h4] at h3; simp at h3
    | opening e h => rw [ho1] at h; simp at h
    | writing e h1 h => rw [ho2] at h; simp at h
  | diverges =>
    exfalso
    obtain ⟨obs', k', t', q1, q2, q3, q4⟩ := C70_diverges ha hd he
    obtain rfl : obs = obs' := by rw [ho] at q1; exact Except.ok.inj q1
    obtain rfl : k = k' := by rw [hk] at q2; exact_mod_cast q2
    obtain rfl : t = t' := by rw [ht] at q3; exact Option.some.inj q3
    exact ht' q4

omit hr hs hla hc in
/-- C70: fewer than seven retained observations make the call fail. Example: `Props/Examples.lean`. -/
theorem C70_few (obs : List Obs) (ho : filterObs n.run.obs (n.run.wells.map fun w => (w.xw, w.yw)) n.buffer = .ok obs) (h6 : obs.length < 7) :
    (oneka a env).ending = .raises .assertionError := by
  have hst : stage a env = compute n env := by unfold stage; rw [inputs_of_denotes hd]
  have hend : (stage a env).ending = .raises .assertionError := by rw [hst, compute_few (n := n) ho (by omega)]
  exact stage_raises ha hd hend

/-- C70: a retained head at or below the base makes the call fail with a RangeError, and otherwise seven or more retained observations on one conic make it fail with a LinAlgError. Example: `Props/Examples.lean`. -/
theorem C70_fit (obs : List Obs) (ho : filterObs n.run.obs (n.run.wells.map fun w => (w.xw, w.yw)) n.buffer = .ok obs) (h7 : 7 ≤ obs.length) :
    ((∃ o ∈ obs, o.z ≤ n.run.base) → (oneka a env).ending = .raises .rangeError) ∧
    ((∀ o ∈ obs, n.run.base < o.z) → OnOneConic obs → (oneka a env).ending = .raises .linAlgError) := by
  obtain ⟨⟨k, t, hk, ht⟩, hnp, hsp, -, -, hbuf, -⟩ := accepted_inputs ha hd
  have hstd := retained_std ho hr.2.2
  have hst : stage a env = compute n env := by unfold stage; rw [inputs_of_denotes hd]
  have key : ∀ e, (∀ m : Aquifer ℝ, m.base = n.run.base → 0 < m.conductivity → 0 < m.thickness → (∀ o ∈ obs, m.OffWells o.x o.y) → (m.fitRegionalFlow env.run.la obs t.xw t.yw).2 = .error e) →
      (oneka a env).ending = .raises e := by
    intro e hfit
    have hrun : theRun n env obs = some ⟨.error e, []⟩ := by
      unfold theRun
      split
      · rename_i h1
        obtain ⟨hspread, hu⟩ := hs h1
        obtain ⟨m, hm, mb, mK, mT⟩ := draw_stochastic ha hd hr hspread obs (hu 0)
        obtain ⟨j, hj⟩ : ∃ j : ℕ, n.nrealizations = (j + 1 : ℕ) := ⟨n.nrealizations.toNat - 1, by omega⟩
        rw [hj]
        exact stochastic_fit_error (a := { n.run with obs := obs }) hk ht hsp hm (hfit m mb mK mT (retained_off hm hbuf ho))
      · obtain ⟨m, hm, mb, mK, mT⟩ := draw_deterministic ha hd hr obs
        exact deterministic_fit_error (a := { n.run with obs := obs }) hk ht hsp hm (hfit m mb mK mT (retained_off hm hbuf ho))
    obtain ⟨cols, hcol, -⟩ := summary_ok (obs := obs) (by rintro rfl; simp at h7)
    refine stage_raises ha hd ?_
    rw [hst, compute_error ho (by omega) hcol hrun rfl]
  refine ⟨fun hdry => key _ fun m mb mK mT moff => ?_, fun hz hcon => key _ fun m mb mK mT moff => ?_⟩
  · refine (C38_range env.run.la hla m mT obs t.xw t.yw (.inr ⟨mK, hstd⟩)).mpr ?_
    rw [mb]
    exact hdry
  · exact (C37_degenerate env.run.la hla hc m mK mT obs t.xw t.yw fun o ho => ⟨by rw [mb]; exact hz o ho, hstd o ho, moff o ho⟩).1 hcon

/-- C72: a call can run forever: take a call that nothing is wrong with and put a second well exactly one metre east of the rim of the target well, where the first trace starts. With `confined`
the velocity there is NaN, and the call never ends (unless it is interrupted). All checks are passed, and no archive is written. Example: `Props/Examples.lean`. -/
theorem C72_hangs (hpor : n.run.pDist.Pos) (obs : List Obs) (k : ℕ) (t : SWell) (ho : filterObs n.run.obs (n.run.wells.map fun w => (w.xw, w.yw)) n.buffer = .ok obs)
    (hk : n.run.target = k) (ht : n.run.wells[k]? = some t) (h7 : 7 ≤ obs.length) (hz : ∀ o ∈ obs, n.run.base < o.z) (hcon : ¬ OnOneConic obs)
    (hm : 1 < n.nrealizations → ∀ ev cov, ∃ c, env.run.mvn 0 ev cov = .ok c) (hcf : n.run.confined = true) (d : ℝ) (hdur : n.run.duration = .fin d) (hd0 : d ≠ 0)
    (hi : ∀ k m, env.run.interrupt 0 k m = none) (hw : ∃ w ∈ n.run.wells, (w.xw, w.yw) = (t.xw + (t.rw + 1), t.yw)) :
    (oneka a env).ending = .diverges ∧ ∀ name dict, Effect.wrote name dict ∉ (oneka a env).events := by
  obtain ⟨-, hnp, hsp, -, -, hbuf, -⟩ := accepted_inputs ha hd
  have hstd := retained_std ho hr.2.2
  have hst : stage a env = compute n env := by unfold stage; rw [inputs_of_denotes hd]
  obtain ⟨f0, hf0⟩ := new_ok (x := t.xw) (y := t.yw) hsp
  have fits : ∀ m : Aquifer ℝ, m.base = n.run.base → 0 < m.conductivity → 0 < m.thickness → (∀ o ∈ obs, m.OffWells o.x o.y) →
      ∃ ev cov, (m.fitRegionalFlow env.run.la obs t.xw t.yw).2 = .ok (ev, cov) := by
    intro m mb mK mT moff
    obtain ⟨⟨ev, cov⟩, h⟩ := (C37_degenerate env.run.la hla hc m mK mT obs t.xw t.yw fun o ho => ⟨by rw [mb]; exact hz o ho, hstd o ho, moff o ho⟩).2 hcon
    exact ⟨ev, cov, h⟩
  have hrun : theRun n env obs = none := by
    unfold theRun
    split
    · rename_i h1
      obtain ⟨hspread, hu⟩ := hs h1
      obtain ⟨m, hdm, mb, mK, mT⟩ := draw_stochastic ha hd hr hspread obs (hu 0)
      obtain ⟨-, -, -, hpo, -⟩ := drawModel_ok hdm
      obtain ⟨x, hx, hx0⟩ := sample_ok ha.pDist hd.pDist hspread.2.1 (hu 0 (n.run.wells.length + 1)).1 (hu 0 (n.run.wells.length + 1)).2
      have hpos : 0 < m.porosity := by
        obtain rfl : x = m.porosity := Except.ok.inj (hx.symm.trans hpo)
        exact hx0 hpor
      obtain ⟨ev, cov, hfit⟩ := fits m mb mK mT (retained_off hdm hbuf ho)
      obtain ⟨c, hcf'⟩ := hm h1 ev cov
      obtain ⟨j, hj⟩ : ∃ j : ℕ, n.nrealizations = (j + 1 : ℕ) := ⟨n.nrealizations.toNat - 1, by omega⟩
      rw [hj]
      exact stochastic_hangs (a := { n.run with obs := obs }) hk ht hf0 (realize_hangs hdm ⟨mK, hpos, mT⟩ hfit hcf' hi hcf hdur hd0 hnp hw)
    · obtain ⟨m, hdm, mb, mK, mT⟩ := draw_deterministic ha hd hr obs
      obtain ⟨-, -, -, hpo, -⟩ := drawModel_ok hdm
      obtain ⟨x, hx, hx0⟩ := mean_ok ha.pDist hd.pDist
      have hpos : 0 < m.porosity := by
        obtain rfl : x = m.porosity := Except.ok.inj (hx.symm.trans hpo)
        exact hx0 hpor
      obtain ⟨ev, cov, hfit⟩ := fits m mb mK mT (retained_off hdm hbuf ho)
      exact deterministic_hangs (a := { n.run with obs := obs }) hk ht hf0 (realize_hangs hdm ⟨mK, hpos, mT⟩ hfit rfl hi hcf hdur hd0 hnp hw)
  obtain ⟨cols, hcol, -⟩ := summary_ok (obs := obs) (by rintro rfl; simp at h7)
  have hdiv : (stage a env).ending = .diverges := by rw [hst, compute_none ho (by omega) hcol hrun]
  have hend : (oneka a env).ending = .diverges := by
    obtain ⟨ws, os, -, -, hl⟩ := log_accepted ha hd.nrealizations
    rcases course a env with ⟨e', h1, -⟩ | ⟨e', -, h1, -⟩ | ⟨e', -, -, h1, h2⟩ | ⟨-, -, h1, h2⟩ | ⟨f, e', -, -, h1, -⟩ | ⟨f, e', -, -, h1, -⟩ | ⟨f, -, -, h1, -⟩
    · exact absurd ha h1
    · rw [hl] at h1; simp at h1
    · rw [hdiv] at h1; simp at h1
    · rw [h2]
    all_goals rw [hdiv] at h1; simp at h1
  exact ⟨hend, (C60_no_archive a env (by rw [hend]; simp)).1⟩

end

end Oneka
