import Verif.Model.Optimized
import Verif.Lemmas.Optimized
import Verif.Props.Causes
import Verif.Props.Oneka

/-!
# C148: calls under `python -O`

`onekaO` is `oneka` without its assertions (Model/Optimized.lean). Examples: Props/OptimizedExamples.lean.
-/

namespace Oneka

open PField

/-- **C148.** A call that passes the checks does the same without them: same log, figures, archive, exceptions and hangs. -/
theorem C148_same {a : PyArgs} {n : Inputs} (ha : Acceptable a) (hd : a.Denotes n) (env : CallEnv) (h7 : ∀ obs, filterObs n.run.obs (n.run.wells.map fun w => (w.xw, w.yw)) n.buffer = .ok obs → 7 ≤ obs.length) :
    onekaO a env = oneka a env := by
  rw [onekaO_denoted hd, oneka_eq, Prog.lift_ok (a := ()) (validate_ok.mpr ha)]
  have : computeO n env = stage a env := by
    unfold stage
    rw [inputs_of_denotes hd]
    cases ho : filterObs n.run.obs n.wellfield n.buffer with
    | ok obs => exact computeO_seven env ho (h7 obs ho)
    | error e => exact computeO_unfiltered ho
  rw [this]

/-- **C148.** In particular a call that returns does. -/
theorem C148_returned {a : PyArgs} {n : Inputs} (hd : a.Denotes n) {env : CallEnv} {v : PyVal} (h : (oneka a env).ending = .returns v) : onekaO a env = oneka a env := by
  obtain ⟨-, f, ha, -, hs, -⟩ := returned_course h
  refine C148_same ha hd env fun obs ho => ?_
  by_contra h6
  unfold stage at hs
  rw [inputs_of_denotes hd] at hs
  simp only [compute_few (n := n) (env := env) ho (by omega)] at hs
  simp at hs

/-- **C148.** A call that is rejected leaves no trace. Without the checks it logs its arguments. -/
theorem C148_logs {a : PyArgs} (ha : ¬ Acceptable a) (env : CallEnv) : (oneka a env).events = [] ∧ (∃ e, (oneka a env).ending = .raises e) ∧ (onekaO a env).events ≠ [] := by
  refine ⟨?_, ?_, ?_⟩
  · rcases course a env with ⟨e, -, -, h⟩ | ⟨e, h, -⟩ | ⟨e, h, -⟩ | ⟨h, -⟩ | ⟨f, e, h, -⟩ | ⟨f, e, h, -⟩ | ⟨f, h, -⟩
    · rw [h]
    all_goals exact absurd h ha
  · rcases course a env with ⟨e, -, -, h⟩ | ⟨e, h, -⟩ | ⟨e, h, -⟩ | ⟨h, -⟩ | ⟨f, e, h, -⟩ | ⟨f, e, h, -⟩ | ⟨f, h, -⟩
    · rw [h]
      exact ⟨e, rfl⟩
    all_goals exact absurd h ha
  · have h : (Prog.infos banner).events <+: (onekaO a env).events := by
      unfold onekaO logTheRun
      exact (Prog.events_prefix _ _).trans (Prog.events_prefix _ _)
    intro h0
    rw [h0] at h
    simp [Prog.infos, banner] at h

/-- **C148.** A negative target is rejected by the checks. Without them it counts from the end of the list of wells: `k - number of wells` does the same as `k`: it ends the same way, and the archives hold the same field. -/
theorem C148_negative_target {a : PyArgs} {n : Inputs} (hd : a.Denotes n) (env : CallEnv) (k : ℕ) (hk : n.run.target = k) (hlt : k < n.run.wells.length) :
    (∃ e, oneka { a with target := .int (k - n.run.wells.length) } env = ⟨[], .raises e⟩) ∧
    (onekaO { a with target := .int (k - n.run.wells.length) } env).ending = (onekaO a env).ending ∧
    realizations (onekaO { a with target := .int (k - n.run.wells.length) } env).events = realizations (onekaO a env).events ∧
    ∀ v, (oneka a env).ending = .returns v → ∀ fs, ∃ d d', loadOneka ((onekaO a env).events.foldl Effect.apply fs) env.now.archiveName = .ok d ∧
      loadOneka ((onekaO { a with target := .int (k - n.run.wells.length) } env).events.foldl Effect.apply fs) env.now.archiveName = .ok d' ∧ d'.get "pfield" = d.get "pfield" := by
  set a0 : PyArgs := { a with target := .int (k - n.run.wells.length) } with ha0
  set n0 : Inputs := { n with run := { n.run with target := k - n.run.wells.length } } with hn0
  have hd0 : a0.Denotes n0 := by
    obtain ⟨d1, d2, d3, d4, d5, d6, d7, d8, d9, d10, d11, d12, d13, d14, d15, d16, d17⟩ := hd
    exact ⟨.inl rfl, d2, d3, d4, d5, d6, d7, d8, d9, d10, d11, d12, d13, d14, d15, d16, d17⟩
  have hrej : ¬ Acceptable a0 := by
    intro h
    obtain ⟨⟨j, t, hj, -⟩, -⟩ := accepted_inputs h hd0
    simp only [hn0] at hj
    omega
  have hcomp : computeO n0 env = computeO n env := computeO_target (by rw [hk]; exact getWell_wraps hlt) env
  obtain ⟨ws, os, -, -, hl⟩ := log_denoted hd
  obtain ⟨ws0, os0, -, -, hl0⟩ := log_denoted hd0
  refine ⟨?_, ?_, ?_, ?_⟩
  · obtain ⟨h1, ⟨e, h2⟩, -⟩ := C148_logs hrej env
    refine ⟨e, ?_⟩
    cases h : oneka a0 env with
    | mk ev en =>
      rw [h] at h1 h2
      simp only at h1 h2
      rw [h1, h2]
  · rw [onekaO_ending hd, onekaO_ending hd0, hcomp]
  · rw [onekaO_realizations hd, onekaO_realizations hd0, hcomp]
  · intro v h fs
    obtain ⟨-, f, ha, -, hs, h1, h2, -⟩ := returned_course h
    have hst : stage a env = computeO n env := by
      have e1 : stage a env = compute n env := by unfold stage; rw [inputs_of_denotes hd]
      rw [e1] at hs ⊢
      cases ho : filterObs n.run.obs n.wellfield n.buffer with
      | error e => exact (computeO_unfiltered ho).symm
      | ok obs =>
        by_cases h6 : 6 < obs.length
        · exact (computeO_seven env ho h6).symm
        · rw [compute_few (n := n) (env := env) ho (by omega)] at hs
          simp at hs
    have hq := quiet_stage a env
    rw [hst] at hs hq
    exact ⟨_, _, onekaO_archive hd hq hs h1 h2 fs, onekaO_archive hd0 (by rw [hcomp]; exact hq) (by rw [hcomp]; exact hs) h1 h2 fs, rfl⟩

section

variable {a : PyArgs} {n : Inputs} {env : CallEnv} (ha : Acceptable a) (hd : a.Denotes n) (hr : n.Regular)
  (hs : 1 < n.nrealizations → n.Spread ∧ ∀ i j, 0 ≤ env.run.u i j ∧ env.run.u i j < 1)
  (hla : env.run.la.Correct) (hc : env.run.la.Converges)

include ha hd hr hs hla hc

/-- **C148.** Fewer than six retained observations: an AssertionError with the checks, a LinAlgError without them. -/
theorem C148_few (obs : List Obs) (ho : filterObs n.run.obs (n.run.wells.map fun w => (w.xw, w.yw)) n.buffer = .ok obs) (h0 : obs ≠ []) (h6 : obs.length < 6) (hz : ∀ o ∈ obs, n.run.base < o.z) :
    (oneka a env).ending = .raises .assertionError ∧ (onekaO a env).ending = .raises .linAlgError := by
  refine ⟨C70_few ha hd obs ho (by omega), ?_⟩
  obtain ⟨⟨k, t, hk, ht⟩, hnp, hsp, -, -, hbuf, -⟩ := accepted_inputs ha hd
  have hstd := retained_std ho hr.2.2
  have hfit : ∀ m : Aquifer ℝ, m.base = n.run.base → 0 < m.conductivity → 0 < m.thickness → (∀ o ∈ obs, m.OffWells o.x o.y) → (m.fitRegionalFlow env.run.la obs t.xw t.yw).2 = .error .linAlgError := fun m mb mK mT moff =>
    (C37_degenerate env.run.la hla hc m mK mT obs t.xw t.yw fun o ho => ⟨by rw [mb]; exact hz o ho, hstd o ho, moff o ho⟩).1 (five_conic h6)
  obtain ⟨cols, hcol, -⟩ := summary_ok (obs := obs) h0
  obtain ⟨ws, os, -, -, hl⟩ := log_denoted hd
  have hcomp : (computeO n env).ending = .raises .linAlgError := by
    unfold computeO
    unfold obsTable at hcol
    rw [Prog.bind_ret (a := ()) rfl, Prog.lift_ok ho, Prog.lift_ok hcol, Prog.bind_ret (a := ()) rfl, Prog.bind_ret (a := ()) rfl]
    simp only
    split
    · rename_i h1
      obtain ⟨hspread, hu⟩ := hs h1
      obtain ⟨m, hm, mb, mK, mT⟩ := draw_stochastic ha hd hr hspread obs (hu 0)
      obtain ⟨j, hj⟩ : ∃ j : ℕ, n.nrealizations = (j + 1 : ℕ) := ⟨n.nrealizations.toNat - 1, by omega⟩
      rw [hj, stochastic_fit_error (a := { n.run with obs := obs }) hk ht hsp hm (hfit m mb mK mT (retained_off hm hbuf ho)), Prog.bind_raise (e := .linAlgError)]
      rfl
    · obtain ⟨m, hm, mb, mK, mT⟩ := draw_deterministic ha hd hr obs
      rw [deterministic_fit_error (a := { n.run with obs := obs }) hk ht hsp hm (hfit m mb mK mT (retained_off hm hbuf ho)), Prog.bind_raise (e := .linAlgError)]
      rfl
  rw [onekaO_denoted hd, Prog.bind_ret (a := ()) (by rw [hl]), Prog.bind_raise hcomp]

/-- **C148.** What the checks are for: take a call that nothing is wrong with and set its duration to 0. With the checks it is rejected. Without them it returns, as if nothing had happened, and archives a field in which no place at all is captured. -/
theorem C148_no_duration (obs : List Obs) (ho : filterObs n.run.obs (n.run.wells.map fun w => (w.xw, w.yw)) n.buffer = .ok obs) (h7 : 7 ≤ obs.length) (hz : ∀ o ∈ obs, n.run.base < o.z) (hcon : ¬ OnOneConic obs)
    (hm : 1 < n.nrealizations → ∀ i ev cov, ∃ c, env.run.mvn i ev cov = .ok c) (ho1 : env.openError = none) (ho2 : env.writeError = none) (fs : Files) :
    (∃ e, oneka { a with duration := .int 0 } env = ⟨[], .raises e⟩) ∧ (onekaO { a with duration := .int 0 } env).ending = .returns .none ∧
    ∃ (d : Dict) (f : PField ℝ) (k : ℕ) (t : SWell),
      loadOneka ((onekaO { a with duration := .int 0 } env).events.foldl Effect.apply fs) env.now.archiveName = .ok d ∧ d.get "pfield" = some (.field (.field f)) ∧ n.run.target = k ∧ n.run.wells[k]? = some t ∧
      f.total = max 1 n.nrealizations ∧
      ∀ p q : ℤ, (|p| ≤ 1 ∧ |q| ≤ 1) ∨ n.run.umbra ≤ n.run.spacing → f.weightAt (t.xw + p * n.run.spacing) (t.yw + q * n.run.spacing) = 0 := by
  set a0 : PyArgs := { a with duration := .int 0 } with ha0
  set n0 : Inputs := { n with run := { n.run with duration := .fin 0 } } with hn0
  have hd0 : a0.Denotes n0 := by
    obtain ⟨d1, d2, d3, d4, d5, d6, d7, d8, d9, d10, d11, d12, d13, d14, d15, d16, d17⟩ := hd
    exact ⟨d1, d2, by simp [ha0, hn0, PyVal.num], d4, d5, d6, d7, d8, d9, d10, d11, d12, d13, d14, d15, d16, d17⟩
  have hrej : ¬ Acceptable a0 := by
    intro h
    obtain ⟨x, hx, hx0⟩ := h.duration
    simp only [ha0, PyVal.num, Int.cast_zero, Option.some.injEq] at hx
    exact hx0 hx.symm
  obtain ⟨⟨k, t, hk, ht⟩, hnp, hsp, hu, -, hbuf, -⟩ := accepted_inputs ha hd
  have hstd := retained_std ho hr.2.2
  have ho0 : filterObs n0.run.obs n0.wellfield n0.buffer = .ok obs := ho
  have fit : ∀ (m : Aquifer ℝ) (e : PyErr), m.base = n.run.base → 0 < m.conductivity → 0 < m.thickness → (∀ o ∈ obs, m.OffWells o.x o.y) → (m.fitRegionalFlow env.run.la obs t.xw t.yw).2 ≠ .error e := by
    intro m e mb mK mT moff hf
    rcases fit_causes hla hc mK mT hstd moff hf with ⟨-, o, ho, hz'⟩ | ⟨-, hcon'⟩
    · rw [mb] at hz'
      exact absurd (hz o ho) (not_lt.mpr hz')
    · exact hcon hcon'
  have noTrace : ∀ (q coefs interrupt), ¬ EndlessTrace { n0.run with obs := obs } env.run.la t q coefs interrupt := by
    rintro q coefs interrupt ⟨m, ev, cov, c, -, -, -, j, -, hj⟩
    exact zero_ends hj
  have noCapture : ∀ (q coefs interrupt L), Realized { n0.run with obs := obs } env.run.la t q coefs interrupt L → ∀ u X Y, ¬ L.Captures u X Y := by
    rintro q coefs interrupt L R u X Y ⟨tr, htr, A, B, hAB, -⟩
    obtain ⟨j, hj⟩ := List.getElem?_of_mem htr
    have h := R.traces j tr hj
    have hl := zero_path h
    have := hAB.length_le
    simp only [Trace.path, List.length_map, hl, List.length_cons, List.length_nil] at this
    omega
  refine ⟨?_, ?_⟩
  · obtain ⟨h1, ⟨e, h2⟩, -⟩ := C148_logs hrej env
    refine ⟨e, ?_⟩
    cases h : oneka a0 env with
    | mk ev en =>
      rw [h] at h1 h2
      simp only at h1 h2
      rw [h1, h2]
  have fin : ∀ f : PField ℝ, (compute n0 env).ending = .returns (.field f) → f.total = max 1 n.nrealizations →
      (∀ p q : ℤ, (|p| ≤ 1 ∧ |q| ≤ 1) ∨ n.run.umbra ≤ n.run.spacing → f.weightAt (t.xw + p * n.run.spacing) (t.yw + q * n.run.spacing) = 0) →
      (onekaO a0 env).ending = .returns .none ∧ ∃ (d : Dict) (f : PField ℝ) (k : ℕ) (t : SWell),
        loadOneka ((onekaO a0 env).events.foldl Effect.apply fs) env.now.archiveName = .ok d ∧ d.get "pfield" = some (.field (.field f)) ∧ n.run.target = k ∧ n.run.wells[k]? = some t ∧ f.total = max 1 n.nrealizations ∧
        ∀ p q : ℤ, (|p| ≤ 1 ∧ |q| ≤ 1) ∨ n.run.umbra ≤ n.run.spacing → f.weightAt (t.xw + p * n.run.spacing) (t.yw + q * n.run.spacing) = 0 := by
    intro f hf h1 h2
    rw [← computeO_seven env ho0 (by omega)] at hf
    refine ⟨by rw [onekaO_returned hd0 hf ho1 ho2], archiveDict a0 (.field f), f, k, t, onekaO_archive hd0 ?_ hf ho1 ho2 fs, rfl, hk, ht, h1, h2⟩
    rw [computeO_seven env ho0 (by omega)]
    exact quiet_compute n0 env
  rcases computed env ho0 (k := k) (t := t) hk ht with ⟨h6, -⟩ | ⟨cols, -, -, hrun, -⟩ | ⟨cols, r, e, -, -, hrun, hout, -⟩ | ⟨cols, r, f, pl, im, lines, -, -, h1, hrun, hout, -, -, -, -, -, c⟩ |
    ⟨cols, r, f, pl, -, -, h1, hrun, hout, -, -, -, c⟩
  · omega
  · exfalso
    unfold theRun at hrun
    split at hrun
    · rename_i h1
      rw [show n0.nrealizations = ((n0.nrealizations.toNat : ℕ) : ℤ) by omega] at hrun
      obtain ⟨j, -, H⟩ := stochastic_endless (a := { n0.run with obs := obs }) hk ht hrun
      exact noTrace _ _ _ H
    · exact noTrace _ _ _ (deterministic_endless (a := { n0.run with obs := obs }) hk ht hrun)
  · exfalso
    unfold theRun at hrun
    split at hrun
    · rename_i h1
      obtain ⟨hspread, hu⟩ := hs h1
      rw [show n0.nrealizations = ((n0.nrealizations.toNat : ℕ) : ℤ) by omega] at hrun
      obtain ⟨i, hi, hcase⟩ := C65_only_parameters_raise { n0.run with obs := obs } n0.nrealizations.toNat k env.run t hk ht hsp hnp.le hrun hout
      obtain ⟨m, hm', mb, mK, mT⟩ := draw_stochastic ha hd hr hspread obs (hu i)
      have hm0 : drawModel { n0.run with obs := obs } (fun d j => d.sample (env.run.u i j)) = .ok m := hm'
      rcases hcase with hcase | ⟨m', hm2, hcase⟩
      · exact absurd hcase (drawModel_iff.mp hm0).not_fails
      · obtain rfl : m = m' := (drawModel_iff.mp hm0).unique hm2
        rcases hcase with hf | ⟨ev, cov, -, hmv⟩
        · exact fit m e mb mK mT (retained_off hm' hbuf ho) hf
        · obtain ⟨c, hc'⟩ := hm h1 i ev cov
          rw [hc'] at hmv
          simp at hmv
    · obtain ⟨m, hm', mb, mK, mT⟩ := draw_deterministic ha hd hr obs
      have hm0 : drawModel { n0.run with obs := obs } (fun d _ => d.mean) = .ok m := hm'
      rcases deterministic_error (a := { n0.run with obs := obs }) hk ht hsp hnp.le hrun hout with hcase | ⟨m', hm2, hf⟩
      · rw [hm0] at hcase; simp at hcase
      · obtain rfl : m = m' := by rw [hm0] at hm2; exact Except.ok.inj hm2
        exact fit m e mb mK mT (retained_off hm' hbuf ho) hf
  · unfold theRun at hrun
    rw [if_pos h1, show n0.nrealizations = ((n0.nrealizations.toNat : ℕ) : ℤ) by omega] at hrun
    obtain ⟨c1, c2, -, c4, -⟩ := C44_frequencies { n0.run with obs := obs } n0.nrealizations.toNat k env.run t hk ht hrun hout
    have h1' : 1 < n.nrealizations := h1
    refine fin f (by rw [c]) ?_ fun p q hpq => ?_
    · rw [c2, max_eq_right h1'.le]
      have : ((n0.nrealizations.toNat : ℕ) : ℤ) = n.nrealizations := by
        show ((n.nrealizations.toNat : ℕ) : ℤ) = _
        omega
      exact_mod_cast congrArg (fun z : ℤ => (z : ℝ)) this
    · have := c4 hu.le p q hpq
      rw [show n.run.spacing = ({ n0.run with obs := obs } : RunArgs).spacing from rfl, this, List.countP_eq_zero.mpr]
      · simp
      · intro L hL
        simp only [decide_eq_true_eq]
        obtain ⟨i, hi⟩ := List.getElem?_of_mem hL
        have hin : i < n0.nrealizations.toNat := by
          rw [← c1]
          exact (List.getElem?_eq_some_iff.mp hi).1
        obtain ⟨L', e, R⟩ := C45_realizations { n0.run with obs := obs } n0.nrealizations.toNat k env.run t hk ht hrun hout i hin
        obtain rfl : L = L' := by rw [e] at hi; simpa using hi.symm
        exact noCapture _ _ _ _ R _ _ _
  · unfold theRun at hrun
    have h1' : n.nrealizations ≤ 1 := h1
    rw [if_neg (not_lt.mpr h1)] at hrun
    obtain ⟨L, -, c2, -, c4, -, c6, -⟩ := C46_deterministic { n0.run with obs := obs } k env.run t hk ht hrun hout
    refine fin f (by rw [c]) ?_ fun p q hpq => ?_
    · rw [c4, max_eq_left h1']
      norm_num
    · have := c6 hu.le p q hpq
      rw [show n.run.spacing = ({ n0.run with obs := obs } : RunArgs).spacing from rfl, this, if_neg]
      exact noCapture _ _ _ _ c2 _ _ _

end

end Oneka
