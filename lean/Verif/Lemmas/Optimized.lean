import Verif.Model.Optimized
import Verif.Lemmas.PropsCauses
import Verif.Lemmas.Returned
import Verif.Lemmas.PropsOneka
import Mathlib.LinearAlgebra.FiniteDimensional.Lemmas

/-!
# Lemmas for Props/Optimized.lean
-/

namespace Oneka

/-- all arguments in the modelled range are logged -/
theorem log_denoted {a : PyArgs} {n : Inputs} (hd : a.Denotes n) :
    ∃ ws os, a.wells = .list ws ∧ a.observations = .list os ∧ logTheRun a = ⟨(fullLog a (decide (1 < n.nrealizations)) ws os).map .log, .returns ()⟩ := by
  obtain ⟨ws, hws, -⟩ := hd.wells
  obtain ⟨os, hos, -⟩ := hd.observations
  refine ⟨ws, os, hws, hos, ?_⟩
  have hlt : PyVal.lt (.int 1) a.nrealizations = .ok (decide (1 < n.nrealizations)) := by
    unfold PyVal.lt
    rw [integer_num hd.nrealizations]
    simp only [PyVal.num]
    congr 1
    rw [decide_eq_decide, XR.fin_lt]
    norm_cast
  have num : ∀ {v : PyVal} {x : XR}, v.num = some x → formatF v = .ok () := fun {v x} h => formatF_number (p := fun _ => True) ⟨x, h, trivial⟩
  unfold logTheRun logD logF logV
  rw [hlt, formatD_integer hd.target, formatD_integer hd.npaths, formatD_integer hd.nrealizations, num hd.duration, num hd.base, num hd.buffer, num hd.spacing, num hd.umbra, num hd.tol, num hd.maxstep, hws, hos]
  simp only [Prog.bind_def, Prog.andThen, Prog.infos, Prog.info, Prog.emit, Prog.lift, logSeq]
  simp [fullLog, banner]

/-- with seven observations the assertion makes no difference -/
theorem computeO_seven {n : Inputs} (env : CallEnv) {obs : List Obs} (h : filterObs n.run.obs n.wellfield n.buffer = .ok obs) (h6 : 6 < obs.length) : computeO n env = compute n env := by
  unfold computeO compute
  unfold Inputs.wellfield at h
  rw [Prog.bind_ret (a := ()) rfl, Prog.bind_ret (a := ()) rfl, Prog.lift_ok h, Prog.lift_ok h, Prog.lift_ok (a := ())]
  rw [decide_eq_true h6]
  rfl

theorem computeO_unfiltered {n : Inputs} {env : CallEnv} {e : PyErr} (h : filterObs n.run.obs n.wellfield n.buffer = .error e) : computeO n env = compute n env := by
  unfold computeO compute
  unfold Inputs.wellfield at h
  rw [Prog.bind_ret (a := ()) rfl, Prog.bind_ret (a := ()) rfl, Prog.lift_error h, Prog.lift_error h]

/-- the call, for arguments in the modelled range -/
theorem onekaO_denoted {a : PyArgs} {n : Inputs} (hd : a.Denotes n) (env : CallEnv) :
    onekaO a env = (logTheRun a >>= fun _ => computeO n env >>= fun f => dumpOneka a f env >>= fun _ => Prog.emit .shown >>= fun _ => pure .none) := by
  unfold onekaO
  rw [inputs_of_denotes hd]

theorem onekaO_returned {a : PyArgs} {n : Inputs} (hd : a.Denotes n) {env : CallEnv} {f : FieldVal} (hf : (computeO n env).ending = .returns f) (h1 : env.openError = none) (h2 : env.writeError = none) :
    onekaO a env = ⟨(logTheRun a).events ++ (computeO n env).events ++ [.opened env.now.archiveName, .wrote env.now.archiveName (archiveDict a f), .shown], .returns .none⟩ := by
  obtain ⟨ws, os, -, -, hl⟩ := log_denoted hd
  rw [onekaO_denoted hd, Prog.bind_ret (a := ()) (by rw [hl]), Prog.bind_ret hf]
  unfold dumpOneka
  rw [h1, h2]
  simp [Prog.bind_def, Prog.andThen, Prog.emit, pure]

/-- how the call ends -/
theorem onekaO_ending {a : PyArgs} {n : Inputs} (hd : a.Denotes n) (env : CallEnv) :
    (onekaO a env).ending = match (computeO n env).ending with
      | .raises e => .raises e
      | .diverges => .diverges
      | .returns _ => match env.openError with
        | some e => .raises e
        | none => match env.writeError with
          | some e => .raises e
          | none => .returns .none := by
  obtain ⟨ws, os, -, -, hl⟩ := log_denoted hd
  rw [onekaO_denoted hd, Prog.bind_ret (a := ()) (by rw [hl])]
  simp only
  cases hc : (computeO n env).ending with
  | raises e => rw [Prog.bind_raise hc]
  | diverges => rw [Prog.bind_div hc]
  | returns f =>
    rw [Prog.bind_ret hc]
    unfold dumpOneka
    cases env.openError with
    | some e => rfl
    | none =>
      cases env.writeError with
      | some e => rfl
      | none => rfl

/-- what the call logs about its realizations -/
theorem onekaO_realizations {a : PyArgs} {n : Inputs} (hd : a.Denotes n) (env : CallEnv) : realizations (onekaO a env).events = realizations (computeO n env).events := by
  obtain ⟨ws, os, -, -, hl⟩ := log_denoted hd
  have hp := fullLog_effects (a := a) (s := decide (1 < n.nrealizations)) (ws := ws) (os := os)
  rw [onekaO_denoted hd, Prog.bind_ret (a := ()) (by rw [hl]), hl]
  simp only
  rw [realizations_append, realizations_plain hp, List.nil_append]
  cases hc : (computeO n env).ending with
  | raises e => rw [Prog.bind_raise hc]
  | diverges => rw [Prog.bind_div hc]
  | returns f =>
    rw [Prog.bind_ret hc]
    simp only
    rw [realizations_append]
    have : realizations (dumpOneka a f env >>= fun _ => Prog.emit Effect.shown >>= fun _ => (pure PyVal.none : Prog PyVal)).events = [] := by
      unfold dumpOneka
      cases env.openError with
      | some e => rfl
      | none =>
        cases env.writeError with
        | some e => rfl
        | none => rfl
    rw [this, List.append_nil]

/-- the archive of such a call -/
theorem onekaO_archive {a : PyArgs} {n : Inputs} (hd : a.Denotes n) {env : CallEnv} {f : FieldVal} (hq : (computeO n env).All Quiet) (hf : (computeO n env).ending = .returns f) (h1 : env.openError = none)
    (h2 : env.writeError = none) (fs : Files) : loadOneka ((onekaO a env).events.foldl Effect.apply fs) env.now.archiveName = .ok (archiveDict a f) := by
  rw [onekaO_returned hd hf h1 h2]
  simp only
  rw [returned_files (l := (logTheRun a).events ++ (computeO n env).events)]
  · simp [loadOneka]
  · intro e he
    rcases List.mem_append.mp he with he | he
    · exact quiet_logTheRun a e he
    · exact hq e he

/-- a trace without duration ends where it starts -/
theorem zero_trace (x y tol maxstep : XR) (fe : ℕ → XR × XR → Except PyErr (XR × XR)) : ∃ w, computeBacktrace x y (.fin 0) tol maxstep fe = some ⟨[(x, y)], [], w⟩ := by
  unfold computeBacktrace
  split
  · exact ⟨_, rfl⟩
  · rw [traceLoop, if_neg]
    · exact ⟨_, rfl⟩
    · have : (PyMath.q 0 : XR) = .fin 0 := by simp
      rw [this]
      exact fun h => lt_irrefl |(0 : ℝ)| h

theorem zero_ends {x y tol maxstep : XR} {fe : ℕ → XR × XR → Except PyErr (XR × XR)} : computeBacktrace x y (.fin 0) tol maxstep fe ≠ none := by
  obtain ⟨w, hw⟩ := zero_trace x y tol maxstep fe
  rw [hw]
  simp

theorem zero_path {x y tol maxstep : XR} {fe : ℕ → XR × XR → Except PyErr (XR × XR)} {r : Trace XR} (h : computeBacktrace x y (.fin 0) tol maxstep fe = some r) : r.vertices.length = 1 := by
  obtain ⟨w, hw⟩ := zero_trace x y tol maxstep fe
  rw [hw] at h
  obtain rfl := Option.some.inj h
  rfl

/-- five points are on one conic -/
theorem five_conic {obs : List Obs} (h : obs.length < 6) : OnOneConic obs := by
  let F : (Fin 6 → ℝ) →ₗ[ℝ] (Fin obs.length → ℝ) :=
    { toFun := fun c i => conic c obs[i].x obs[i].y
      map_add' := fun c d => by funext i; simp only [conic, Pi.add_apply]; ring
      map_smul' := fun r c => by funext i; simp only [conic, Pi.smul_apply, smul_eq_mul, RingHom.id_apply]; ring }
  have hk : LinearMap.ker F ≠ ⊥ := LinearMap.ker_ne_bot_of_finrank_lt (by simpa using h)
  obtain ⟨c, hc, hc0⟩ := (Submodule.ne_bot_iff _).mp hk
  refine ⟨c, hc0, fun o ho => ?_⟩
  obtain ⟨i, hi, rfl⟩ := List.mem_iff_getElem.mp ho
  exact congrFun (LinearMap.mem_ker.mp hc) ⟨i, hi⟩

section target

variable (a : RunArgs) (τ : ℤ)

theorem stochasticLoop_target (env : Env) (t : SWell) (k i : ℕ) (f : PField ℝ) (acc : List RealizationLog) : stochasticLoop { a with target := τ } env t k i f acc = stochasticLoop a env t k i f acc := by
  induction k generalizing i f acc with
  | zero => rfl
  | succ k ih =>
    unfold stochasticLoop
    simp only [ih]
    rfl

theorem endlessLoop_target (env : Env) (t : SWell) (k i : ℕ) (f : PField ℝ) : endlessLoop { a with target := τ } env t k i f = endlessLoop a env t k i f := by
  induction k generalizing i f with
  | zero => rfl
  | succ k ih =>
    unfold endlessLoop
    simp only [ih]
    rfl

variable {a τ} (h : getWell a.wells τ = getWell a.wells a.target)

include h

theorem createStochastic_target (k : ℤ) (env : Env) : createStochastic { a with target := τ } k env = createStochastic a k env := by
  unfold createStochastic
  simp only [h, stochasticLoop_target]

theorem endlessStochastic_target (k : ℤ) (env : Env) : endlessStochastic { a with target := τ } k env = endlessStochastic a k env := by
  unfold endlessStochastic
  simp only [h, endlessLoop_target]

theorem createDeterministic_target (env : Env) : createDeterministic { a with target := τ } env = createDeterministic a env := by
  unfold createDeterministic
  simp only [h]
  rfl

theorem endlessDeterministic_target (env : Env) : endlessDeterministic { a with target := τ } env = endlessDeterministic a env := by
  unfold endlessDeterministic
  simp only [h]
  rfl

end target

theorem computeO_target {n : Inputs} {τ : ℤ} (h : getWell n.run.wells τ = getWell n.run.wells n.run.target) (env : CallEnv) : computeO { n with run := { n.run with target := τ } } env = computeO n env := by
  have hm : ∀ obs, markers τ n.run.wells obs = markers n.run.target n.run.wells obs := by
    intro obs
    unfold markers
    rw [h]
  have h1 : ∀ obs f, createProbabilityPlot env.gaussian τ n.run.wells obs f n.smooth = createProbabilityPlot env.gaussian n.run.target n.run.wells obs f n.smooth := by
    intro obs f
    unfold createProbabilityPlot
    simp only [hm]
  have h2 : ∀ obs f, createDeterministicPlot τ n.run.wells obs f = createDeterministicPlot n.run.target n.run.wells obs f := by
    intro obs f
    unfold createDeterministicPlot
    simp only [hm]
  unfold computeO
  simp only [h1, h2]
  have e1 : ∀ obs, createStochastic { n.run with target := τ, obs := obs } n.nrealizations env.run = createStochastic { n.run with obs := obs } n.nrealizations env.run := fun obs => createStochastic_target (a := { n.run with obs := obs }) h _ _
  have e2 : ∀ obs, endlessStochastic { n.run with target := τ, obs := obs } n.nrealizations env.run = endlessStochastic { n.run with obs := obs } n.nrealizations env.run := fun obs => endlessStochastic_target (a := { n.run with obs := obs }) h _ _
  have e3 : ∀ obs, createDeterministic { n.run with target := τ, obs := obs } env.run = createDeterministic { n.run with obs := obs } env.run := fun obs => createDeterministic_target (a := { n.run with obs := obs }) h _
  have e4 : ∀ obs, endlessDeterministic { n.run with target := τ, obs := obs } env.run = endlessDeterministic { n.run with obs := obs } env.run := fun obs => endlessDeterministic_target (a := { n.run with obs := obs }) h _
  simp only [e1, e2, e3, e4]

theorem getWell_wraps {wells : List SWell} {k : ℕ} (hk : k < wells.length) : getWell wells ((k : ℤ) - wells.length) = getWell wells k := by
  unfold getWell
  have h1 : (k : ℤ) - wells.length < 0 := by omega
  have h2 : ¬ (k : ℤ) < 0 := by omega
  simp only [h1, h2, if_true, if_false, sub_add_cancel]

end Oneka
