import Verif.Model.Variate
import Verif.Model.BackVelocity
import Verif.Model.Capturezone

/-!
# Model of oneka/stochastic.py:76-270 and oneka/deterministic.py:65-235

Everything that is not determined by the arguments is in `Env` and arbitrary: the random draws, the linear algebra
routines, and interrupts of the velocity evaluations (by exceptions such as KeyboardInterrupt).
The parameters of the aquifer are finite floats; the duration and the tolerances are any floats.
-/

namespace Oneka

/-- A stochastic well `(xw, yw, rw, q_dist)`, oneka/stochastic.py:126-140. -/
structure SWell where
  xw : ℝ
  yw : ℝ
  rw : ℝ
  q : Dist

/-- The arguments common to both kinds of run (oneka/stochastic.py:76-81, oneka/deterministic.py:65-70). -/
structure RunArgs where
  target : ℤ
  npaths : ℤ
  duration : XR
  base : ℝ
  cDist : Dist
  pDist : Dist
  tDist : Dist
  wells : List SWell
  obs : List Obs
  spacing : ℝ
  umbra : ℝ
  confined : Bool
  tol : XR
  maxstep : XR

/-- What a run depends on besides its arguments. (oneka/stochastic.py:220-265, oneka/deterministic.py:182-233) -/
structure Env where
  /-- `np.linalg` -/
  la : LinAlg
  /-- `u i j`: the draw used by the `j`-th call of `generate_random_variate` in realization `i` -/
  u : ℕ → ℕ → ℝ
  /-- the draw of `multivariate_normal(ev, cov)` in realization `i` -/
  mvn : ℕ → (Fin 6 → ℝ) → Matrix (Fin 6) (Fin 6) ℝ → Except PyErr (Fin 6 → ℝ)
  /-- `interrupt i k n`: an exception raised from outside during the `n`-th velocity evaluation of the `k`-th trace of realization `i` -/
  interrupt : ℕ → ℕ → ℕ → Option PyErr

/-- What happened in one realization (ghost, except for the logged numbers). (oneka/stochastic.py:236-265, oneka/deterministic.py:194-233) -/
structure RealizationLog where
  /-- the model that was traced -/
  model : Aquifer ℝ
  /-- the result of the fit -/
  ev : Fin 6 → ℝ
  cov : Matrix (Fin 6) (Fin 6) ℝ
  /-- the recharge written to the log -/
  recharge : ℝ
  /-- the traces -/
  traces : List (Trace XR)

/-- What a run does: it returns a probability field or raises; and what it logged. (oneka/stochastic.py:270, oneka/deterministic.py:235) -/
structure RunResult where
  outcome : Except PyErr (PField ℝ)
  log : List RealizationLog

/-- `stochastic_wells[target]` (oneka/stochastic.py:211): Python indexing. -/
def getWell (wells : List SWell) (target : ℤ) : Except PyErr SWell :=
  let i := if target < 0 then target + wells.length else target
  if i < 0 then .error .indexError
  else
    match wells[i.toNat]? with
    | none => .error .indexError
    | some w => .ok w

/-- oneka/stochastic.py:224-228 and oneka/deterministic.py:182-186: the wells with discharges `q w j` (`j`: the number of the call). -/
def drawWells (q : Dist → ℕ → Except PyErr ℝ) : List SWell → ℕ → Except PyErr (List (Well ℝ))
  | [], _ => .ok []
  | w :: ws, j =>
    match q w.q j with
    | .error e => .error e
    | .ok v =>
      match drawWells q ws (j + 1) with
      | .error e => .error e
      | .ok r => .ok (⟨w.xw, w.yw, w.rw, v⟩ :: r)

/-- oneka/stochastic.py:222-236 and oneka/deterministic.py:180-194: wells, aquifer properties, model. The coefficients at this point are
those of the default argument of `Model` (oneka/model.py:132), which the fit replaces. -/
def drawModel (a : RunArgs) (q : Dist → ℕ → Except PyErr ℝ) : Except PyErr (Aquifer ℝ) :=
  match drawWells q a.wells 0 with
  | .error e => .error e
  | .ok ws =>
    match q a.cDist a.wells.length with
    | .error e => .error e
    | .ok c =>
      match q a.pDist (a.wells.length + 1) with
      | .error e => .error e
      | .ok p =>
        match q a.tDist (a.wells.length + 2) with
        | .error e => .error e
        | .ok t => .ok ⟨a.base, c, p, t, ws, 0, 0, fun _ => 0⟩

/-- The velocity function handed to the tracer (oneka/stochastic.py:253-260), unless interrupted. -/
noncomputable def runVelocity (m : Aquifer ℝ) (confined : Bool) (interrupt : ℕ → ℕ → Option PyErr) :
    ℕ → ℕ → XR × XR → Except PyErr (XR × XR) :=
  fun k n p =>
    match interrupt k n with
    | some e => .error e
    | none => m.toX.backVelocity confined p

/-- oneka/stochastic.py:222-265 and oneka/deterministic.py:180-233: one realization (the two functions contain the same
sequence of statements, except for the three parameters that follow). `q` draws a variate, `coefs` turns the fitted
expected values and covariances into coefficients, `recharge` is the formula of the logged recharge. The result is the new field and the
log; `none`: never returns. -/
noncomputable def realize (a : RunArgs) (la : LinAlg) (target : SWell) (q : Dist → ℕ → Except PyErr ℝ)
    (coefs : (Fin 6 → ℝ) → Matrix (Fin 6) (Fin 6) ℝ → Except PyErr (Fin 6 → ℝ)) (recharge : (Fin 6 → ℝ) → ℝ)
    (interrupt : ℕ → ℕ → Option PyErr) (f : PField ℝ) : Option (Except PyErr (PField ℝ) × List RealizationLog) :=
  match drawModel a q with
  | .error e => some (.error e, [])
  | .ok mo =>
    match mo.fitRegionalFlow la a.obs target.xw target.yw with
    | (_, .error e) => some (.error e, [])
    | (mo', .ok (ev, cov)) =>
      match coefs ev cov with
      | .error e => some (.error e, [])
      | .ok c =>
        let m : Aquifer ℝ := { mo' with coef := c }
        match computeCapturezone target.xw target.yw target.rw a.npaths a.duration f a.umbra 1 a.tol a.maxstep
            (runVelocity m a.confined interrupt) with
        | none => none
        | some r =>
          some (r.outcome.map (fun _ => r.field), [⟨m, ev, cov, recharge m.coef, r.traces⟩])

/-- oneka/stochastic.py:222-265 and oneka/deterministic.py:180-233: what a realization that never returns has logged. The entries about the parameters are written before the first trace
(oneka/stochastic.py:244-250, oneka/deterministic.py:202-218), so they are there. Used only if `realize` is `none`. -/
noncomputable def endlessRealization (a : RunArgs) (la : LinAlg) (target : SWell) (q : Dist → ℕ → Except PyErr ℝ)
    (coefs : (Fin 6 → ℝ) → Matrix (Fin 6) (Fin 6) ℝ → Except PyErr (Fin 6 → ℝ)) (recharge : (Fin 6 → ℝ) → ℝ)
    (interrupt : ℕ → ℕ → Option PyErr) (f : PField ℝ) : List RealizationLog :=
  match drawModel a q with
  | .error _ => []
  | .ok mo =>
    match mo.fitRegionalFlow la a.obs target.xw target.yw with
    | (_, .error _) => []
    | (mo', .ok (ev, cov)) =>
      match coefs ev cov with
      | .error _ => []
      | .ok c =>
        let m : Aquifer ℝ := { mo' with coef := c }
        [⟨m, ev, cov, recharge m.coef, endlessTraces target.xw target.yw target.rw a.npaths a.duration f a.umbra a.tol a.maxstep
          (runVelocity m a.confined interrupt)⟩]

/-- oneka/stochastic.py:220-268: the loop over `k` more realizations, starting with number `i`. -/
noncomputable def stochasticLoop (a : RunArgs) (env : Env) (target : SWell) :
    ℕ → ℕ → PField ℝ → List RealizationLog → Option RunResult
  | 0, _, f, acc => some ⟨.ok f, acc⟩
  | k + 1, i, f, acc =>
    match realize a env.la target (fun d j => d.sample (env.u i j)) (env.mvn i)
        (fun c => 2 * (c 0 + c 1)) (env.interrupt i) f with
    | none => none
    | some (.error e, l) => some ⟨.error e, acc ++ l⟩
    | some (.ok f', l) => stochasticLoop a env target k (i + 1) f' (acc ++ l)

/-- oneka/stochastic.py:220-268: what `k` more realizations log that never return, starting with number `i`. The same loop as `stochasticLoop`; used only if that one is `none`. -/
noncomputable def endlessLoop (a : RunArgs) (env : Env) (target : SWell) : ℕ → ℕ → PField ℝ → List RealizationLog
  | 0, _, _ => []
  | k + 1, i, f =>
    match realize a env.la target (fun d j => d.sample (env.u i j)) (env.mvn i)
        (fun c => 2 * (c 0 + c 1)) (env.interrupt i) f with
    | some (.ok f', l) => l ++ endlessLoop a env target k (i + 1) f'
    | some (.error _, l) => l
    | none => endlessRealization a env.la target (fun d j => d.sample (env.u i j)) (env.mvn i)
        (fun c => 2 * (c 0 + c 1)) (env.interrupt i) f

/-- oneka/stochastic.py:76-270 `create_stochastic_capturezone`. -/
noncomputable def createStochastic (a : RunArgs) (nrealizations : ℤ) (env : Env) : Option RunResult :=
  match getWell a.wells a.target with
  | .error e => some ⟨.error e, []⟩
  | .ok target =>
    match PField.new a.spacing a.spacing (some target.xw) (some target.yw) with
    | .error e => some ⟨.error e, []⟩
    | .ok f => stochasticLoop a env target nrealizations.toNat 0 f []

/-- oneka/deterministic.py:65-235 `create_deterministic_capturezone`: the means, the fitted coefficients, and one capture zone. -/
noncomputable def createDeterministic (a : RunArgs) (env : Env) : Option RunResult :=
  match getWell a.wells a.target with
  | .error e => some ⟨.error e, []⟩
  | .ok target =>
    match PField.new a.spacing a.spacing (some target.xw) (some target.yw) with
    | .error e => some ⟨.error e, []⟩
    | .ok f =>
      match realize a env.la target (fun d _ => d.mean) (fun ev _ => .ok ev)
          (fun c => -2 * (c 0 + c 1)) (env.interrupt 0) f with
      | none => none
      | some (o, l) => some ⟨o, l⟩

/-- oneka/stochastic.py:76-270: what a call of `create_stochastic_capturezone` that never returns has logged. -/
noncomputable def endlessStochastic (a : RunArgs) (nrealizations : ℤ) (env : Env) : List RealizationLog :=
  match getWell a.wells a.target with
  | .error _ => []
  | .ok target =>
    match PField.new a.spacing a.spacing (some target.xw) (some target.yw) with
    | .error _ => []
    | .ok f => endlessLoop a env target nrealizations.toNat 0 f

/-- oneka/deterministic.py:65-235: what a call of `create_deterministic_capturezone` that never returns has logged. -/
noncomputable def endlessDeterministic (a : RunArgs) (env : Env) : List RealizationLog :=
  match getWell a.wells a.target with
  | .error _ => []
  | .ok target =>
    match PField.new a.spacing a.spacing (some target.xw) (some target.yw) with
    | .error _ => []
    | .ok f =>
      endlessRealization a env.la target (fun d _ => d.mean) (fun ev _ => .ok ev)
        (fun c => -2 * (c 0 + c 1)) (env.interrupt 0) f

end Oneka
