import Verif.Model.FlVariate
import Verif.Model.FlFit
import Verif.Model.FlCapturezone

/-!
# Model of a whole run in floating-point arithmetic (oneka/stochastic.py:76-270, oneka/deterministic.py:65-235)

As `Stochastic.lean`, with every operation rounded: the draws or means of the parameters, the construction of the fit, the starting points, velocities, traces and the field. numpy's linear algebra and random numbers are
arbitrary. Simplifications: the number of paths is not negative, the arguments are Python floats, nothing overflows, evaluations are not interrupted, and the log is left out.
-/

namespace Oneka

/-- A stochastic well `(xw, yw, rw, q_dist)` of floats, oneka/stochastic.py:126-140. -/
structure FlSWell where
  xw : Fl
  yw : Fl
  rw : Fl
  q : FlDist

/-- The arguments common to both kinds of run (oneka/stochastic.py:76-81, oneka/deterministic.py:65-70). -/
structure FlRunArgs where
  target : ℤ
  npaths : ℕ
  duration : Fl
  base : Fl
  cDist : FlDist
  pDist : FlDist
  tDist : FlDist
  wells : List FlSWell
  obs : List FlObs
  spacing : Fl
  umbra : Fl
  confined : Bool
  tol : Fl
  maxstep : Fl

/-- `stochastic_wells[target]` (oneka/stochastic.py:211, oneka/deterministic.py:177): Python indexing. -/
def flGetWell (wells : List FlSWell) (target : ℤ) : Except PyErr FlSWell :=
  let i := if target < 0 then target + wells.length else target
  if i < 0 then .error .indexError
  else
    match wells[i.toNat]? with
    | none => .error .indexError
    | some w => .ok w

/-- oneka/stochastic.py:224-228 and oneka/deterministic.py:182-186: the wells with discharges `q w j` (`j`: the number of the call). -/
def flDrawWells (q : FlDist → ℕ → Except PyErr Fl) : List FlSWell → ℕ → Except PyErr (List (Well Fl))
  | [], _ => .ok []
  | w :: ws, j =>
    match q w.q j with
    | .error e => .error e
    | .ok v =>
      match flDrawWells q ws (j + 1) with
      | .error e => .error e
      | .ok r => .ok (⟨w.xw, w.yw, w.rw, v⟩ :: r)

/-- oneka/stochastic.py:222-236 and oneka/deterministic.py:180-194: wells, aquifer properties, model. The coefficients at this point are those of the default argument of `Model` (oneka/model.py:132), which the fit replaces. -/
noncomputable def flDrawModel (a : FlRunArgs) (q : FlDist → ℕ → Except PyErr Fl) : Except PyErr (Aquifer Fl) :=
  match flDrawWells q a.wells 0 with
  | .error e => .error e
  | .ok ws =>
    match q a.cDist a.wells.length with
    | .error e => .error e
    | .ok c =>
      match q a.pDist (a.wells.length + 1) with
      | .error e => .error e
      | .ok p =>
        match q a.tDist (a.wells.length + 2) with
        | .error e => .error e
        | .ok t => .ok ⟨a.base, c, p, t, ws, 0, 0, fun _ => 0⟩

variable [LibM] [LibObs]

/-- oneka/stochastic.py:222-241 and oneka/deterministic.py:180-199: the model that is traced. `q` draws a variate, `coefs` turns the fitted expected values and covariances into coefficients. -/
noncomputable def flRealization (a : FlRunArgs) (la : FlLinAlg) (target : FlSWell) (q : FlDist → ℕ → Except PyErr Fl) (coefs : (Fin 6 → Fl) → Matrix (Fin 6) (Fin 6) Fl → Except PyErr (Fin 6 → Fl)) :
    Except PyErr (Aquifer Fl) :=
  match flDrawModel a q with
  | .error e => .error e
  | .ok mo =>
    match mo.flFitRegionalFlow la a.obs target.xw target.yw with
    | (_, .error e) => .error e
    | (mo', .ok (ev, cov)) =>
      match coefs ev cov with
      | .error e => .error e
      | .ok c => .ok { mo' with coef := c }

/-- oneka/stochastic.py:222-265 and oneka/deterministic.py:180-233: one realization: the field afterwards, and whether it raised. `none`: never ends. -/
noncomputable def flRealize (a : FlRunArgs) (la : FlLinAlg) (target : FlSWell) (q : FlDist → ℕ → Except PyErr Fl) (coefs : (Fin 6 → Fl) → Matrix (Fin 6) (Fin 6) Fl → Except PyErr (Fin 6 → Fl)) (f : PField Fl) :
    Option (PField Fl × Except PyErr Unit) :=
  match flRealization a la target q coefs with
  | .error e => some (f, .error e)
  | .ok m => flCapturezone target.xw target.yw target.rw a.npaths a.duration f a.umbra ((1 : ℕ) : Fl) a.tol a.maxstep (m.backVelocity a.confined)

/-- oneka/stochastic.py:220-268: the loop over `k` more realizations, starting with number `i`. `u i j`: the draw used by the `j`-th call of `generate_random_variate` in realization `i`; `mvn i`: its draw of
`multivariate_normal`. -/
noncomputable def flStochasticLoop (a : FlRunArgs) (la : FlLinAlg) (u : ℕ → ℕ → Fl) (mvn : ℕ → (Fin 6 → Fl) → Matrix (Fin 6) (Fin 6) Fl → Except PyErr (Fin 6 → Fl)) (target : FlSWell) :
    ℕ → ℕ → PField Fl → Option (Except PyErr (PField Fl))
  | 0, _, f => some (.ok f)
  | k + 1, i, f =>
    match flRealize a la target (fun d j => d.sample (u i j)) (mvn i) f with
    | none => none
    | some (_, .error e) => some (.error e)
    | some (f', .ok ()) => flStochasticLoop a la u mvn target k (i + 1) f'

/-- oneka/stochastic.py:76-270 `create_stochastic_capturezone`. -/
noncomputable def flCreateStochastic (a : FlRunArgs) (nrealizations : ℤ) (la : FlLinAlg) (u : ℕ → ℕ → Fl) (mvn : ℕ → (Fin 6 → Fl) → Matrix (Fin 6) (Fin 6) Fl → Except PyErr (Fin 6 → Fl)) :
    Option (Except PyErr (PField Fl)) :=
  match flGetWell a.wells a.target with
  | .error e => some (.error e)
  | .ok target =>
    match PField.new a.spacing a.spacing (some target.xw) (some target.yw) with
    | .error e => some (.error e)
    | .ok f => flStochasticLoop a la u mvn target nrealizations.toNat 0 f

/-- oneka/deterministic.py:65-235 `create_deterministic_capturezone`: the means, the fitted coefficients, and one capture zone. -/
noncomputable def flCreateDeterministic (a : FlRunArgs) (la : FlLinAlg) : Option (Except PyErr (PField Fl)) :=
  match flGetWell a.wells a.target with
  | .error e => some (.error e)
  | .ok target =>
    match PField.new a.spacing a.spacing (some target.xw) (some target.yw) with
    | .error e => some (.error e)
    | .ok f =>
      match flRealize a la target (fun d _ => .ok d.mean) (fun ev _ => .ok ev) f with
      | none => none
      | some (_, .error e) => some (.error e)
      | some (f', .ok ()) => some (.ok f')

end Oneka
