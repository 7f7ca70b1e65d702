import Verif.Py.RoundMath
import Verif.Model.BackVelocity
import Verif.Model.Backtrace
import Verif.Model.FlReport
import Verif.Model.ProbabilityField

/-!
# `compute_capturezone` in floating-point arithmetic

The same code as `computeCapturezone` of `Model/Capturezone.lean`, with every operation rounded to 53 binary digits: the starting points, the traces, the velocities, the field. `np.cos`,
`np.sin` and `np.pi` are those of the library (`LibM`). `npaths` is not negative here (`create_*_capturezone` are called with at least 1).
-/

namespace Oneka

variable [LibM]

/-- `np.linspace(0, 2*np.pi, npaths+1)[0:-1]` (oneka/capturezone.py:113). -/
noncomputable def flAngles (npaths : ℕ) : List Fl := (flLinspace 0 (2 * LibM.pi) (npaths + 1)).dropLast

/-- The starting point for the angle `θ`; `STEPAWAY` is 1.0. (oneka/capturezone.py:110, 114-115) -/
noncomputable def flStart (xtarget ytarget rtarget θ : Fl) : Fl × Fl :=
  ((rtarget + ((1 : ℕ) : Fl)) * LibM.cos θ + xtarget, (rtarget + ((1 : ℕ) : Fl)) * LibM.sin θ + ytarget)

/-- The loop over the starting angles. `none`: never ends. (oneka/capturezone.py:113-120) -/
noncomputable def flCaptureLoop (xtarget ytarget rtarget duration umbra tol maxstep : Fl) (feval : Fl × Fl → Except PyErr (Fl × Fl)) :
    List Fl → PField Fl → Option (PField Fl × Except PyErr Unit)
  | [], f => some (f, .ok ())
  | θ :: θs, f =>
    match computeBacktrace (flStart xtarget ytarget rtarget θ).1 (flStart xtarget ytarget rtarget θ).2 duration tol maxstep (fun _ => feval) with
    | none => none
    | some r =>
      match f.rasterize (r.vertices.map Prod.fst) (r.vertices.map Prod.snd) umbra with
      | none => none
      | some (f', .error e) => some (f', .error e)
      | some (f', .ok ()) => flCaptureLoop xtarget ytarget rtarget duration umbra tol maxstep feval θs f'

/-- oneka/capturezone.py:51-123 `compute_capturezone`: the field after the call (it is modified in place), and whether it raised. -/
noncomputable def flCapturezone (xtarget ytarget rtarget : Fl) (npaths : ℕ) (duration : Fl) (pfield : PField Fl) (umbra weight tol maxstep : Fl)
    (feval : Fl × Fl → Except PyErr (Fl × Fl)) : Option (PField Fl × Except PyErr Unit) :=
  match flCaptureLoop xtarget ytarget rtarget duration umbra tol maxstep feval (flAngles npaths) pfield with
  | none => none
  | some (f, .error e) => some (f, .error e)
  | some (f, .ok ()) =>
    match f.register weight with
    | .error e => some (f, .error e)
    | .ok f' => some (f', .ok ())

/-- The calls of `compute_capturezone` that `create_stochastic_capturezone` makes on one field (oneka/stochastic.py:220, 259-265), one for each of the models `ms`. Simplified: the models
are given; `FlRun.lean` also draws their parameters and fits them. -/
noncomputable def flZoneLoop (xtarget ytarget rtarget : Fl) (npaths : ℕ) (duration umbra tol maxstep : Fl) (confined : Bool) :
    List (Aquifer Fl) → PField Fl → Option (PField Fl × Except PyErr Unit)
  | [], f => some (f, .ok ())
  | m :: ms, f =>
    match flCapturezone xtarget ytarget rtarget npaths duration f umbra ((1 : ℕ) : Fl) tol maxstep (m.backVelocity confined) with
    | none => none
    | some (f', .error e) => some (f', .error e)
    | some (f', .ok ()) => flZoneLoop xtarget ytarget rtarget npaths duration umbra tol maxstep confined ms f'

/-- `create_stochastic_capturezone` (oneka/stochastic.py:211-212, 220-270), given the models of the realizations; with a single model `create_deterministic_capturezone`
(oneka/deterministic.py:177-178, 227-235). `none`: never ends. -/
noncomputable def flZones (xtarget ytarget rtarget : Fl) (npaths : ℕ) (duration umbra spacing tol maxstep : Fl) (confined : Bool) (ms : List (Aquifer Fl)) :
    Option (Except PyErr (PField Fl)) :=
  match PField.new spacing spacing (some xtarget) (some ytarget) with
  | .error e => some (.error e)
  | .ok f0 =>
    match flZoneLoop xtarget ytarget rtarget npaths duration umbra tol maxstep confined ms f0 with
    | none => none
    | some (_, .error e) => some (.error e)
    | some (f, .ok ()) => some (.ok f)

end Oneka
