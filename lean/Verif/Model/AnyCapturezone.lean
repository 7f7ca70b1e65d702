import Verif.Py.RoundMath
import Verif.Model.BackVelocity
import Verif.Model.Backtrace
import Verif.Model.ProbabilityField

/-!
# `compute_capturezone` and its calls, for any kind of numbers

The code of `Model/FlCapturezone.lean` with the arithmetic left open, so that it can be run with binary64 numbers (C119). With numbers of 53 digits it is `flZones` (`zones_eq_flZones`).
-/

namespace Oneka

section
variable {F : Type} [Zero F] [Add F] [Sub F] [Mul F] [Div F] [Neg F] [NatCast F] [IntCast F] [LT F] [DecidableLT F] [LE F] [DecidableLE F] [DecidableEq F] [PyFloor F] [PyMath F]

/-- `np.linspace(0, 2*np.pi, npaths+1)[0:-1]` (oneka/capturezone.py:113; the function of numpy: `step = (b - a)/(n - 1)`; `arange(n)*step + a`; the last element, which is dropped here, is replaced by `b`). -/
def zoneAngles (npaths : ℕ) : List F :=
  ((List.range (npaths + 1)).map fun (k : ℕ) => if k + 1 = npaths + 1 ∧ 1 < npaths + 1 then ((2 : ℕ) : F) * PyMath.pi else (k : F) * ((((2 : ℕ) : F) * PyMath.pi - 0) / ((npaths + 1 - 1 : ℕ) : F)) + 0).dropLast

/-- The starting point for the angle `θ`; `STEPAWAY` is 1.0. (oneka/capturezone.py:110, 114-115) -/
def zoneStart (xtarget ytarget rtarget θ : F) : F × F :=
  ((rtarget + ((1 : ℕ) : F)) * PyMath.cos θ + xtarget, (rtarget + ((1 : ℕ) : F)) * PyMath.sin θ + ytarget)

/-- The loop over the starting angles. `none`: never ends. (oneka/capturezone.py:113-120) -/
def zonePaths (xtarget ytarget rtarget duration umbra tol maxstep : F) (feval : F × F → Except PyErr (F × F)) :
    List F → PField F → Option (PField F × Except PyErr Unit)
  | [], f => some (f, .ok ())
  | θ :: θs, f =>
    match computeBacktrace (zoneStart xtarget ytarget rtarget θ).1 (zoneStart xtarget ytarget rtarget θ).2 duration tol maxstep (fun _ => feval) with
    | none => none
    | some r =>
      match f.rasterize (r.vertices.map Prod.fst) (r.vertices.map Prod.snd) umbra with
      | none => none
      | some (f', .error e) => some (f', .error e)
      | some (f', .ok ()) => zonePaths xtarget ytarget rtarget duration umbra tol maxstep feval θs f'

/-- oneka/capturezone.py:51-123 `compute_capturezone`: the field after the call (it is modified in place), and whether it raised. -/
def zone (xtarget ytarget rtarget : F) (npaths : ℕ) (duration : F) (pfield : PField F) (umbra weight tol maxstep : F)
    (feval : F × F → Except PyErr (F × F)) : Option (PField F × Except PyErr Unit) :=
  match zonePaths xtarget ytarget rtarget duration umbra tol maxstep feval (zoneAngles npaths) pfield with
  | none => none
  | some (f, .error e) => some (f, .error e)
  | some (f, .ok ()) =>
    match f.register weight with
    | .error e => some (f, .error e)
    | .ok f' => some (f', .ok ())

/-- The calls of `compute_capturezone` that `create_stochastic_capturezone` makes on one field (oneka/stochastic.py:220, 259-265), one for each of the models `ms`. Simplified: the models
are given. -/
def zoneModels (xtarget ytarget rtarget : F) (npaths : ℕ) (duration umbra tol maxstep : F) (confined : Bool) :
    List (Aquifer F) → PField F → Option (PField F × Except PyErr Unit)
  | [], f => some (f, .ok ())
  | m :: ms, f =>
    match zone xtarget ytarget rtarget npaths duration f umbra ((1 : ℕ) : F) tol maxstep (m.backVelocity confined) with
    | none => none
    | some (f', .error e) => some (f', .error e)
    | some (f', .ok ()) => zoneModels xtarget ytarget rtarget npaths duration umbra tol maxstep confined ms f'

/-- `create_stochastic_capturezone` (oneka/stochastic.py:211-212, 220-270), given the models of the realizations; with a single model `create_deterministic_capturezone`
(oneka/deterministic.py:177-178, 227-235). `none`: never ends. -/
def zones (xtarget ytarget rtarget : F) (npaths : ℕ) (duration umbra spacing tol maxstep : F) (confined : Bool) (ms : List (Aquifer F)) :
    Option (Except PyErr (PField F)) :=
  match PField.new spacing spacing (some xtarget) (some ytarget) with
  | .error e => some (.error e)
  | .ok f0 =>
    match zoneModels xtarget ytarget rtarget npaths duration umbra tol maxstep confined ms f0 with
    | none => none
    | some (_, .error e) => some (.error e)
    | some (f, .ok ()) => some (.ok f)

end
end Oneka
