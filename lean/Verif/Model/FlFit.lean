import Verif.Model.Aquifer
import Verif.Model.FlUtilities
import Verif.Py.RoundMath

/-!
# Model of `fit_regional_flow` in floating-point arithmetic (oneka/model.py:430-606)

As the second part of `Aquifer.lean`, with every operation of `construct_fit` rounded. `lstsq`, `matmul` and `inv` come from numpy and are arbitrary functions here.
-/

namespace Oneka

/-- numpy's linear algebra on matrices of floats (oneka/model.py:598-604): `lstsq` takes the rows of the weighted system, `normal` is `matmul(WA.T, WA)`. Simplification: if they return, the results are finite. -/
structure FlLinAlg where
  lstsq : List ((Fin 6 → Fl) × Fl) → Except PyErr (Fin 6 → Fl)
  normal : List (Fin 6 → Fl) → Matrix (Fin 6) (Fin 6) Fl
  inv : Matrix (Fin 6) (Fin 6) Fl → Except PyErr (Matrix (Fin 6) (Fin 6) Fl)

namespace Aquifer

variable [LibM] [LibObs]

/-- oneka/model.py:551-559: expected value and standard deviation of the potential at an observation. -/
noncomputable def flFosm (m : Aquifer Fl) (o : FlObs) : Except PyErr (Fl × Fl) :=
  let head := o.z - m.base
  if m.thickness ≤ head then
    .ok (m.conductivity * m.thickness * (head - PyMath.q (1/2) * m.thickness), m.conductivity * m.thickness * o.std)
  else if 0 < head.val then
    .ok (PyMath.q (1/2) * m.conductivity * (LibObs.square head + LibObs.square o.std), m.conductivity * head * o.std)
  else .error .rangeError

/-- oneka/model.py:546-565: one row of the weighted system. A zero standard deviation raises ZeroDivisionError without wells; simplification: with wells the row, which has an inf or NaN then, is not modelled
(these floats are finite). -/
noncomputable def flFitRow (m : Aquifer Fl) (xo yo : Fl) (o : FlObs) : Except PyErr ((Fin 6 → Fl) × Fl) :=
  match m.flFosm o with
  | .error e => .error e
  | .ok (potEv, potStd) =>
    let dx := o.x - xo
    let dy := o.y - yo
    if m.wells.isEmpty && decide (potStd.val = 0) then .error .zeroDivisionError
    else .ok (fun i => (![LibObs.square dx, LibObs.square dy, dx * dy, dx, dy, ((1 : ℕ) : Fl)] : Fin 6 → Fl) i / potStd, (potEv - m.potentialWells o.x o.y) / potStd)

/-- oneka/model.py:497-567 `construct_fit`. -/
noncomputable def flConstructFit (m : Aquifer Fl) (xo yo : Fl) : List FlObs → Except PyErr (List ((Fin 6 → Fl) × Fl))
  | [] => .ok []
  | o :: os =>
    match m.flFitRow xo yo o with
    | .error e => .error e
    | .ok r =>
      match m.flConstructFit xo yo os with
      | .error e => .error e
      | .ok rs => .ok (r :: rs)

/-- oneka/model.py:430-494 `fit_regional_flow` with `compute_fit` (571-606): the model afterwards, and the returned pair or the exception. -/
noncomputable def flFitRegionalFlow (la : FlLinAlg) (m : Aquifer Fl) (obs : List FlObs) (xo yo : Fl) : Aquifer Fl × Except PyErr ((Fin 6 → Fl) × Matrix (Fin 6) (Fin 6) Fl) :=
  match m.flConstructFit xo yo obs with
  | .error e => (m, .error e)
  | .ok rows =>
    match la.lstsq rows with
    | .error e => (m, .error e)
    | .ok ev =>
      match la.inv (la.normal (rows.map Prod.fst)) with
      | .error e => (m, .error e)
      | .ok cov => ({ m with xo := xo, yo := yo, coef := ev }, .ok (ev, cov))

end Aquifer

end Oneka
