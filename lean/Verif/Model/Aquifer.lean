import Mathlib.LinearAlgebra.Matrix.Notation
import Mathlib.Data.Matrix.Mul
import Verif.Py.Num
import Verif.Py.Ext

/-!
# Model of oneka/model.py

`Model.compute_*` are written over any number type `F` (see `Verif/Py/Num.lean`) and used over ℝ and over `XR`.
`fit_regional_flow` is modelled for finite parameters and observations; the weighted system is over `XR`, because a division by a zero
standard deviation and the logarithm at a well are not finite.
-/

namespace Oneka

/-- A well tuple `(xw, yw, rw, qw)`, oneka/model.py:82-91. -/
structure Well (F : Type) where
  xw : F
  yw : F
  rw : F
  qw : F

/-- The attributes of a `Model`, oneka/model.py:179-187. The coefficient array (always of six entries, see `setCoef`) is a function on `Fin 6`. -/
structure Aquifer (F : Type) where
  base : F
  conductivity : F
  porosity : F
  thickness : F
  wells : List (Well F)
  xo : F
  yo : F
  coef : Fin 6 → F

section
variable {F : Type} [Add F] [Sub F] [Mul F] [Div F] [Neg F] [LT F] [DecidableLT F] [LE F] [DecidableLE F] [PyMath F]

/-- oneka/model.py:196 `np.reshape(coef, [6, ])`: ValueError unless there are exactly six entries. -/
def reshape6 (l : List F) : Except PyErr (Fin 6 → F) :=
  match l with
  | [a, b, c, d, e, f] => .ok ![a, b, c, d, e, f]
  | _ => .error .valueError

namespace Aquifer

/-- oneka/model.py:131-187 `Model.__init__` with an explicit coefficient list. -/
def new (base conductivity porosity thickness : F) (wells : List (Well F)) (xo yo : F) (coef : List F) :
    Except PyErr (Aquifer F) :=
  match reshape6 coef with
  | .error e => .error e
  | .ok c => .ok ⟨base, conductivity, porosity, thickness, wells, xo, yo, c⟩

/-- oneka/model.py:194-196, the setter `model.coef = …`. On failure the model is unchanged. -/
def setCoef (m : Aquifer F) (coef : List F) : Except PyErr (Aquifer F) :=
  match reshape6 coef with
  | .error e => .error e
  | .ok c => .ok { m with coef := c }

/-- the literal 0.07957747154594767 (oneka/model.py:264) as the binary64 number it denotes -/
def fourPiInv : ℚ := 5734161139222659 / 72057594037927936

/-- the literal 0.15915494309189535 (oneka/model.py:312, 313) as the binary64 number it denotes -/
def twoPiInv : ℚ := 5734161139222659 / 36028797018963968

/-- oneka/model.py:240-266 `compute_potential_wells_only`. -/
def potentialWells (m : Aquifer F) (x y : F) : F :=
  m.wells.foldl (fun potential well =>
    let dx := x - well.xw
    let dy := y - well.yw
    let r2 := dx * dx + dy * dy
    potential + well.qw * PyMath.log r2 * PyMath.q fourPiInv) (PyMath.q 0)

/-- oneka/model.py:207-237 `compute_potential`. -/
def potential (m : Aquifer F) (x y : F) : F :=
  let dx := x - m.xo
  let dy := y - m.yo
  (m.coef 0 * (dx * dx) + m.coef 1 * (dy * dy) + m.coef 2 * dx * dy + m.coef 3 * dx + m.coef 4 * dy + m.coef 5)
    + m.potentialWells x y

/-- oneka/model.py:269-315 `compute_discharge`. The arguments are numpy scalars (as in the tracer), so that a division by zero gives
inf or NaN; for Python floats exactly at a well it would raise ZeroDivisionError. -/
def discharge (m : Aquifer F) (x y : F) : F × F :=
  let dx := x - m.xo
  let dy := y - m.yo
  let Qx := -(PyMath.q 2 * m.coef 0 * dx + m.coef 2 * dy + m.coef 3)
  let Qy := -(PyMath.q 2 * m.coef 1 * dy + m.coef 2 * dx + m.coef 4)
  m.wells.foldl (fun Q well =>
    let dx := x - well.xw
    let dy := y - well.yw
    let r2 := dx * dx + dy * dy
    (Q.1 + (-well.qw) * dx / r2 * PyMath.q twoPiInv, Q.2 + (-well.qw) * dy / r2 * PyMath.q twoPiInv)) (Qx, Qy)

/-- oneka/model.py:318-350 `compute_head`. -/
def head (m : Aquifer F) (x y : F) : Except PyErr F :=
  let potential := m.potential x y
  if potential ≤ PyMath.q 0 then .error .aquiferError
  else if potential < PyMath.q (1/2) * m.conductivity * (m.thickness * m.thickness) then
    .ok (PyMath.sqrt (PyMath.q 2 * potential / m.conductivity))
  else
    .ok ((potential + PyMath.q (1/2) * m.conductivity * (m.thickness * m.thickness)) / (m.conductivity * m.thickness))

/-- oneka/model.py:353-389 `compute_velocity`. -/
def velocity (m : Aquifer F) (x y : F) : Except PyErr (F × F) :=
  let Q := m.discharge x y
  match m.head x y with
  | .error e => .error e
  | .ok head =>
    if head ≤ PyMath.q 0 then .error .aquiferError
    else if m.thickness < head then .ok (Q.1 / (m.thickness * m.porosity), Q.2 / (m.thickness * m.porosity))
    else .ok (Q.1 / (head * m.porosity), Q.2 / (head * m.porosity))

/-- oneka/model.py:392-427 `compute_velocity_confined`. -/
def velocityConfined (m : Aquifer F) (x y : F) : F × F :=
  let Q := m.discharge x y
  (Q.1 / (m.thickness * m.porosity), Q.2 / (m.thickness * m.porosity))

end Aquifer
end

/-! ## Fitting the regional flow -/

/-- An observation tuple `(x, y, z_ev, z_std)`, oneka/model.py:436-450. -/
structure Obs where
  x : ℝ
  y : ℝ
  z : ℝ
  std : ℝ

/-- `np.linalg.lstsq` and `np.linalg.inv` as used in oneka/model.py:598-604. A weighted system is the list of its rows
`(six regressors, response)`. They are parameters of the model; the contract they satisfy in exact arithmetic is `LinAlg.Correct`. Simplification:
if they return, the results are finite. -/
structure LinAlg where
  lstsq : List ((Fin 6 → XR) × XR) → Except PyErr (Fin 6 → ℝ)
  inv : Matrix (Fin 6) (Fin 6) XR → Except PyErr (Matrix (Fin 6) (Fin 6) ℝ)

/-- `WA.T @ WA` (oneka/model.py:604) for the list of rows of `WA`. -/
noncomputable def normalMatrix (rows : List (Fin 6 → XR)) : Matrix (Fin 6) (Fin 6) XR :=
  fun i j => rows.foldr (fun r s => r i * r j + s) (.fin 0)

namespace Aquifer

/-- oneka/model.py:551-559: expected value and standard deviation of the potential at an observation (first order, second moment). -/
noncomputable def fosm (m : Aquifer ℝ) (o : Obs) : Except PyErr (ℝ × ℝ) :=
  let head := o.z - m.base
  if m.thickness ≤ head then
    .ok (m.conductivity * m.thickness * (head - 1/2 * m.thickness), m.conductivity * m.thickness * o.std)
  else if 0 < head then
    .ok (1/2 * m.conductivity * (head ^ 2 + o.std ^ 2), m.conductivity * head * o.std)
  else .error .rangeError

/-- the same model over floats with inf and NaN (no code: the number type changes) (oneka/model.py:131-187: the same object) -/
def toX (m : Aquifer ℝ) : Aquifer XR :=
  ⟨.fin m.base, .fin m.conductivity, .fin m.porosity, .fin m.thickness,
    m.wells.map fun w => ⟨.fin w.xw, .fin w.yw, .fin w.rw, .fin w.qw⟩, .fin m.xo, .fin m.yo, fun i => .fin (m.coef i)⟩

/-- oneka/model.py:546-565: one row of the weighted system. The observations and parameters are Python floats. The regressors (563) are
a numpy array, so a zero standard deviation makes them inf or NaN. The response (565) is a numpy float if there are wells, because of `np.log`;
without wells it is a Python float, and a zero standard deviation raises ZeroDivisionError. -/
noncomputable def fitRow (m : Aquifer ℝ) (xo yo : ℝ) (o : Obs) : Except PyErr ((Fin 6 → XR) × XR) :=
  match m.fosm o with
  | .error e => .error e
  | .ok (potEv, potStd) =>
    let dx := o.x - xo
    let dy := o.y - yo
    if m.wells.isEmpty && decide (potStd = 0) then .error .zeroDivisionError
    else .ok (fun i => .fin ((![dx ^ 2, dy ^ 2, dx * dy, dx, dy, 1] : Fin 6 → ℝ) i) / .fin potStd,
      (.fin potEv - m.toX.potentialWells (.fin o.x) (.fin o.y)) / .fin potStd)

/-- oneka/model.py:497-567 `construct_fit`: the rows in order; the first bad observation raises. -/
noncomputable def constructFit (m : Aquifer ℝ) (xo yo : ℝ) : List Obs → Except PyErr (List ((Fin 6 → XR) × XR))
  | [] => .ok []
  | o :: os =>
    match m.fitRow xo yo o with
    | .error e => .error e
    | .ok r =>
      match m.constructFit xo yo os with
      | .error e => .error e
      | .ok rs => .ok (r :: rs)

/-- oneka/model.py:571-606 `compute_fit`. -/
noncomputable def computeFit (la : LinAlg) (rows : List ((Fin 6 → XR) × XR)) :
    Except PyErr ((Fin 6 → ℝ) × Matrix (Fin 6) (Fin 6) ℝ) :=
  match la.lstsq rows with
  | .error e => .error e
  | .ok ev =>
    match la.inv (normalMatrix (rows.map Prod.fst)) with
    | .error e => .error e
    | .ok cov => .ok (ev, cov)

/-- oneka/model.py:430-494 `fit_regional_flow`: the model afterwards, and the returned pair or the exception. -/
noncomputable def fitRegionalFlow (la : LinAlg) (m : Aquifer ℝ) (obs : List Obs) (xo yo : ℝ) :
    Aquifer ℝ × Except PyErr ((Fin 6 → ℝ) × Matrix (Fin 6) (Fin 6) ℝ) :=
  match m.constructFit xo yo obs with
  | .error e => (m, .error e)
  | .ok rows =>
    match computeFit la rows with
    | .error e => (m, .error e)
    | .ok (ev, cov) => ({ m with xo := xo, yo := yo, coef := ev }, .ok (ev, cov))

end Aquifer

end Oneka
