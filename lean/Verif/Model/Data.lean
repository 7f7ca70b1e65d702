import Mathlib.Data.Rat.Cast.Defs
import Verif.Model.Oneka

/-!
# Data modules

A data module (data/*.py) is a list of assignments of literals to eighteen names. Simplification: float literals are the decimal numbers that are written.
-/

namespace Oneka

/-- a number literal, e.g. data/basic.py:3-20 -/
inductive Lit
  | int (n : ℤ)
  | flt (q : ℚ)
deriving DecidableEq

/-- a distribution literal, e.g. data/basic.py:9-11: a number or a tuple -/
inductive LitDist
  | num (l : Lit)
  | tup (l : List Lit)
deriving DecidableEq

/-- a well literal `(xw, yw, rw, q_dist)`, e.g. data/basic.py:23 -/
structure LitWell where
  xw : Lit
  yw : Lit
  rw : Lit
  q : LitDist

/-- an observation literal `(x, y, z_ev, z_std)`, e.g. data/basic.py:28 -/
structure LitObs where
  x : Lit
  y : Lit
  z : Lit
  std : Lit

/-- a data module, e.g. data/basic.py (data/basic.py:1-53) -/
structure DataSet where
  projectname : String
  target : ℤ
  npaths : ℤ
  duration : Lit
  nrealizations : ℤ
  base : Lit
  cDist : LitDist
  pDist : LitDist
  tDist : LitDist
  wells : List LitWell
  observations : List LitObs
  buffer : Lit
  spacing : Lit
  umbra : Lit
  smooth : Lit
  confined : Bool
  tol : Lit
  maxstep : Lit

/-- the Python object of a number literal; no code (data/basic.py:3-20) -/
noncomputable def Lit.py : Lit → PyVal
  | .int n => .int n
  | .flt q => .float (.fin (q : ℝ))

/-- the Python object of a distribution literal; no code (data/basic.py:9-11) -/
noncomputable def LitDist.py : LitDist → PyVal
  | .num l => l.py
  | .tup l => .tuple (l.map Lit.py)

/-- the Python tuple of a well literal; no code (data/basic.py:23) -/
noncomputable def LitWell.py (w : LitWell) : PyVal := .tuple [w.xw.py, w.yw.py, w.rw.py, w.q.py]

/-- the Python tuple of an observation literal; no code (data/basic.py:28) -/
noncomputable def LitObs.py (o : LitObs) : PyVal := .tuple [o.x.py, o.y.py, o.z.py, o.std.py]

/-- The attributes of the imported module (data/basic.py:1-53 and so on). -/
noncomputable def DataSet.attrs (d : DataSet) : String → Option PyVal
  | "PROJECTNAME" => some (.str d.projectname)
  | "TARGET" => some (.int d.target)
  | "NPATHS" => some (.int d.npaths)
  | "DURATION" => some d.duration.py
  | "NREALIZATIONS" => some (.int d.nrealizations)
  | "BASE" => some d.base.py
  | "C_DIST" => some d.cDist.py
  | "P_DIST" => some d.pDist.py
  | "T_DIST" => some d.tDist.py
  | "WELLS" => some (.list (d.wells.map LitWell.py))
  | "OBSERVATIONS" => some (.list (d.observations.map LitObs.py))
  | "BUFFER" => some d.buffer.py
  | "SPACING" => some d.spacing.py
  | "UMBRA" => some d.umbra.py
  | "SMOOTH" => some d.smooth.py
  | "CONFINED" => some (.bool d.confined)
  | "TOL" => some d.tol.py
  | "MAXSTEP" => some d.maxstep.py
  | _ => none

end Oneka
