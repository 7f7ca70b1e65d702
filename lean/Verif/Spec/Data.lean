import Verif.Model.Data
import Verif.Spec.Oneka

/-!
# What the constants of a data module mean
-/

namespace Oneka

/-- the number that a literal denotes -/
def Lit.val : Lit → ℚ
  | .int n => n
  | .flt q => q

/-- the distribution that a literal denotes -/
noncomputable def LitDist.dist : LitDist → Dist
  | .num l => .const l.val
  | .tup l => .tuple (l.map fun x => (x.val : ℝ))

/-- the well that a tuple denotes -/
noncomputable def LitWell.well (w : LitWell) : SWell := ⟨w.xw.val, w.yw.val, w.rw.val, w.q.dist⟩

/-- the observation that a tuple denotes -/
noncomputable def LitObs.obs (o : LitObs) : Obs := ⟨o.x.val, o.y.val, o.z.val, o.std.val⟩

/-- the inputs that the constants of a data module denote -/
noncomputable def DataSet.inputs (d : DataSet) : Inputs where
  run := {
    target := d.target
    npaths := d.npaths
    duration := .fin d.duration.val
    base := d.base.val
    cDist := d.cDist.dist
    pDist := d.pDist.dist
    tDist := d.tDist.dist
    wells := d.wells.map LitWell.well
    obs := d.observations.map LitObs.obs
    spacing := d.spacing.val
    umbra := d.umbra.val
    confined := d.confined
    tol := .fin d.tol.val
    maxstep := .fin d.maxstep.val }
  nrealizations := d.nrealizations
  buffer := d.buffer.val
  smooth := d.smooth.val

/-- the arguments of the call -/
noncomputable def DataSet.args (d : DataSet) (runtime : String) : PyArgs where
  projectname := .str d.projectname
  runtime := .str runtime
  target := .int d.target
  npaths := .int d.npaths
  duration := d.duration.py
  nrealizations := .int d.nrealizations
  base := d.base.py
  cDist := d.cDist.py
  pDist := d.pDist.py
  tDist := d.tDist.py
  wells := .list (d.wells.map LitWell.py)
  observations := .list (d.observations.map LitObs.py)
  buffer := d.buffer.py
  spacing := d.spacing.py
  umbra := d.umbra.py
  smooth := d.smooth.py
  confined := .bool d.confined
  tol := d.tol.py
  maxstep := d.maxstep.py

/-- the observations farther than the buffer from all wells -/
def DataSet.kept (d : DataSet) : List LitObs :=
  d.observations.filter fun o => d.wells.all fun w =>
    decide (d.buffer.val ^ 2 < (o.x.val - w.xw.val) ^ 2 + (o.y.val - w.yw.val) ^ 2)

end Oneka
