import Verif.Spec.CaptureExact
import Verif.Spec.Oneka

/-!
# Vocabulary for wells at the same place
-/

namespace Oneka

open Classical in
/-- The sum of the discharges of all wells at `(x, y)`. -/
noncomputable def pumpedAt (ws : List (Well ℝ)) (x y : ℝ) : ℝ := ((ws.filter fun w => (w.xw, w.yw) = (x, y)).map Well.qw).sum

/-- At every place the two lists of wells discharge the same in sum. -/
def SamePumping (ws ws' : List (Well ℝ)) : Prop := ∀ x y, pumpedAt ws' x y = pumpedAt ws x y

/-- The model with other wells. -/
def Aquifer.withWells (m : Aquifer ℝ) (ws : List (Well ℝ)) : Aquifer ℝ := { m with wells := ws }

/-- `p` is a place at which there is none of the wells. -/
def Unoccupied (ws : List (Well ℝ)) (p : XR × XR) : Prop := ∃ q : ℝ × ℝ, p = (.fin q.1, .fin q.2) ∧ ∀ w ∈ ws, q ≠ (w.xw, w.yw)

open Classical in
/-- The reversed velocities, interrupted as before, but raising at the wells `ws` (and where a coordinate is infinite or not a number). -/
noncomputable def Aquifer.awayOnly (m : Aquifer ℝ) (confined : Bool) (ws : List (Well ℝ)) (interrupt : ℕ → Option PyErr) (n : ℕ) (p : XR × XR) : Except PyErr (XR × XR) :=
  if Unoccupied ws p then
    match interrupt n with
    | some e => .error e
    | none => m.toX.reverseVelocity confined p
  else .error .aquiferError

/-- The `k`-th trace of the run `a`, with the model `m`, up to where the velocity at one of the wells `ws` would be needed. -/
noncomputable def Aquifer.awayTrace (m : Aquifer ℝ) (a : RunArgs) (t : SWell) (ws : List (Well ℝ)) (interrupt : ℕ → ℕ → Option PyErr) (k : ℕ) : Option (Trace XR) :=
  computeBacktrace (.fin (t.start a.npaths k).1) (.fin (t.start a.npaths k).2) a.duration a.tol a.maxstep (m.awayOnly a.confined ws (interrupt k))

/-- The two calls differ only in the wells, in which of them is the target, and in what does not matter anyway (C139): the targets are at the same place and have the same radius, and of the observations the same are retained. -/
structure Inputs.SameButWells (n n' : Inputs) : Prop where
  nrealizations : n'.nrealizations = n.nrealizations
  run : { n'.run with obs := [], wells := [], target := 0 } = { n.run with obs := [], wells := [], target := 0 }
  retained : filterObs n'.run.obs (n'.run.wells.map fun w => (w.xw, w.yw)) n'.buffer = filterObs n.run.obs (n.run.wells.map fun w => (w.xw, w.yw)) n.buffer
  target : ∀ (k k' : ℕ) (t t' : SWell), n.run.target = k → n.run.wells[k]? = some t → n'.run.target = k' → n'.run.wells[k']? = some t' → t'.xw = t.xw ∧ t'.yw = t.yw ∧ t'.rw = t.rw

/-- What the realization `L'` has drawn is the same water as what `L` has drawn: conductivity, porosity and thickness, and at every place the sum of the discharges. -/
structure RealizationLog.SameWater (L L' : RealizationLog) : Prop where
  conductivity : L'.model.conductivity = L.model.conductivity
  porosity : L'.model.porosity = L.model.porosity
  thickness : L'.model.thickness = L.model.thickness
  wells : SamePumping L.model.wells L'.model.wells

end Oneka
