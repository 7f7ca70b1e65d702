import Verif.Spec.CaptureExact
import Verif.Spec.Oneka

/-!
# Vocabulary for the flag `confined`
-/

namespace Oneka

/-- At the place `p` the aquifer is confined: the head is positive, and not below the thickness. -/
def Aquifer.ConfinedAt (m : Aquifer ℝ) (p : XR × XR) : Prop := ∃ h : ℝ, m.toX.head p.1 p.2 = .ok (.fin h) ∧ 0 < h ∧ m.thickness ≤ h

open Classical in
/-- The reversed velocities of a confined aquifer, interrupted as before, but raising where the aquifer is not confined. -/
noncomputable def Aquifer.confinedOnly (m : Aquifer ℝ) (interrupt : ℕ → Option PyErr) (n : ℕ) (p : XR × XR) : Except PyErr (XR × XR) :=
  if m.ConfinedAt p then
    match interrupt n with
    | some e => .error e
    | none => m.toX.reverseVelocity true p
  else .error .aquiferError

/-- The `k`-th trace of the run `a`, with the model `m`, up to where the velocity at a place would be needed where the aquifer is not confined. -/
noncomputable def Aquifer.confinedTrace (m : Aquifer ℝ) (a : RunArgs) (t : SWell) (interrupt : ℕ → ℕ → Option PyErr) (k : ℕ) : Option (Trace XR) :=
  computeBacktrace (.fin (t.start a.npaths k).1) (.fin (t.start a.npaths k).2) a.duration a.tol a.maxstep (m.confinedOnly (interrupt k))

/-- The same call with the other value of `confined`. -/
def Inputs.otherwise (n : Inputs) : Inputs := { n with run := { n.run with confined := !n.run.confined } }

end Oneka
