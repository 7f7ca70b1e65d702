import Verif.Spec.CaptureExact
import Verif.Spec.Oneka

/-!
# Vocabulary for wells that neither pump nor inject
-/

namespace Oneka

/-- The model with one more well, at `(x, y)` with radius `r`, that neither pumps nor injects. -/
def Aquifer.withIdle (m : Aquifer ℝ) (x y r : ℝ) : Aquifer ℝ := { m with wells := m.wells ++ [⟨x, y, r, 0⟩] }

/-- The call with one more well at the end of the list, whose discharge is the number 0. -/
def Inputs.withIdle (n : Inputs) (x y r : ℝ) : Inputs := { n with run := { n.run with wells := n.run.wells ++ [⟨x, y, r, .const 0⟩] } }

/-- The environment for a call with one more well after the first `k`: all other draws are the same. (The number 0 needs no draw.) -/
def CallEnv.withIdle (env : CallEnv) (k : ℕ) : CallEnv := { env with run := { env.run with u := fun i j => if j < k then env.run.u i j else env.run.u i (j - 1) } }

/-- `p` is a place, other than `(x, y)`. -/
def Elsewhere (x y : ℝ) (p : XR × XR) : Prop := ∃ q : ℝ × ℝ, p = (.fin q.1, .fin q.2) ∧ q ≠ (x, y)

open Classical in
/-- The reversed velocities, interrupted as before, but raising at `(x, y)` (and where a coordinate is infinite or not a number). -/
noncomputable def Aquifer.elsewhereOnly (m : Aquifer ℝ) (confined : Bool) (x y : ℝ) (interrupt : ℕ → Option PyErr) (n : ℕ) (p : XR × XR) : Except PyErr (XR × XR) :=
  if Elsewhere x y p then
    match interrupt n with
    | some e => .error e
    | none => m.toX.reverseVelocity confined p
  else .error .aquiferError

/-- The `k`-th trace of the run `a`, with the model `m`, up to where the velocity at `(x, y)` would be needed. -/
noncomputable def Aquifer.elsewhereTrace (m : Aquifer ℝ) (a : RunArgs) (t : SWell) (x y : ℝ) (interrupt : ℕ → ℕ → Option PyErr) (k : ℕ) : Option (Trace XR) :=
  computeBacktrace (.fin (t.start a.npaths k).1) (.fin (t.start a.npaths k).2) a.duration a.tol a.maxstep (m.elsewhereOnly a.confined x y (interrupt k))

end Oneka
