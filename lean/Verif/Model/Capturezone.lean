import Verif.Model.Backtrace
import Verif.Py.Ext
import Verif.Model.ProbabilityField
import Mathlib.Algebra.Order.Archimedean.Basic
import Mathlib.Algebra.Order.Archimedean.Real.Basic

/-!
# Model of `compute_capturezone` (oneka/capturezone.py:51-123)

The tracer runs over `XR`: the velocity function may return inf or NaN, and the duration and the tolerances may be any floats. The target, the
umbra and the field are finite.
-/

namespace Oneka

namespace XR

/-- the number itself if finite (`0` otherwise: never used, see `Trace.path`) (oneka/capturezone.py:118-119) -/
def toReal : XR → ℝ
  | fin r => r
  | _ => 0

@[simp] theorem toReal_fin (r : ℝ) : (fin r).toReal = r := rfl

end XR

/-- The vertices of a trace as handed to the probability field. All vertices of a trace from a finite starting point are finite
(`C26_finite`), so nothing is lost here. (oneka/capturezone.py:118-119) -/
def Trace.path (t : Trace XR) : List (ℝ × ℝ) := t.vertices.map fun v => (v.1.toReal, v.2.toReal)

/-- What a call of `compute_capturezone` does. (oneka/capturezone.py:112-123) -/
structure CZResult where
  /-- the probability field after the call (it is modified in place) -/
  field : PField ℝ
  /-- returned or raised -/
  outcome : Except PyErr Unit
  /-- ghost: the traces computed, in order -/
  traces : List (Trace XR)

/-- oneka/capturezone.py:113 `np.linspace(0, 2*np.pi, npaths+1)[0:-1]`: ValueError if `npaths+1 < 0`, otherwise the values
`i*(2π/npaths) + 0` for `i = 0, …, npaths-1` (none for `npaths = -1` and, the slice of one value being empty, for `npaths = 0`). -/
noncomputable def startAngles (npaths : ℤ) : Except PyErr (List ℝ) :=
  if npaths + 1 < 0 then .error .valueError
  else .ok ((List.range npaths.toNat).map fun (i : ℕ) => (i : ℝ) * (2 * Real.pi / (npaths : ℝ)))

/-- oneka/capturezone.py:113-120: the loop over the starting angles. `feval i` is the velocity function as it behaves during the
`i`-th trace. `none`: never ends. -/
noncomputable def captureLoop (xtarget ytarget rtarget : ℝ) (duration : XR) (umbra : ℝ) (tol maxstep : XR)
    (feval : ℕ → ℕ → XR × XR → Except PyErr (XR × XR)) :
    List ℝ → ℕ → PField ℝ → List (Trace XR) → Option CZResult
  | [], _, f, acc => some ⟨f, .ok (), acc⟩
  | θ :: θs, i, f, acc =>
    match computeBacktrace (.fin ((rtarget + 1) * Real.cos θ + xtarget)) (.fin ((rtarget + 1) * Real.sin θ + ytarget))
        duration tol maxstep (feval i) with
    | none => none
    | some r =>
      match f.rasterize (r.path.map Prod.fst) (r.path.map Prod.snd) umbra with
      | none => none
      | some (f', .error e) => some ⟨f', .error e, acc ++ [r]⟩
      | some (f', .ok ()) =>
        captureLoop xtarget ytarget rtarget duration umbra tol maxstep feval θs (i + 1) f' (acc ++ [r])

/-- oneka/capturezone.py:51-123 `compute_capturezone`. -/
noncomputable def computeCapturezone (xtarget ytarget rtarget : ℝ) (npaths : ℤ) (duration : XR) (pfield : PField ℝ)
    (umbra weight : ℝ) (tol maxstep : XR) (feval : ℕ → ℕ → XR × XR → Except PyErr (XR × XR)) : Option CZResult :=
  match startAngles npaths with
  | .error e => some ⟨pfield, .error e, []⟩
  | .ok θs =>
    match captureLoop xtarget ytarget rtarget duration umbra tol maxstep feval θs 0 pfield [] with
    | none => none
    | some ⟨f, .error e, ts⟩ => some ⟨f, .error e, ts⟩
    | some ⟨f, .ok (), ts⟩ =>
      match f.register weight with
      | .error e => some ⟨f, .error e, ts⟩
      | .ok f' => some ⟨f', .ok (), ts⟩

/-- oneka/capturezone.py:113-120: the traces that the loop over the starting angles completes before it runs into one that never ends. The same loop as `captureLoop`;
used only if that one is `none`. -/
noncomputable def completedTraces (xtarget ytarget rtarget : ℝ) (duration : XR) (umbra : ℝ) (tol maxstep : XR)
    (feval : ℕ → ℕ → XR × XR → Except PyErr (XR × XR)) : List ℝ → ℕ → PField ℝ → List (Trace XR)
  | [], _, _ => []
  | θ :: θs, i, f =>
    match computeBacktrace (.fin ((rtarget + 1) * Real.cos θ + xtarget)) (.fin ((rtarget + 1) * Real.sin θ + ytarget))
        duration tol maxstep (feval i) with
    | none => []
    | some r =>
      match f.rasterize (r.path.map Prod.fst) (r.path.map Prod.snd) umbra with
      | some (f', .ok ()) => r :: completedTraces xtarget ytarget rtarget duration umbra tol maxstep feval θs (i + 1) f'
      | _ => [r]

/-- oneka/capturezone.py:51-123: the traces that a call of `compute_capturezone` that never returns has completed. -/
noncomputable def endlessTraces (xtarget ytarget rtarget : ℝ) (npaths : ℤ) (duration : XR) (pfield : PField ℝ)
    (umbra : ℝ) (tol maxstep : XR) (feval : ℕ → ℕ → XR × XR → Except PyErr (XR × XR)) : List (Trace XR) :=
  match startAngles npaths with
  | .error _ => []
  | .ok θs => completedTraces xtarget ytarget rtarget duration umbra tol maxstep feval θs 0 pfield

end Oneka
