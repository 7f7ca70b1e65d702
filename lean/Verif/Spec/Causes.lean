import Verif.Spec.Oneka
import Verif.Spec.Run
import Verif.Spec.Aquifer

/-!
# Vocabulary for the reasons of failing
-/

namespace Oneka

/-- One of the traces of the realization never returns: the parameters are drawn with `q`, the model is fitted, the coefficients come from the fit through `coefs`, and the trace number `k`
of the fitted model runs forever. -/
def EndlessTrace (a : RunArgs) (la : LinAlg) (t : SWell) (q : Dist → ℕ → Except PyErr ℝ)
    (coefs : (Fin 6 → ℝ) → Matrix (Fin 6) (Fin 6) ℝ → Except PyErr (Fin 6 → ℝ)) (interrupt : ℕ → ℕ → Option PyErr) : Prop :=
  ∃ m ev cov c, DrawnModel a q m ∧ (m.fitRegionalFlow la a.obs t.xw t.yw).2 = .ok (ev, cov) ∧ coefs ev cov = .ok c ∧
    ∃ k : ℕ, (k : ℤ) < a.npaths ∧
      computeBacktrace (.fin (t.xw + (t.rw + 1) * Real.cos (2 * Real.pi * k / a.npaths)))
        (.fin (t.yw + (t.rw + 1) * Real.sin (2 * Real.pi * k / a.npaths))) a.duration a.tol a.maxstep
        (fun n p => match interrupt k n with
          | some e => .error e
          | none => ({ m with xo := t.xw, yo := t.yw, coef := c } : Aquifer ℝ).toX.reverseVelocity a.confined p) = none

/-- One of the traces of the run never returns. -/
def EndlessRun (n : Inputs) (obs : List Obs) (env : Env) (t : SWell) : Prop :=
  if 1 < n.nrealizations then ∃ i : ℕ, (i : ℤ) < n.nrealizations ∧
    EndlessTrace { n.run with obs := obs } env.la t (fun d j => d.sample (env.u i j)) (env.mvn i) (env.interrupt i)
  else EndlessTrace { n.run with obs := obs } env.la t (fun d _ => d.mean) (fun ev _ => .ok ev) (env.interrupt 0)

/-- What can go wrong with a call whose arguments are accepted: fewer than seven observations are retained; a retained head is at or below the base; the retained
observations lie on one conic; the coefficients cannot be drawn (stochastic runs only); the archive cannot be opened or written. -/
inductive Failure (n : Inputs) (obs : List Obs) (env : CallEnv) : PyErr → Prop
  | few : obs.length ≤ 6 → Failure n obs env .assertionError
  | dry (o : Obs) : o ∈ obs → o.z ≤ n.run.base → Failure n obs env .rangeError
  | conic : OnOneConic obs → Failure n obs env .linAlgError
  | coefficients (i : ℕ) (ev : Fin 6 → ℝ) (cov : Matrix (Fin 6) (Fin 6) ℝ) (e : PyErr) : 1 < n.nrealizations → (i : ℤ) < n.nrealizations →
      env.run.mvn i ev cov = .error e → Failure n obs env e
  | opening (e : PyErr) : env.openError = some e → Failure n obs env e
  | writing (e : PyErr) : env.openError = none → env.writeError = some e → Failure n obs env e

end Oneka
