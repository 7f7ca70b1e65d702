import Verif.Model.Stochastic
import Verif.Spec.Aquifer
import Verif.Spec.Field

/-!
# Vocabulary for the properties of whole runs
-/

namespace Oneka

/-- `m` is a model with the given base whose parameters come from `q` (`q d j`: the value that the `j`-th distribution takes: wells first, then conductivity, porosity, thickness);
its origin and its coefficients have not been set. -/
structure DrawnModel (a : RunArgs) (q : Dist → ℕ → Except PyErr ℝ) (m : Aquifer ℝ) : Prop where
  base : m.base = a.base
  wells_length : m.wells.length = a.wells.length
  wells : ∀ (j : ℕ) (w : SWell), a.wells[j]? = some w → ∃ d, m.wells[j]? = some ⟨w.xw, w.yw, w.rw, d⟩ ∧ q w.q j = .ok d
  conductivity : q a.cDist a.wells.length = .ok m.conductivity
  porosity : q a.pDist (a.wells.length + 1) = .ok m.porosity
  thickness : q a.tDist (a.wells.length + 2) = .ok m.thickness
  origin : m.xo = 0 ∧ m.yo = 0
  coef : m.coef = fun _ => 0

/-- Drawing one of the parameters raises `e`. -/
def DrawFails (a : RunArgs) (q : Dist → ℕ → Except PyErr ℝ) (e : PyErr) : Prop :=
  (∃ (j : ℕ) (w : SWell), a.wells[j]? = some w ∧ q w.q j = .error e) ∨ q a.cDist a.wells.length = .error e ∨
  q a.pDist (a.wells.length + 1) = .error e ∨ q a.tDist (a.wells.length + 2) = .error e

/-- `L` is a faithful realization of the run `a` around the well `t`: the parameters of its model come from `q` (`q d j`: the value
that the `j`-th distribution takes), the origin is the target, the coefficients come from its own fit through `coefs`, and its traces are the traces of
its own reversed velocity, from equally spaced starts around the target. `interrupt k n`: an exception that hits the `n`-th velocity evaluation of the `k`-th trace. -/
structure Realized (a : RunArgs) (la : LinAlg) (t : SWell) (q : Dist → ℕ → Except PyErr ℝ)
    (coefs : (Fin 6 → ℝ) → Matrix (Fin 6) (Fin 6) ℝ → Except PyErr (Fin 6 → ℝ)) (interrupt : ℕ → ℕ → Option PyErr)
    (L : RealizationLog) : Prop where
  base : L.model.base = a.base
  wells_length : L.model.wells.length = a.wells.length
  wells : ∀ (j : ℕ) (w : SWell), a.wells[j]? = some w →
    ∃ d, L.model.wells[j]? = some ⟨w.xw, w.yw, w.rw, d⟩ ∧ q w.q j = .ok d
  conductivity : q a.cDist a.wells.length = .ok L.model.conductivity
  porosity : q a.pDist (a.wells.length + 1) = .ok L.model.porosity
  thickness : q a.tDist (a.wells.length + 2) = .ok L.model.thickness
  origin : L.model.xo = t.xw ∧ L.model.yo = t.yw
  /-- fitting the very model that was traced to the observations gives the logged expectation and covariance -/
  fit : (L.model.fitRegionalFlow la a.obs t.xw t.yw).2 = .ok (L.ev, L.cov)
  coef : coefs L.ev L.cov = .ok L.model.coef
  traces_length : L.traces.length = a.npaths.toNat
  traces : ∀ (k : ℕ) (tr : Trace XR), L.traces[k]? = some tr →
    computeBacktrace (.fin (t.xw + (t.rw + 1) * Real.cos (2 * Real.pi * k / a.npaths)))
      (.fin (t.yw + (t.rw + 1) * Real.sin (2 * Real.pi * k / a.npaths))) a.duration a.tol a.maxstep
      (fun n p => match interrupt k n with
        | some e => .error e
        | none => L.model.toX.reverseVelocity a.confined p) = some tr

/-- `L` is what a realization of the run `a` has logged that hangs in the trace number `L.traces.length`: as `Realized`, but with fewer than `npaths` traces, and the next one never ends. -/
structure Stalled (a : RunArgs) (la : LinAlg) (t : SWell) (q : Dist → ℕ → Except PyErr ℝ)
    (coefs : (Fin 6 → ℝ) → Matrix (Fin 6) (Fin 6) ℝ → Except PyErr (Fin 6 → ℝ)) (interrupt : ℕ → ℕ → Option PyErr)
    (L : RealizationLog) : Prop where
  base : L.model.base = a.base
  wells_length : L.model.wells.length = a.wells.length
  wells : ∀ (j : ℕ) (w : SWell), a.wells[j]? = some w →
    ∃ d, L.model.wells[j]? = some ⟨w.xw, w.yw, w.rw, d⟩ ∧ q w.q j = .ok d
  conductivity : q a.cDist a.wells.length = .ok L.model.conductivity
  porosity : q a.pDist (a.wells.length + 1) = .ok L.model.porosity
  thickness : q a.tDist (a.wells.length + 2) = .ok L.model.thickness
  origin : L.model.xo = t.xw ∧ L.model.yo = t.yw
  fit : (L.model.fitRegionalFlow la a.obs t.xw t.yw).2 = .ok (L.ev, L.cov)
  coef : coefs L.ev L.cov = .ok L.model.coef
  traces_length : (L.traces.length : ℤ) < a.npaths
  traces : ∀ k : ℕ, k ≤ L.traces.length →
    computeBacktrace (.fin (t.xw + (t.rw + 1) * Real.cos (2 * Real.pi * k / a.npaths)))
      (.fin (t.yw + (t.rw + 1) * Real.sin (2 * Real.pi * k / a.npaths))) a.duration a.tol a.maxstep
      (fun n p => match interrupt k n with
        | some e => .error e
        | none => L.model.toX.reverseVelocity a.confined p) = L.traces[k]?

/-- One of the traces of the realization passes strictly within `u` of `(X, Y)`. -/
def RealizationLog.Captures (L : RealizationLog) (u X Y : ℝ) : Prop := ∃ tr ∈ L.traces, NearTrack tr.path u X Y

end Oneka
