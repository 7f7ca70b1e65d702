import Verif.Spec.Oneka
import Verif.Spec.RunReach
import Verif.Model.Oneka

/-!
# Other axes

What it means for inputs, results and log entries that the `y` axis points the other way, or that the two axes are exchanged. (Quarter turns, half turns and the other reflections are composed of these two.)
-/

namespace Oneka

/-- A change of the axes: the `y` axis reversed, or the two axes exchanged. -/
inductive Turn
  | mirror
  | swap

namespace Turn

/-- The coordinates of a point with the other axes. -/
def pt {F : Type} [Neg F] : Turn → F × F → F × F
  | .mirror, p => (p.1, -p.2)
  | .swap, p => (p.2, p.1)

/-- Which of the monomials `x², y², xy, x, y, 1` takes the place of which. -/
def index : Turn → Fin 6 → Fin 6
  | .mirror => id
  | .swap => ![1, 0, 2, 4, 3, 5]

/-- The sign with which it does. -/
def sign : Turn → Fin 6 → ℝ
  | .mirror => ![1, 1, -1, 1, -1, 1]
  | .swap => fun _ => 1

/-- The six coefficients of the same quadratic function with the other axes. -/
def coef (σ : Turn) (c : Fin 6 → ℝ) : Fin 6 → ℝ := fun i => σ.sign i * c (σ.index i)

/-- Their covariances. -/
def cov (σ : Turn) (c : Matrix (Fin 6) (Fin 6) ℝ) : Matrix (Fin 6) (Fin 6) ℝ := fun i j => σ.sign i * σ.sign j * c (σ.index i) (σ.index j)

/-- Of the `n` points evenly spaced around the well, counted from the `x` axis towards the `y` axis: the point that is number `k` with the other axes. -/
def start (n : ℕ) : Turn → ℕ → ℕ
  | .mirror, k => (n - k) % n
  | .swap, k => (n + n / 4 - k) % n

/-- The `n` points are the same with the other axes: always if an axis is reversed, if `n` is a multiple of 4 for the exchange. -/
def Fits (n : ℤ) : Turn → Prop
  | .mirror => True
  | .swap => 4 ∣ n

end Turn

/-- The same observation. -/
noncomputable def Obs.turn (σ : Turn) (o : Obs) : Obs := { o with x := (σ.pt (o.x, o.y)).1, y := (σ.pt (o.x, o.y)).2 }

/-- The same well. -/
noncomputable def SWell.turn (σ : Turn) (w : SWell) : SWell := { w with xw := (σ.pt (w.xw, w.yw)).1, yw := (σ.pt (w.xw, w.yw)).2 }

/-- The same well. -/
noncomputable def Well.turn (σ : Turn) (w : Well ℝ) : Well ℝ := { w with xw := (σ.pt (w.xw, w.yw)).1, yw := (σ.pt (w.xw, w.yw)).2 }

/-- The same model: wells, local origin and regional flow with the other axes. -/
noncomputable def Aquifer.turn (σ : Turn) (m : Aquifer ℝ) : Aquifer ℝ :=
  { m with wells := m.wells.map (Well.turn σ), xo := (σ.pt (m.xo, m.yo)).1, yo := (σ.pt (m.xo, m.yo)).2, coef := σ.coef m.coef }

/-- The same run: wells and observations with the other axes. -/
noncomputable def RunArgs.turn (σ : Turn) (a : RunArgs) : RunArgs := { a with wells := a.wells.map (SWell.turn σ), obs := a.obs.map (Obs.turn σ) }

/-- The same trace. -/
noncomputable def Trace.turn (σ : Turn) (t : Trace XR) : Trace XR :=
  { t with vertices := t.vertices.map σ.pt, steps := t.steps.map fun a => { a with vertex := σ.pt a.vertex } }

/-- The environment of the same run with `n` paths: the same linear algebra and uniform numbers; the normal vectors drawn are those of `env` with the other axes; interrupts from outside, if any, hit the same traces. -/
structure Env.Turned (σ : Turn) (n : ℤ) (env env' : Env) : Prop where
  la : env'.la = env.la
  u : env'.u = env.u
  mvn : ∀ i ev cov, env'.mvn i (σ.coef ev) (σ.cov cov) = (env.mvn i ev cov).map σ.coef
  interrupt : ∀ i k j, env'.interrupt i k j = env.interrupt i (σ.start n.toNat k) j

/-- The same realization with the other axes: model, fit, covariances and traces are those with the other axes, the recharge is the same. -/
structure RealizationLog.Turned (σ : Turn) (L L' : RealizationLog) : Prop where
  model : L'.model = L.model.turn σ
  ev : L'.ev = σ.coef L.ev
  cov : L'.cov = σ.cov L.cov
  recharge : L'.recharge = L.recharge
  count : L'.traces.length = L.traces.length
  traces : ∀ k < L.traces.length, L'.traces[k]? = (L.traces[σ.start L.traces.length k]?).map (Trace.turn σ)

/-- Both runs never return; or both raise the same exception, or both return a field; having made the same realizations. -/
def TurnedCourse (σ : Turn) : Option RunResult → Option RunResult → Prop
  | none, none => True
  | some ⟨.ok _, l⟩, some ⟨.ok _, l'⟩ => List.Forall₂ (RealizationLog.Turned σ) l l'
  | some ⟨.error e, l⟩, some ⟨.error e', l'⟩ => e = e' ∧ List.Forall₂ (RealizationLog.Turned σ) l l'
  | _, _ => False

end Oneka
