import Verif.Model.Oneka
import Verif.Spec.Oneka

/-!
# Multiplying conductivity, porosity and discharges by the same factor

What it means for inputs, results and log entries that the hydraulic conductivity, the porosity and the discharges of the wells are `μ` times as large: the fitted coefficients are, too; nothing else changes.
-/

namespace Oneka

/-- A distribution of `μ` times as large a quantity. -/
noncomputable def Dist.times (μ : ℝ) : Dist → Dist
  | .const c => .const (μ * c)
  | .tuple l => .tuple (l.map (μ * ·))

/-- A well with `μ` times the discharge. -/
noncomputable def SWell.times (μ : ℝ) (w : SWell) : SWell := { w with q := w.q.times μ }

/-- A well with `μ` times the discharge. -/
noncomputable def Well.times (μ : ℝ) (w : Well ℝ) : Well ℝ := { w with qw := μ * w.qw }

/-- A model with `μ` times the conductivity, porosity, discharges and regional flow. -/
noncomputable def Aquifer.times (μ : ℝ) (m : Aquifer ℝ) : Aquifer ℝ :=
  { m with conductivity := μ * m.conductivity, porosity := μ * m.porosity, wells := m.wells.map (Well.times μ), coef := fun i => μ * m.coef i }

/-- The same run with `μ` times the conductivity, porosity and discharges. -/
noncomputable def RunArgs.times (μ : ℝ) (a : RunArgs) : RunArgs := { a with cDist := a.cDist.times μ, pDist := a.pDist.times μ, wells := a.wells.map (SWell.times μ) }

/-- The same call with `μ` times the conductivity, porosity and discharges. -/
noncomputable def Inputs.times (μ : ℝ) (n : Inputs) : Inputs := { n with run := n.run.times μ }

/-- The generator of normal numbers `mvn'` gives `μ` times as large vectors as `mvn` if the expected value is `μ` times and the covariance `μ²` times as large. -/
def ScalesNormal (μ : ℝ) (mvn mvn' : ℕ → (Fin 6 → ℝ) → Matrix (Fin 6) (Fin 6) ℝ → Except PyErr (Fin 6 → ℝ)) : Prop :=
  ∀ i ev cov, mvn' i (fun k => μ * ev k) (fun k l => μ ^ 2 * cov k l) = (mvn i ev cov).map fun c k => μ * c k

/-- The corresponding realization: the fit is `μ` times as large, and the traces are the same. -/
noncomputable def RealizationLog.times (μ : ℝ) (l : RealizationLog) : RealizationLog :=
  ⟨l.model.times μ, fun k => μ * l.ev k, fun i j => μ ^ 2 * l.cov i j, μ * l.recharge, l.traces⟩

/-- The corresponding result: the field is the same. -/
noncomputable def RunResult.times (μ : ℝ) (r : RunResult) : RunResult := { r with log := r.log.map (RealizationLog.times μ) }

/-- The corresponding log entry. -/
noncomputable def LogLine.times (μ : ℝ) : LogLine → LogLine
  | .realization l => .realization (l.times μ)
  | l => l

/-- The corresponding effect. -/
noncomputable def Effect.times (μ : ℝ) : Effect → Effect
  | .log l => .log (l.times μ)
  | e => e

/-- The corresponding computation: it ends in the same way. -/
noncomputable def Prog.times {α : Type} (μ : ℝ) (p : Prog α) : Prog α := { p with events := p.events.map (Effect.times μ) }

end Oneka
