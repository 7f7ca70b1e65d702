import Verif.Model.Oneka
import Verif.Spec.Oneka

/-!
# Measuring elevations from another datum

What it means for inputs, results and log entries that all elevations (the base of the aquifer and the observed heads) are larger by `h`: elevations are, nothing else is.
-/

namespace Oneka

/-- An observation with its head above another datum. -/
noncomputable def Obs.raise (h : ℝ) (o : Obs) : Obs := { o with z := o.z + h }

/-- A model with its base above another datum. -/
noncomputable def Aquifer.raise (h : ℝ) (m : Aquifer ℝ) : Aquifer ℝ := { m with base := m.base + h }

/-- The same run above another datum. -/
noncomputable def RunArgs.raise (h : ℝ) (a : RunArgs) : RunArgs := { a with base := a.base + h, obs := a.obs.map (Obs.raise h) }

/-- The same call above another datum. -/
noncomputable def Inputs.raise (h : ℝ) (n : Inputs) : Inputs := { n with run := n.run.raise h }

/-- A realization above another datum: only the base of the model differs. -/
noncomputable def RealizationLog.raise (h : ℝ) (l : RealizationLog) : RealizationLog := { l with model := l.model.raise h }

/-- A result above another datum: the field is the same. -/
noncomputable def RunResult.raise (h : ℝ) (r : RunResult) : RunResult := { r with log := r.log.map (RealizationLog.raise h) }

/-- A log entry of `filter_obs` above another datum. -/
noncomputable def FilterLine.raise (h : ℝ) : FilterLine → FilterLine
  | .removed ob we => .removed (ob.raise h) we
  | .duplicate ob => .duplicate (ob.raise h)
  | .averaged ob => .averaged (ob.raise h)
  | .active i ob => .active i (ob.raise h)
  | l => l

/-- The summary statistics above another datum: the third column holds the heads. -/
noncomputable def raiseColumns (h : ℝ) : List ColumnStats → List ColumnStats
  | x :: y :: z :: l => x :: y :: { z with min := z.min + h, med := z.med + h, max := z.max + h, avg := z.avg + h } :: l
  | l => l

/-- A log entry above another datum. -/
noncomputable def LogLine.raise (h : ℝ) : LogLine → LogLine
  | .filter l => .filter (l.raise h)
  | .summary cols => .summary (raiseColumns h cols)
  | .realization l => .realization (l.raise h)
  | l => l

/-- An effect above another datum. -/
noncomputable def Effect.raise (h : ℝ) : Effect → Effect
  | .log l => .log (l.raise h)
  | e => e

/-- The same computation above another datum: it ends in the same way. -/
noncomputable def Prog.raise {α : Type} (h : ℝ) (p : Prog α) : Prog α := { p with events := p.events.map (Effect.raise h) }

end Oneka
