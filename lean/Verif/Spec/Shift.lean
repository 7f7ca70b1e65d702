import Verif.Model.Oneka
import Verif.Spec.Oneka

/-!
# Moving everything by a vector

What it means for inputs, results, figures and log entries to be moved by the vector `s`: positions are, nothing else is.
-/

namespace Oneka

/-- A point that may have infinite coordinates. -/
noncomputable def shiftX (s : ℝ × ℝ) (p : XR × XR) : XR × XR := (p.1 + .fin s.1, p.2 + .fin s.2)

/-- An observation elsewhere. -/
noncomputable def Obs.shift (s : ℝ × ℝ) (o : Obs) : Obs := { o with x := o.x + s.1, y := o.y + s.2 }

/-- A well elsewhere. -/
noncomputable def SWell.shift (s : ℝ × ℝ) (w : SWell) : SWell := { w with xw := w.xw + s.1, yw := w.yw + s.2 }

/-- A well elsewhere. -/
noncomputable def Well.shift (s : ℝ × ℝ) (w : Well ℝ) : Well ℝ := { w with xw := w.xw + s.1, yw := w.yw + s.2 }

/-- A model elsewhere: its wells and its local origin are moved. -/
noncomputable def Aquifer.moved (s : ℝ × ℝ) (m : Aquifer ℝ) : Aquifer ℝ := { m with wells := m.wells.map (Well.shift s), xo := m.xo + s.1, yo := m.yo + s.2 }

/-- The same run elsewhere: wells and observations are moved. -/
noncomputable def RunArgs.shift (s : ℝ × ℝ) (a : RunArgs) : RunArgs := { a with wells := a.wells.map (SWell.shift s), obs := a.obs.map (Obs.shift s) }

/-- The same call elsewhere. -/
noncomputable def Inputs.shift (s : ℝ × ℝ) (n : Inputs) : Inputs := { n with run := n.run.shift s }

/-- The contents of a field elsewhere. -/
noncomputable def Body.shift (s : ℝ × ℝ) (b : Body ℝ) : Body ℝ := { b with xmin := b.xmin + s.1, xmax := b.xmax + s.1, ymin := b.ymin + s.2, ymax := b.ymax + s.2 }

/-- The same field elsewhere: its edges are moved; spacing, shape and contents are the same. -/
noncomputable def PField.shift (s : ℝ × ℝ) (f : PField ℝ) : PField ℝ := { f with body := f.body.map (Body.shift s) }

/-- A trace elsewhere: the vertices are moved; times and step sizes are the same. -/
noncomputable def Trace.shift (s : ℝ × ℝ) (t : Trace XR) : Trace XR :=
  { t with vertices := t.vertices.map (shiftX s), steps := t.steps.map fun a => { a with vertex := shiftX s a.vertex } }

/-- A realization elsewhere: fit, covariance and recharge are the same. -/
noncomputable def RealizationLog.shift (s : ℝ × ℝ) (l : RealizationLog) : RealizationLog := { l with model := l.model.moved s, traces := l.traces.map (Trace.shift s) }

/-- A result elsewhere. -/
noncomputable def RunResult.shift (s : ℝ × ℝ) (r : RunResult) : RunResult := ⟨r.outcome.map (PField.shift s), r.log.map (RealizationLog.shift s)⟩

/-- A log entry of `filter_obs` elsewhere. -/
noncomputable def FilterLine.shift (s : ℝ × ℝ) : FilterLine → FilterLine
  | .removed ob we => .removed (ob.shift s) (we.1 + s.1, we.2 + s.2)
  | .duplicate ob => .duplicate (ob.shift s)
  | .averaged ob => .averaged (ob.shift s)
  | .active i ob => .active i (ob.shift s)
  | l => l

/-- The statistics of numbers that are larger by `t`. -/
noncomputable def ColumnStats.shift (t : ℝ) (c : ColumnStats) : ColumnStats := { c with min := c.min + t, med := c.med + t, max := c.max + t, avg := c.avg + t }

/-- The summary statistics of observations elsewhere: the first two columns are coordinates. -/
noncomputable def shiftColumns (s : ℝ × ℝ) : List ColumnStats → List ColumnStats
  | x :: y :: l => x.shift s.1 :: y.shift s.2 :: l
  | l => l

/-- Marked points elsewhere. -/
noncomputable def Markers.shift (s : ℝ × ℝ) (m : Markers) : Markers :=
  ⟨m.wells.map fun p => (p.1 + s.1, p.2 + s.2), (m.target.1 + s.1, m.target.2 + s.2), m.obs.map fun p => (p.1 + s.1, p.2 + s.2)⟩

/-- A rectangle elsewhere. -/
noncomputable def Rect.shift (s : ℝ × ℝ) (r : Rect) : Rect := ⟨r.x0 + s.1, r.x1 + s.1, r.y0 + s.2, r.y1 + s.2⟩

/-- A figure elsewhere: coordinates are moved; probabilities and areas are the same. -/
noncomputable def ProbabilityPlot.shift (s : ℝ × ℝ) (p : ProbabilityPlot) : ProbabilityPlot :=
  { p with x := p.x.map (· + s.1), y := p.y.map (· + s.2), marks := p.marks.shift s }

/-- A figure elsewhere. -/
noncomputable def DeterministicPlot.shift (s : ℝ × ℝ) (p : DeterministicPlot) : DeterministicPlot := { p with filled := p.filled.map (Rect.shift s), marks := p.marks.shift s }

/-- A figure elsewhere. -/
noncomputable def Figure.shift (s : ℝ × ℝ) : Figure → Figure
  | .probability p => .probability (p.shift s)
  | .deterministic p => .deterministic (p.shift s)
  | f => f

/-- A log entry elsewhere. -/
noncomputable def LogLine.shift (s : ℝ × ℝ) : LogLine → LogLine
  | .filter l => .filter (l.shift s)
  | .summary cols => .summary (shiftColumns s cols)
  | .realization l => .realization (l.shift s)
  | l => l

/-- A log entry or a figure elsewhere. -/
noncomputable def Effect.shift (s : ℝ × ℝ) : Effect → Effect
  | .log l => .log (l.shift s)
  | .figure f => .figure (f.shift s)
  | e => e

/-- A field elsewhere. -/
noncomputable def FieldVal.shift (s : ℝ × ℝ) : FieldVal → FieldVal
  | .field f => .field (f.shift s)
  | v => v

/-- The result, changed by `g`. -/
def Ending.map {α β : Type} (g : α → β) : Ending α → Ending β
  | .returns a => .returns (g a)
  | .raises e => .raises e
  | .diverges => .diverges

/-- The same computation elsewhere. -/
noncomputable def Prog.shift {α β : Type} (s : ℝ × ℝ) (g : α → β) (p : Prog α) : Prog β := ⟨p.events.map (Effect.shift s), p.ending.map g⟩

end Oneka
