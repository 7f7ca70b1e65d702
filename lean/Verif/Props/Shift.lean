import Verif.Lemmas.ShiftCall
import Verif.Props.Oneka

/-!
# C122: the results do not depend on where the origin of the coordinates is

In exact arithmetic, with the same draws, linear algebra and interrupts: if wells and observations are moved by the same vector, so are all results, and nothing else
changes. (`shift`: Spec/Shift.lean.) Examples: `Props/ShiftExamples.lean`.
-/

namespace Oneka

/-- C122: `compute_backtrace` and `compute_capturezone`. If one velocity function is the other one moved by `s`, then moving the starting point or the target (and the field) moves the trace and the zone: the call
returns if and only if the other one does, with the moved vertices and the same times, step sizes and warning; the field is the moved one, and the same exception is raised. -/
theorem C122_traces (s : ℝ × ℝ) (f g : ℕ → ℕ → XR × XR → Except PyErr (XR × XR)) (h : ∀ k n p, g k n (p.1 + .fin s.1, p.2 + .fin s.2) = f k n p) :
    (∀ (k : ℕ) (xs ys D tol M : XR), computeBacktrace (xs + .fin s.1) (ys + .fin s.2) D tol M (g k) = (computeBacktrace xs ys D tol M (f k)).map (Trace.shift s)) ∧
    ∀ (x y r : ℝ) (n : ℤ) (D : XR) (p : PField ℝ) (u w : ℝ) (tol M : XR), computeCapturezone (x + s.1) (y + s.2) r n D (p.shift s) u w tol M g =
      (computeCapturezone x y r n D p u w tol M f).map fun c => ⟨c.field.shift s, c.outcome, c.traces.map (Trace.shift s)⟩ :=
  ⟨fun k xs ys D tol M => backtrace_shift (h k) D tol M xs ys, fun x y r n D p u w tol M => capturezone_shift h x y r n D p u w tol M⟩

/-- C122: `Model`. At the moved point the moved model has the same potential, discharge, head and velocity, or raises the same exception; and from moved observations, with the moved
origin, `fit_regional_flow` gives the same expected values and covariances, or the same exception. -/
theorem C122_model (s : ℝ × ℝ) (m : Aquifer ℝ) :
    (∀ x y : XR, (m.moved s).toX.potential (x + .fin s.1) (y + .fin s.2) = m.toX.potential x y ∧ (m.moved s).toX.discharge (x + .fin s.1) (y + .fin s.2) = m.toX.discharge x y ∧
      (m.moved s).toX.head (x + .fin s.1) (y + .fin s.2) = m.toX.head x y ∧ (m.moved s).toX.velocity (x + .fin s.1) (y + .fin s.2) = m.toX.velocity x y ∧
      (m.moved s).toX.velocityConfined (x + .fin s.1) (y + .fin s.2) = m.toX.velocityConfined x y) ∧
    ∀ (la : LinAlg) (obs : List Obs) (xo yo : ℝ), ((m.moved s).fitRegionalFlow la (obs.map (Obs.shift s)) (xo + s.1) (yo + s.2)).2 = (m.fitRegionalFlow la obs xo yo).2 ∧
      ((m.moved s).fitRegionalFlow la (obs.map (Obs.shift s)) (xo + s.1) (yo + s.2)).1 = (m.fitRegionalFlow la obs xo yo).1.moved s := by
  refine ⟨fun x y => ⟨potential_shift m x y, discharge_shift m x y, head_shift m x y, ?_, ?_⟩, fun la obs xo yo => ?_⟩
  · unfold Aquifer.velocity
    simp only [head_shift, discharge_shift]
    rfl
  · unfold Aquifer.velocityConfined
    simp only [discharge_shift]
    rfl
  · have e : (m.moved s).constructFit (xo + s.1) (yo + s.2) (obs.map (Obs.shift s)) = m.constructFit xo yo obs := by
      rw [← constructFit_shift (s := s) m xo yo obs]
      generalize obs.map (Obs.shift s) = l
      induction l with
      | nil => rfl
      | cons o l ih =>
        simp only [Aquifer.constructFit, ih]
        rfl
    unfold Aquifer.fitRegionalFlow
    rw [e]
    cases m.constructFit xo yo obs with
    | error e => exact ⟨rfl, rfl⟩
    | ok rows =>
      simp only []
      cases Aquifer.computeFit la rows with
      | error e => exact ⟨rfl, rfl⟩
      | ok r => exact ⟨rfl, rfl⟩

/-- C122: `filter_obs` and `summary_statistics`. Moved observations and wells: the moved observations are retained, and the moved ones are logged; of the statistics of the observations those of location are moved
in the two columns of coordinates, and nothing else changes. -/
theorem C122_filter (s : ℝ × ℝ) (obs : List Obs) (wells : List (ℝ × ℝ)) (buffer : ℝ) :
    filterObs (obs.map (Obs.shift s)) (wells.map fun p => (p.1 + s.1, p.2 + s.2)) buffer = (filterObs obs wells buffer).map (List.map (Obs.shift s)) ∧
    filterLog (obs.map (Obs.shift s)) (wells.map fun p => (p.1 + s.1, p.2 + s.2)) buffer = (filterLog obs wells buffer).map (FilterLine.shift s) ∧
    summaryStatistics ((obs.map (Obs.shift s)).map fun o => [some o.x, some o.y, some o.z, some o.std]) =
      (summaryStatistics (obs.map fun o => [some o.x, some o.y, some o.z, some o.std])).map (shiftColumns s) :=
  ⟨filterObs_shift obs wells buffer, filterLog_shift obs wells buffer, summary_shift obs⟩

/-- C122: `create_stochastic_capturezone` and `create_deterministic_capturezone`. The moved run returns the moved field, raises the same exception or runs forever as well, and it logs the same fits and recharges. -/
theorem C122_run (s : ℝ × ℝ) (a : RunArgs) (nrealizations : ℤ) (env : Env) :
    createStochastic (a.shift s) nrealizations env = (createStochastic a nrealizations env).map (RunResult.shift s) ∧ createDeterministic (a.shift s) env = (createDeterministic a env).map (RunResult.shift s) :=
  ⟨createStochastic_shift a nrealizations env, createDeterministic_shift a env⟩

/-- C122: `oneka`. Two accepted calls with finite numbers, the second with wells and observations moved by `s` and otherwise the same numbers (project name and run time may differ): they end in the same way, with the same
exception if there is one; they log the same areas and the same decile table, the moved statistics and filtering messages, and the moved realizations; they show the moved figures. -/
theorem C122_call (s : ℝ × ℝ) (a a' : PyArgs) (n : Inputs) (env : CallEnv) (ha : Acceptable a) (ha' : Acceptable a') (hd : a.Denotes n) (hd' : a'.Denotes (n.shift s)) :
    (oneka a' env).ending = (oneka a env).ending ∧ areas (oneka a' env).events = areas (oneka a env).events ∧ acreages (oneka a' env).events = acreages (oneka a env).events ∧
    decileLines (oneka a' env).events = decileLines (oneka a env).events ∧ figures (oneka a' env).events = (figures (oneka a env).events).map (Figure.shift s) ∧
    summaries (oneka a' env).events = (summaries (oneka a env).events).map (shiftColumns s) ∧ filterLines (oneka a' env).events = (filterLines (oneka a env).events).map (FilterLine.shift s) ∧
    realizations (oneka a' env).events = (realizations (oneka a env).events).map (RealizationLog.shift s) := by
  obtain ⟨h1, h2, h3, h4, h5, h6, h7⟩ := call_collected ha hd env
  obtain ⟨k1, k2, k3, k4, k5, k6, k7⟩ := call_collected ha' hd' env
  have hc := compute_shift (s := s) n env
  have he : (compute (n.shift s) env).events = (compute n env).events.map (Effect.shift s) := by rw [hc]; rfl
  have hend : (compute (n.shift s) env).ending = (compute n env).ending.map (FieldVal.shift s) := by rw [hc]; rfl
  refine ⟨?_, ?_, ?_, ?_, ?_, ?_, ?_, ?_⟩
  · obtain ⟨-, -, -, -, -, e⟩ := call_parts ha hd env
    obtain ⟨-, -, -, -, -, e'⟩ := call_parts ha' hd' env
    rw [e, e', hend]
    cases (compute n env).ending <;> rfl
  · rw [k3, h3, he, areas_shift]
  · rw [k4, h4, he, acreages_shift]
  · rw [k2, h2, he, decileLines_shift]
  · rw [k1, h1, he, figures_shift]
  · rw [k6, h6, he, summaries_shift]
  · rw [k7, h7, he, filterLines_shift]
  · rw [k5, h5, he, realizations_shift]

/-- C122: … and the archive of the second call holds the field of the first call, moved by `s`: the same spacing, shape and contents. -/
theorem C122_archive (s : ℝ × ℝ) (a a' : PyArgs) (n : Inputs) (env : CallEnv) (v v' : PyVal) (hd : a.Denotes n) (hd' : a'.Denotes (n.shift s))
    (h : (oneka a env).ending = .returns v) (h' : (oneka a' env).ending = .returns v') (fs : Files) :
    ∃ d d' f, loadOneka ((oneka a env).events.foldl Effect.apply fs) env.now.archiveName = .ok d ∧ d.get "pfield" = some (.field (.field f)) ∧
      loadOneka ((oneka a' env).events.foldl Effect.apply fs) env.now.archiveName = .ok d' ∧ d'.get "pfield" = some (.field (.field (f.shift s))) := by
  obtain ⟨d, f, e1, e2, e3⟩ := call_field hd h fs
  obtain ⟨d', f', e1', e2', e3'⟩ := call_field hd' h' fs
  rw [compute_shift] at e1'
  have : f' = f.shift s := by
    have h1 : (compute n env).ending.map (FieldVal.shift s) = .returns f' := e1'
    rw [e1] at h1
    simpa [Ending.map] using h1.symm
  subst this
  obtain ⟨-, f0, hf0⟩ : True ∧ ∃ f0, f = .field f0 := ⟨trivial, by
    obtain ⟨d1, _, _, f1, g1, g2, -⟩ := C60_field a n env v hd h fs
    rw [e2] at g1
    cases g1
    rw [e3] at g2
    exact ⟨f1, by simpa using g2⟩⟩
  subst hf0
  exact ⟨d, d', f0, e2, e3, e2', e3'⟩

end Oneka
