import Verif.Lemmas.Datum
import Verif.Props.Oneka

/-!
# C123: the results do not depend on the datum of the elevations

In exact arithmetic, with the same draws, linear algebra and interrupts: if the base of the aquifer and all observed heads are larger by `h`, then the capture zones are the same, and of what is logged and shown only
elevations differ, by `h`. (`raise`: Spec/Datum.lean.) Examples: `Props/DatumExamples.lean`.
-/

namespace Oneka

/-- C123: `Model`. Potential, discharge, head (which is measured from the base) and velocity do not depend on the base; `fit_regional_flow` of the raised model to the raised observations gives the same expected values and
covariances, or the same exception, and leaves the raised model with the same origin and coefficients. -/
theorem C123_model (h : ℝ) (m : Aquifer ℝ) :
    (∀ x y : XR, (m.raise h).toX.potential x y = m.toX.potential x y ∧ (m.raise h).toX.discharge x y = m.toX.discharge x y ∧ (m.raise h).toX.head x y = m.toX.head x y ∧
      (m.raise h).toX.velocity x y = m.toX.velocity x y ∧ (m.raise h).toX.velocityConfined x y = m.toX.velocityConfined x y) ∧
    ∀ (la : LinAlg) (obs : List Obs) (xo yo : ℝ), (m.raise h).fitRegionalFlow la (obs.map (Obs.raise h)) xo yo =
      ((m.fitRegionalFlow la obs xo yo).1.raise h, (m.fitRegionalFlow la obs xo yo).2) :=
  ⟨fun _ _ => ⟨rfl, rfl, rfl, rfl, rfl⟩, fun la obs xo yo => fit_raise la m obs xo yo⟩

/-- C123: `filter_obs` and `summary_statistics`. The raised observations are retained and logged (the weighted average of raised heads is the raised average); of the statistics those of location are raised in the column of
heads, and nothing else changes. -/
theorem C123_filter (h : ℝ) (obs : List Obs) (wells : List (ℝ × ℝ)) (buffer : ℝ) :
    filterObs (obs.map (Obs.raise h)) wells buffer = (filterObs obs wells buffer).map (List.map (Obs.raise h)) ∧
    filterLog (obs.map (Obs.raise h)) wells buffer = (filterLog obs wells buffer).map (FilterLine.raise h) ∧
    summaryStatistics ((obs.map (Obs.raise h)).map fun o => [some o.x, some o.y, some o.z, some o.std]) =
      (summaryStatistics (obs.map fun o => [some o.x, some o.y, some o.z, some o.std])).map (raiseColumns h) :=
  ⟨filterObs_raise obs wells buffer, filterLog_raise obs wells buffer, summary_raise obs⟩

/-- C123: `create_stochastic_capturezone` and `create_deterministic_capturezone` return the same field or raise the same exception or run forever as well, and log the same fits, recharges and traces. -/
theorem C123_run (h : ℝ) (a : RunArgs) (nrealizations : ℤ) (env : Env) :
    createStochastic (a.raise h) nrealizations env = (createStochastic a nrealizations env).map (RunResult.raise h) ∧ createDeterministic (a.raise h) env = (createDeterministic a env).map (RunResult.raise h) :=
  ⟨createStochastic_raise a nrealizations env, createDeterministic_raise a env⟩

/-- C123: `oneka`. Two accepted calls with finite numbers, the second with base and observed heads larger by `h` and otherwise the same numbers (project name and run time may differ): they end in the same way, with the same
exception if there is one; they show the same figures and log the same areas and the same decile table; statistics, filtering messages and realizations are those above the other datum. -/
theorem C123_call (h : ℝ) (a a' : PyArgs) (n : Inputs) (env : CallEnv) (ha : Acceptable a) (ha' : Acceptable a') (hd : a.Denotes n) (hd' : a'.Denotes (n.raise h)) :
    (oneka a' env).ending = (oneka a env).ending ∧ figures (oneka a' env).events = figures (oneka a env).events ∧ areas (oneka a' env).events = areas (oneka a env).events ∧
    acreages (oneka a' env).events = acreages (oneka a env).events ∧ decileLines (oneka a' env).events = decileLines (oneka a env).events ∧
    summaries (oneka a' env).events = (summaries (oneka a env).events).map (raiseColumns h) ∧ filterLines (oneka a' env).events = (filterLines (oneka a env).events).map (FilterLine.raise h) ∧
    realizations (oneka a' env).events = (realizations (oneka a env).events).map (RealizationLog.raise h) := by
  obtain ⟨h1, h2, h3, h4, h5, h6, h7⟩ := call_collected ha hd env
  obtain ⟨k1, k2, k3, k4, k5, k6, k7⟩ := call_collected ha' hd' env
  have hc := compute_raise (h := h) n env
  have he : (compute (n.raise h) env).events = (compute n env).events.map (Effect.raise h) := by rw [hc]; rfl
  have hend : (compute (n.raise h) env).ending = (compute n env).ending := by rw [hc]; rfl
  refine ⟨?_, ?_, ?_, ?_, ?_, ?_, ?_, ?_⟩
  · obtain ⟨-, -, -, -, -, e⟩ := call_parts ha hd env
    obtain ⟨-, -, -, -, -, e'⟩ := call_parts ha' hd' env
    rw [e, e', hend]
  · rw [k1, h1, he]
    exact (collect_raise (ψ := id) _ (by rintro (l | _ | _ | _ | _) <;> [cases l; skip; skip; skip; skip] <;> rfl)).trans (List.map_id _)
  · rw [k3, h3, he]
    exact (collect_raise (ψ := id) _ (by rintro (l | _ | _ | _ | _) <;> [cases l; skip; skip; skip; skip] <;> rfl)).trans (List.map_id _)
  · rw [k4, h4, he]
    exact (collect_raise (ψ := id) _ (by rintro (l | _ | _ | _ | _) <;> [cases l; skip; skip; skip; skip] <;> rfl)).trans (List.map_id _)
  · rw [k2, h2, he]
    exact (collect_raise (ψ := id) _ (by rintro (l | _ | _ | _ | _) <;> [cases l; skip; skip; skip; skip] <;> rfl)).trans (List.map_id _)
  · rw [k6, h6, he]
    exact collect_raise _ (by rintro (l | _ | _ | _ | _) <;> [cases l; skip; skip; skip; skip] <;> rfl)
  · rw [k7, h7, he]
    exact collect_raise _ (by rintro (l | _ | _ | _ | _) <;> [cases l; skip; skip; skip; skip] <;> rfl)
  · rw [k5, h5, he]
    exact collect_raise _ (by rintro (l | _ | _ | _ | _) <;> [cases l; skip; skip; skip; skip] <;> rfl)

/-- C123: … and the archives of the two calls hold the same field. -/
theorem C123_archive (h : ℝ) (a a' : PyArgs) (n : Inputs) (env : CallEnv) (v v' : PyVal) (hd : a.Denotes n) (hd' : a'.Denotes (n.raise h))
    (hr : (oneka a env).ending = .returns v) (hr' : (oneka a' env).ending = .returns v') (fs : Files) :
    ∃ d d' f, loadOneka ((oneka a env).events.foldl Effect.apply fs) env.now.archiveName = .ok d ∧ d.get "pfield" = some (.field f) ∧
      loadOneka ((oneka a' env).events.foldl Effect.apply fs) env.now.archiveName = .ok d' ∧ d'.get "pfield" = some (.field f) := by
  obtain ⟨d, f, e1, e2, e3⟩ := call_field hd hr fs
  obtain ⟨d', f', e1', e2', e3'⟩ := call_field hd' hr' fs
  rw [compute_raise] at e1'
  have : f' = f := by
    have h1 : (compute n env).ending = .returns f' := e1'
    rw [e1] at h1
    simpa using h1.symm
  subst this
  exact ⟨d, d', f', e2, e3, e2', e3'⟩

end Oneka
