import Verif.Lemmas.RatioRun
import Verif.Props.Oneka

/-!
# C125: only the ratios of conductivity, porosity and discharges matter

In exact arithmetic, with the same draws and interrupts: if the conductivity, the porosity and the discharges of all wells are `μ` times as large, then the capture zones are the same. (`times`: Spec/Ratio.lean.) Examples:
`Props/RatioExamples.lean`.
-/

namespace Oneka

variable (μ : ℝ) (hμ : 0 < μ)

include hμ

/-- C125: `Model`. With `μ` times the conductivity, porosity, discharges and coefficients, potential and discharge are `μ` times as large; head and velocity are the same, or the same exception is raised. `fit_regional_flow`
gives `μ` times the expected values and `μ²` times the covariances, or the same exception. -/
theorem C125_model (m : Aquifer ℝ) :
    (∀ x y : XR, (m.times μ).toX.potential x y = .fin μ * m.toX.potential x y ∧ ((m.times μ).toX.discharge x y).1 = .fin μ * (m.toX.discharge x y).1 ∧
      ((m.times μ).toX.discharge x y).2 = .fin μ * (m.toX.discharge x y).2 ∧ (m.times μ).toX.head x y = m.toX.head x y ∧ (m.times μ).toX.velocity x y = m.toX.velocity x y ∧
      (m.times μ).toX.velocityConfined x y = m.toX.velocityConfined x y) ∧
    ∀ la : LinAlg, la.Correct → la.Converges → la.Strict → ∀ (obs : List Obs) (xo yo : ℝ), (m.times μ).fitRegionalFlow la obs xo yo =
      ((m.fitRegionalFlow la obs xo yo).1.times μ, (m.fitRegionalFlow la obs xo yo).2.map fun r => (fun k => μ * r.1 k, fun k l => μ ^ 2 * r.2 k l)) :=
  ⟨fun x y => ⟨potential_times hμ m x y, by rw [discharge_times hμ], by rw [discharge_times hμ], head_times hμ m x y, velocity_times hμ m x y, velocityConfined_times hμ m x y⟩,
    fun _ h1 h2 h3 obs xo yo => fit_times hμ h1 h2 h3 m obs xo yo⟩

/-- C125: `generate_random_variate` and `compute_variate_mean` of `μ` times as large bounds give `μ` times as large a number, or the same exception. -/
theorem C125_variate (d : Dist) (u : ℝ) : (d.times μ).sample u = (d.sample u).map (μ * ·) ∧ (d.times μ).mean = d.mean.map (μ * ·) := ⟨sample_times hμ d u, mean_times d⟩

/-- C125: the runs return the same field or raise the same exception or run forever as well; they log the same traces. In a stochastic run the normal numbers of the coefficients must be `μ` times as large (`ScalesNormal`), as
they are if `multivariate_normal` gets `μ` times the expected values and `μ²` times the covariances. -/
theorem C125_run (a : RunArgs) (env : Env) (h1 : env.la.Correct) (h2 : env.la.Converges) (h3 : env.la.Strict) (mvn' : ℕ → (Fin 6 → ℝ) → Matrix (Fin 6) (Fin 6) ℝ → Except PyErr (Fin 6 → ℝ)) :
    (ScalesNormal μ env.mvn mvn' → ∀ nrealizations : ℤ, createStochastic (a.times μ) nrealizations { env with mvn := mvn' } = (createStochastic a nrealizations env).map (RunResult.times μ)) ∧
    createDeterministic (a.times μ) env = (createDeterministic a env).map (RunResult.times μ) :=
  ⟨fun hm n => createStochastic_times hμ ⟨h1, h2, h3⟩ rfl hm a n, createDeterministic_times hμ ⟨h1, h2, h3⟩ rfl a⟩

/-- C125: `oneka`. Two accepted calls with finite numbers, the second with `μ` times the conductivity, porosity and discharges and otherwise the same numbers: they end in the same way, with the same exception if there is one;
they show the same figures and log the same areas, decile table, statistics and filtering messages; the realizations have the same traces and `μ` times the parameters. -/
theorem C125_call (a a' : PyArgs) (n : Inputs) (env : CallEnv) (ha : Acceptable a) (ha' : Acceptable a') (hd : a.Denotes n) (hd' : a'.Denotes (n.times μ))
    (h1 : env.run.la.Correct) (h2 : env.run.la.Converges) (h3 : env.run.la.Strict) (mvn' : ℕ → (Fin 6 → ℝ) → Matrix (Fin 6) (Fin 6) ℝ → Except PyErr (Fin 6 → ℝ))
    (hm : 1 < n.nrealizations → ScalesNormal μ env.run.mvn mvn') :
    (oneka a' { env with run := { env.run with mvn := mvn' } }).ending = (oneka a env).ending ∧
    figures (oneka a' { env with run := { env.run with mvn := mvn' } }).events = figures (oneka a env).events ∧
    areas (oneka a' { env with run := { env.run with mvn := mvn' } }).events = areas (oneka a env).events ∧
    acreages (oneka a' { env with run := { env.run with mvn := mvn' } }).events = acreages (oneka a env).events ∧
    decileLines (oneka a' { env with run := { env.run with mvn := mvn' } }).events = decileLines (oneka a env).events ∧
    summaries (oneka a' { env with run := { env.run with mvn := mvn' } }).events = summaries (oneka a env).events ∧
    filterLines (oneka a' { env with run := { env.run with mvn := mvn' } }).events = filterLines (oneka a env).events ∧
    realizations (oneka a' { env with run := { env.run with mvn := mvn' } }).events = (realizations (oneka a env).events).map (RealizationLog.times μ) := by
  obtain ⟨i1, i2, i3, i4, i5, i6, i7⟩ := call_collected ha hd env
  obtain ⟨k1, k2, k3, k4, k5, k6, k7⟩ := call_collected ha' hd' { env with run := { env.run with mvn := mvn' } }
  have hc := compute_times (env' := { env with run := { env.run with mvn := mvn' } }) hμ n ⟨h1, h2, h3⟩ rfl hm
  have he : (compute (n.times μ) { env with run := { env.run with mvn := mvn' } }).events = (compute n env).events.map (Effect.times μ) := by rw [hc]; rfl
  have hend : (compute (n.times μ) { env with run := { env.run with mvn := mvn' } }).ending = (compute n env).ending := by rw [hc]; rfl
  refine ⟨?_, ?_, ?_, ?_, ?_, ?_, ?_, ?_⟩
  · obtain ⟨-, -, -, -, -, e⟩ := call_parts ha hd env
    obtain ⟨-, -, -, -, -, e'⟩ := call_parts ha' hd' { env with run := { env.run with mvn := mvn' } }
    rw [e, e', hend]
  · rw [k1, i1, he]
    exact (collect_times (ψ := id) _ (by rintro (l | _ | _ | _ | _) <;> [cases l; skip; skip; skip; skip] <;> rfl)).trans (List.map_id _)
  · rw [k3, i3, he]
    exact (collect_times (ψ := id) _ (by rintro (l | _ | _ | _ | _) <;> [cases l; skip; skip; skip; skip] <;> rfl)).trans (List.map_id _)
  · rw [k4, i4, he]
    exact (collect_times (ψ := id) _ (by rintro (l | _ | _ | _ | _) <;> [cases l; skip; skip; skip; skip] <;> rfl)).trans (List.map_id _)
  · rw [k2, i2, he]
    exact (collect_times (ψ := id) _ (by rintro (l | _ | _ | _ | _) <;> [cases l; skip; skip; skip; skip] <;> rfl)).trans (List.map_id _)
  · rw [k6, i6, he]
    exact (collect_times (ψ := id) _ (by rintro (l | _ | _ | _ | _) <;> [cases l; skip; skip; skip; skip] <;> rfl)).trans (List.map_id _)
  · rw [k7, i7, he]
    exact (collect_times (ψ := id) _ (by rintro (l | _ | _ | _ | _) <;> [cases l; skip; skip; skip; skip] <;> rfl)).trans (List.map_id _)
  · rw [k5, i5, he]
    exact collect_times _ (by rintro (l | _ | _ | _ | _) <;> [cases l; skip; skip; skip; skip] <;> rfl)

/-- C125: … and the archives of the two calls hold the same field. -/
theorem C125_archive (a a' : PyArgs) (n : Inputs) (env : CallEnv) (v v' : PyVal) (hd : a.Denotes n) (hd' : a'.Denotes (n.times μ))
    (h1 : env.run.la.Correct) (h2 : env.run.la.Converges) (h3 : env.run.la.Strict) (mvn' : ℕ → (Fin 6 → ℝ) → Matrix (Fin 6) (Fin 6) ℝ → Except PyErr (Fin 6 → ℝ))
    (hm : 1 < n.nrealizations → ScalesNormal μ env.run.mvn mvn')
    (hr : (oneka a env).ending = .returns v) (hr' : (oneka a' { env with run := { env.run with mvn := mvn' } }).ending = .returns v') (fs : Files) :
    ∃ d d' f, loadOneka ((oneka a env).events.foldl Effect.apply fs) env.now.archiveName = .ok d ∧ d.get "pfield" = some (.field f) ∧
      loadOneka ((oneka a' { env with run := { env.run with mvn := mvn' } }).events.foldl Effect.apply fs) env.now.archiveName = .ok d' ∧ d'.get "pfield" = some (.field f) := by
  obtain ⟨d, f, e1, e2, e3⟩ := call_field hd hr fs
  obtain ⟨d', f', e1', e2', e3'⟩ := call_field hd' hr' fs
  rw [compute_times (env := env) hμ n ⟨h1, h2, h3⟩ rfl hm] at e1'
  have : f' = f := by
    have h1 : (compute n env).ending = .returns f' := e1'
    rw [e1] at h1
    simpa using h1.symm
  subst this
  exact ⟨d, d', f', e2, e3, e2', e3'⟩

end Oneka
