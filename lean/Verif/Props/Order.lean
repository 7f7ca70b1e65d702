import Verif.Lemmas.OrderLaw
import Verif.Props.Oneka

/-!
# C124: the results do not depend on the order in which the wells are listed

In exact arithmetic. (`Reorders`, `SameButOrder`: Spec/Order.lean.) Examples: `Props/OrderExamples.lean`.
-/

namespace Oneka

open MeasureTheory

/-- C124: `Model`. Models that differ in the order of their wells have the same potential, discharge, head and velocity, or raise the same exception; and `fit_regional_flow` gives the same expected values and
covariances, or the same exception. -/
theorem C124_model (m m' : Aquifer ℝ) (h : m.SameButOrder m') :
    (∀ x y : XR, m'.toX.potential x y = m.toX.potential x y ∧ m'.toX.discharge x y = m.toX.discharge x y ∧ m'.toX.head x y = m.toX.head x y ∧ m'.toX.velocity x y = m.toX.velocity x y ∧
      m'.toX.velocityConfined x y = m.toX.velocityConfined x y) ∧
    ∀ (la : LinAlg) (obs : List Obs) (xo yo : ℝ), (m'.fitRegionalFlow la obs xo yo).2 = (m.fitRegionalFlow la obs xo yo).2 :=
  ⟨fun x y => ⟨potential_reorder h x y, discharge_reorder h x y, head_reorder h x y, velocity_reorder h x y, velocityConfined_reorder h x y⟩, fun la obs xo yo => (fit_reorder h la obs xo yo).1⟩

/-- C124: `filter_obs` retains the same observations, and logs the same, except that it may name another one of the wells within the buffer. -/
theorem C124_filter (obs : List Obs) (wells wells' : List (ℝ × ℝ)) (buffer : ℝ) (h : wells.Perm wells') :
    filterObs obs wells' buffer = filterObs obs wells buffer ∧ List.Forall₂ FilterLine.SameButWell (filterLog obs wells buffer) (filterLog obs wells' buffer) :=
  ⟨filterObs_reorder h obs buffer, filterLog_reorder h obs buffer⟩

/-- C124: the runs. If the wells are listed in another order, the target is the same well, and each distribution (a number, a pair or a triple) gets the same draw (in `[0, 1)`) as before, then the run ends in the same way
with the same field. A deterministic run has no draws. -/
theorem C124_run (σ : Equiv.Perm ℕ) (a : RunArgs) (wells : List SWell) (k k' : ℕ) (h : Reorders σ a.wells wells) (hk : a.target = k) (hk' : σ k' = k) (hp : ∀ w ∈ a.wells, w.q.Proper) (env : Env) :
    ((∀ i j, 0 ≤ env.u i j ∧ env.u i j < 1) → ∀ nrealizations : ℤ,
      Option.Rel RunResult.SameButOrder (createStochastic a nrealizations env) (createStochastic { a with wells := wells, target := k' } nrealizations (env.reorder σ))) ∧
    Option.Rel RunResult.SameButOrder (createDeterministic a env) (createDeterministic { a with wells := wells, target := k' } env) :=
  ⟨fun hu n => (stochastic_reorder h hu hp hk hk' rfl n).1, (deterministic_reorder h env hp hk hk' rfl).1⟩

/-- C124: the law of a stochastic run. If the random numbers of the realizations are independent with the same law `ν`, and `ν` does not distinguish the draws within a realization, then the law of what the run returns or raises
does not depend on the order of the wells. -/
theorem C124_law (σ : Equiv.Perm ℕ) (a : RunArgs) (wells : List SWell) (k k' : ℕ) (h : Reorders σ a.wells wells) (hk : a.target = k) (hk' : σ k' = k) (hp : ∀ w ∈ a.wells, w.q.Proper)
    (la : LinAlg) (mv : NormalGen) (ν : Measure Numbers) [IsProbabilityMeasure ν] (hν : ∀ σ : Equiv.Perm ℕ, ν.map (fun x => (fun j => x.1 (σ j), x.2)) = ν)
    (h01 : ∀ᵐ x ∂ν, ∀ j, 0 ≤ x.1 j ∧ x.1 j < 1) (nrealizations : ℤ) (S : Set (Except PyErr (PField ℝ))) :
    (Measure.infinitePi fun _ : ℕ => ν) {x | ∃ r, createStochastic { a with wells := wells, target := k' } nrealizations (envOf la mv x) = some r ∧ r.outcome ∈ S} =
      (Measure.infinitePi fun _ : ℕ => ν) {x | ∃ r, createStochastic a nrealizations (envOf la mv x) = some r ∧ r.outcome ∈ S} := by
  rw [← reorder_law (hν σ)]
  refine measure_congr ?_
  have hall : ∀ᵐ x ∂(Measure.infinitePi fun _ : ℕ => ν), ∀ i j, 0 ≤ (x i).1 j ∧ (x i).1 j < 1 := by
    rw [ae_all_iff]
    intro i
    exact (measurePreserving_eval_infinitePi (fun _ : ℕ => ν) i).quasiMeasurePreserving.ae h01
  filter_upwards [hall] with x hx
  have hr := (C124_run σ a wells k k' h hk hk' hp (envOf la mv x)).1 hx nrealizations
  rw [← envOf_reorder] at hr
  refine propext ?_
  show (∃ r, createStochastic { a with wells := wells, target := k' } nrealizations (envOf la mv fun i => reorderNumbers σ (x i)) = some r ∧ r.outcome ∈ S) ↔
    ∃ r, createStochastic a nrealizations (envOf la mv x) = some r ∧ r.outcome ∈ S
  revert hr
  generalize createStochastic a nrealizations (envOf la mv x) = y
  generalize createStochastic { a with wells := wells, target := k' } nrealizations (envOf la mv fun i => reorderNumbers σ (x i)) = y'
  intro hr
  match y, y', hr with
  | none, none, _ => simp
  | some r, some r', .some hr =>
    simp only [Option.some.injEq, exists_eq_left', hr.outcome]

/-- C124: `oneka`. Two accepted calls with finite numbers, the second with the wells in another order, the same well as target, and otherwise the same numbers; in a stochastic run each distribution gets the same draw. They end
in the same way, with the same exception if there is one; they log the same areas, decile table and statistics, and the same realizations and filtering messages but for the order of the wells and which of several wells near
an observation is named; they show the same figures but for the order in which the wells are drawn. -/
theorem C124_call (σ : Equiv.Perm ℕ) (a a' : PyArgs) (n : Inputs) (wells : List SWell) (k k' : ℕ) (env : CallEnv) (u : ℕ → ℕ → ℝ) (ha : Acceptable a) (ha' : Acceptable a') (hd : a.Denotes n)
    (hd' : a'.Denotes (n.withWells wells k')) (h : Reorders σ n.run.wells wells) (hk : n.run.target = k) (hk' : σ k' = k)
    (hu : 1 < n.nrealizations → ∀ i j, u i j = env.run.u i (σ j) ∧ 0 ≤ env.run.u i j ∧ env.run.u i j < 1) :
    (oneka a' { env with run := { env.run with u := u } }).ending = (oneka a env).ending ∧
    areas (oneka a' { env with run := { env.run with u := u } }).events = areas (oneka a env).events ∧
    acreages (oneka a' { env with run := { env.run with u := u } }).events = acreages (oneka a env).events ∧
    decileLines (oneka a' { env with run := { env.run with u := u } }).events = decileLines (oneka a env).events ∧
    summaries (oneka a' { env with run := { env.run with u := u } }).events = summaries (oneka a env).events ∧
    List.Forall₂ Figure.SameButOrder (figures (oneka a env).events) (figures (oneka a' { env with run := { env.run with u := u } }).events) ∧
    List.Forall₂ FilterLine.SameButWell (filterLines (oneka a env).events) (filterLines (oneka a' { env with run := { env.run with u := u } }).events) ∧
    List.Forall₂ RealizationLog.SameButOrder (realizations (oneka a env).events) (realizations (oneka a' { env with run := { env.run with u := u } }).events) := by
  have hp : ∀ w ∈ n.run.wells, w.q.Proper := fun w hw => by
    obtain ⟨v, h1, h2⟩ := accepted_wells ha hd w hw
    exact accepted_proper h1 h2
  have hs := compute_reorder h hk hk' hp hu
  obtain ⟨h1, h2, h3, h4, h5, h6, h7⟩ := call_collected ha hd env
  obtain ⟨k1, k2, k3, k4, k5, k6, k7⟩ := call_collected ha' hd' { env with run := { env.run with u := u } }
  refine ⟨?_, ?_, ?_, ?_, ?_, ?_, ?_, ?_⟩
  · obtain ⟨-, -, -, -, -, e⟩ := call_parts ha hd env
    obtain ⟨-, -, -, -, -, e'⟩ := call_parts ha' hd' { env with run := { env.run with u := u } }
    rw [e, e']
    have := hs.ending
    revert this
    generalize (compute n env).ending = y
    generalize (compute (n.withWells wells k') { env with run := { env.run with u := u } }).ending = y'
    intro hy
    match y, y', hy with
    | .returns x, .returns _, rfl => rfl
    | .raises e, .raises _, rfl => rfl
    | .diverges, .diverges, _ => rfl
  · rw [h3, k3]
    exact collect_same hs.events fun e e' he => by cases he <;> rfl
  · rw [h4, k4]
    exact collect_same hs.events fun e e' he => by cases he <;> rfl
  · rw [h2, k2]
    exact collect_same hs.events fun e e' he => by cases he <;> rfl
  · rw [h6, k6]
    exact collect_same hs.events fun e e' he => by cases he <;> rfl
  · rw [h1, k1]
    refine collect_rel hs.events fun e e' he => ?_
    cases he with
    | same e => cases e <;> first | exact .none | exact .some (.same _)
    | realization l l' _ => exact .none
    | filter l l' _ => exact .none
    | figure f f' hf => exact .some hf
  · rw [h7, k7]
    refine collect_rel hs.events fun e e' he => ?_
    cases he with
    | same e =>
      rcases e with l | _ | _ | _ | _
      · cases l <;> first | exact .none | exact .some (.same _)
      all_goals exact .none
    | realization l l' _ => exact .none
    | filter l l' hl => exact .some hl
    | figure f f' _ => exact .none
  · rw [h5, k5]
    refine collect_rel hs.events fun e e' he => ?_
    cases he with
    | same e =>
      rcases e with l | _ | _ | _ | _
      · cases l <;> first | exact .none | exact .some (.refl _)
      all_goals exact .none
    | realization l l' hl => exact .some hl
    | filter l l' _ => exact .none
    | figure f f' _ => exact .none

/-- C124: … and the archives of the two calls hold the same field. -/
theorem C124_archive (σ : Equiv.Perm ℕ) (a a' : PyArgs) (n : Inputs) (wells : List SWell) (k k' : ℕ) (env : CallEnv) (u : ℕ → ℕ → ℝ) (v v' : PyVal) (hd : a.Denotes n)
    (hd' : a'.Denotes (n.withWells wells k')) (h : Reorders σ n.run.wells wells) (hk : n.run.target = k) (hk' : σ k' = k)
    (hu : 1 < n.nrealizations → ∀ i j, u i j = env.run.u i (σ j) ∧ 0 ≤ env.run.u i j ∧ env.run.u i j < 1)
    (hr : (oneka a env).ending = .returns v) (hr' : (oneka a' { env with run := { env.run with u := u } }).ending = .returns v') (fs : Files) :
    ∃ d d' f, loadOneka ((oneka a env).events.foldl Effect.apply fs) env.now.archiveName = .ok d ∧ d.get "pfield" = some (.field f) ∧
      loadOneka ((oneka a' { env with run := { env.run with u := u } }).events.foldl Effect.apply fs) env.now.archiveName = .ok d' ∧ d'.get "pfield" = some (.field f) := by
  obtain ⟨-, -, ha, -⟩ := returned_course hr
  have hp : ∀ w ∈ n.run.wells, w.q.Proper := fun w hw => by
    obtain ⟨v, h1, h2⟩ := accepted_wells ha hd w hw
    exact accepted_proper h1 h2
  have hs := (compute_reorder h hk hk' hp hu).ending
  obtain ⟨d, f, e1, e2, e3⟩ := call_field hd hr fs
  obtain ⟨d', f', e1', e2', e3'⟩ := call_field hd' hr' fs
  rw [e1, e1'] at hs
  obtain rfl : f' = f := hs
  exact ⟨d, d', f', e2, e3, e2', e3'⟩

end Oneka
