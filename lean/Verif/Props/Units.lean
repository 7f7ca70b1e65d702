import Verif.Lemmas.UnitsRun
import Verif.Lemmas.Utilities
import Verif.Props.Oneka
import Verif.Props.Report
import Verif.Props.Backtrace

/-!
# C135: the units of length and time

`oneka` wants "consistent units" and says that it makes no conversions. In exact arithmetic, with the same draws and interrupts: which results are the same if all lengths are given in another unit (`ℓ` times as large) and all times
(`τ` times as large)? (`inUnits`: Spec/Units.lean.) Those of `Model` and of the fit are. Those of `filter_obs`, of the tracer and of whole runs are up to constants of the code that have a unit. Examples:
`Props/UnitsExamples.lean`.
-/

namespace Oneka

variable (ℓ τ : ℝ) (hℓ : 0 < ℓ) (hτ : 0 < τ)

include hℓ hτ

/-- C135: `Model`. In the other units potential, discharge, head and velocity at every place are the same potential, discharge, head and velocity, or the same exception is raised. -/
theorem C135_model (m : Aquifer ℝ) (x y : XR) :
    (m.inUnits ℓ τ).toX.potential (.fin ℓ * x) (.fin ℓ * y) = .fin (ℓ ^ 3 / τ) * m.toX.potential x y ∧
    ((m.inUnits ℓ τ).toX.discharge (.fin ℓ * x) (.fin ℓ * y)).1 = .fin (ℓ ^ 2 / τ) * (m.toX.discharge x y).1 ∧
    ((m.inUnits ℓ τ).toX.discharge (.fin ℓ * x) (.fin ℓ * y)).2 = .fin (ℓ ^ 2 / τ) * (m.toX.discharge x y).2 ∧
    (m.inUnits ℓ τ).toX.head (.fin ℓ * x) (.fin ℓ * y) = (m.toX.head x y).map (.fin ℓ * ·) ∧
    (m.inUnits ℓ τ).toX.velocity (.fin ℓ * x) (.fin ℓ * y) = (m.toX.velocity x y).map (fun v => (.fin (ℓ / τ) * v.1, .fin (ℓ / τ) * v.2)) ∧
    ((m.inUnits ℓ τ).toX.velocityConfined (.fin ℓ * x) (.fin ℓ * y)).1 = .fin (ℓ / τ) * (m.toX.velocityConfined x y).1 ∧
    ((m.inUnits ℓ τ).toX.velocityConfined (.fin ℓ * x) (.fin ℓ * y)).2 = .fin (ℓ / τ) * (m.toX.velocityConfined x y).2 :=
  ⟨potential_units hℓ hτ m x y, by rw [discharge_units hℓ hτ]; rfl, by rw [discharge_units hℓ hτ]; rfl, head_units hℓ hτ m x y, velocity_units hℓ hτ m x y, by rw [velocityConfined_units hℓ hτ]; rfl,
    by rw [velocityConfined_units hℓ hτ]; rfl⟩

/-- C135: `fit_regional_flow`. In the other units the same fit results: the coefficients, their expected values and their covariances are the converted ones, or the same exception is raised. -/
theorem C135_fit (la : LinAlg) (h1 : la.Correct) (h2 : la.Converges) (h3 : la.Strict) (m : Aquifer ℝ) (obs : List Obs) (xo yo : ℝ) :
    (m.inUnits ℓ τ).fitRegionalFlow la (obs.map (Obs.inUnits ℓ)) (ℓ * xo) (ℓ * yo) =
      ((m.fitRegionalFlow la obs xo yo).1.inUnits ℓ τ, (m.fitRegionalFlow la obs xo yo).2.map fun r => (coefInUnits ℓ τ (m.logShift ℓ) r.1, covInUnits ℓ τ r.2)) :=
  fit_units hℓ hτ h1 h2 h3 m obs xo yo

omit hτ in
/-- C135: `filter_obs` gives the converted observations if no two observations are closer than one unit of length in the one unit but not in the other. -/
theorem C135_filter_partial (obs : List Obs) (wells : List (ℝ × ℝ)) (buffer : ℝ) (h : ∀ o ∈ obs, ∀ p ∈ obs, o.dist p.x p.y < 1 ↔ ℓ * o.dist p.x p.y < 1) :
    filterObs (obs.map (Obs.inUnits ℓ)) (wells.map fun w => (ℓ * w.1, ℓ * w.2)) (ℓ * buffer) = (filterObs obs wells buffer).map (List.map (Obs.inUnits ℓ)) :=
  filterObs_units hℓ obs wells buffer fun o ho p hp => by
    rw [hypot_dist]
    exact h o ho p hp

omit hτ in
/-- C135: otherwise it does not: two observations that are closer than one unit of length in the one unit but not in the other are merged in the one and kept in the other. -/
theorem C135_fails_filter (o p : Obs) (h1 : o.dist p.x p.y < 1) (h2 : 1 ≤ ℓ * o.dist p.x p.y) (ho : o.std ≠ 0) (hp : p.std ≠ 0) :
    (∃ r, filterObs [o, p] [] 1 = .ok [r]) ∧ filterObs ([o, p].map (Obs.inUnits ℓ)) [] (ℓ * 1) = .ok [o.inUnits ℓ, p.inUnits ℓ] := by
  have e : hypot ((o.inUnits ℓ).x - (p.inUnits ℓ).x) ((o.inUnits ℓ).y - (p.inUnits ℓ).y) = ℓ * o.dist p.x p.y := by
    rw [← hypot_dist, ← hypot_units hℓ, mul_sub, mul_sub]
    rfl
  constructor
  · have hh : decide (hypot (o.x - p.x) (o.y - p.y) < 1) = true := by
      rw [hypot_dist]
      simpa using h1
    simp [filterObs, removeNear, awayFromWells, mergeRuns, hh, mergeGroup, accumulate, ho, hp]
  · have hh : decide (hypot ((o.inUnits ℓ).x - (p.inUnits ℓ).x) ((o.inUnits ℓ).y - (p.inUnits ℓ).y) < 1) = false := by
      rw [e]
      simpa using h2
    simp [filterObs, removeNear, awayFromWells, mergeRuns, hh, mergeGroup]

/-- C135: `compute_backtrace`. In the other units the trace is the converted trace of a tracer that differs from the code's only in that its first step is 0.1 other units of time, and that it adds machine epsilon in the other
unit of length to the estimated error and to the length of a step; it ends, or runs forever, as that one does. (The second part: with the code's constants that tracer is `compute_backtrace`.) -/
theorem C135_trace_partial (f g : ℕ → XR × XR → Except PyErr (XR × XR)) (h : ∀ n x y, g n (.fin ℓ * x, .fin ℓ * y) = (f n (x, y)).map fun v => (.fin (ℓ / τ) * v.1, .fin (ℓ / τ) * v.2)) (xs ys duration tol maxstep : XR) :
    computeBacktrace (.fin ℓ * xs) (.fin ℓ * ys) (.fin τ * duration) (.fin ℓ * tol) (.fin ℓ * maxstep) g =
      (tracer (1 / 10 / τ) (1 / 4503599627370496 / ℓ) xs ys duration tol maxstep f).map (Trace.inUnits ℓ τ) ∧
    computeBacktrace xs ys duration tol maxstep f = tracer (1 / 10) (1 / 4503599627370496) xs ys duration tol maxstep f :=
  ⟨backtrace_units hℓ hτ (fun n p => h n p.1 p.2) _ _ _ _ _, (tracer_is_backtrace _ _ _ _ _ _).symm⟩

/-- C135: deterministic calls. Two returning calls with finite numbers, the second with the numbers of the first in other units: the realization of the second has the converted model, expected values and covariances of the first.
Its traces are the converted traces of a tracer in the units of the first that uses the constants that the code uses in the other units (`RetracedIn`). Its field holds 1 at the converted nodes that those pass, and 0 elsewhere. -/
theorem C135_deterministic_partial (a a' : PyArgs) (n : Inputs) (env : CallEnv) (v v' : PyVal) (hd : a.Denotes n) (hd' : a'.Denotes (n.inUnits ℓ τ))
    (h1 : env.run.la.Correct) (h2 : env.run.la.Converges) (h3 : env.run.la.Strict) (hn : n.nrealizations ≤ 1)
    (hclose : ∀ o ∈ n.run.obs, ∀ p ∈ n.run.obs, o.dist p.x p.y < 1 ↔ ℓ * o.dist p.x p.y < 1)
    (hr : (oneka a env).ending = .returns v) (hr' : (oneka a' env).ending = .returns v') (fs : Files) :
    ∃ (d' : Dict) (f' : PField ℝ) (obs : List Obs) (k : ℕ) (t : SWell) (L L' : RealizationLog) (trs : List (Trace XR)),
      filterObs n.run.obs (n.run.wells.map fun w => (w.xw, w.yw)) n.buffer = .ok obs ∧ n.run.target = k ∧ n.run.wells[k]? = some t ∧
      realizations (oneka a env).events = [L] ∧ realizations (oneka a' env).events = [L'] ∧
      L'.model = L.model.inUnits ℓ τ ∧ L'.ev = coefInUnits ℓ τ (L.model.logShift ℓ) L.ev ∧ L'.cov = covInUnits ℓ τ L.cov ∧
      RetracedIn ℓ τ { n.run with obs := obs } t (env.run.interrupt 0) L.model trs ∧ L'.traces = trs.map (Trace.inUnits ℓ τ) ∧
      loadOneka ((oneka a' env).events.foldl Effect.apply fs) env.now.archiveName = .ok d' ∧ d'.get "pfield" = some (.field (.field f')) ∧ f'.total = 1 ∧
      ∀ p q : ℤ, (|p| ≤ 1 ∧ |q| ≤ 1) ∨ n.run.umbra ≤ n.run.spacing →
        f'.weightAt (ℓ * (t.xw + p * n.run.spacing)) (ℓ * (t.yw + q * n.run.spacing)) =
          open Classical in if ∃ tr ∈ trs, NearTrack tr.path n.run.umbra (t.xw + p * n.run.spacing) (t.yw + q * n.run.spacing) then 1 else 0 := by
  obtain ⟨-, -, obs, k, t, L, -, -, j3, -, j4, j5, j6, j7, -, -, -⟩ := C68_deterministic a n env v hd hn hr fs
  obtain ⟨d', f', obs', k', t', L', i1, i2, i3, -, i4, i5, i6, i7, i8, i9, -⟩ := C68_deterministic a' (n.inUnits ℓ τ) env v' hd' hn hr' fs
  have hobs : obs' = obs.map (Obs.inUnits ℓ) := by
    have := C135_filter_partial ℓ hℓ n.run.obs (n.run.wells.map fun w => (w.xw, w.yw)) n.buffer hclose
    rw [j3, List.map_map] at this
    have e : (n.inUnits ℓ τ).run.wells.map (fun w => (w.xw, w.yw)) = n.run.wells.map ((fun w => (ℓ * w.1, ℓ * w.2)) ∘ fun w => (w.xw, w.yw)) := by
      show (n.run.wells.map (SWell.inUnits ℓ τ)).map _ = _
      rw [List.map_map]
      rfl
    rw [e] at i3
    exact Except.ok.inj (i3.symm.trans this)
  obtain rfl : k' = k := by
    have : (n.inUnits ℓ τ).run.target = n.run.target := rfl
    rw [i4, j4] at this
    exact_mod_cast this
  obtain rfl : t' = t.inUnits ℓ τ := by
    have : (n.run.wells.map (SWell.inUnits ℓ τ))[k']? = some t' := i5
    rw [List.getElem?_map, j5] at this
    exact (Option.some.inj this).symm
  subst hobs
  obtain ⟨m1, m2, m3, trs, m4, m5⟩ := realized_units (a := { n.run with obs := obs }) hℓ hτ h1 h2 h3 (fun μ hμ d j => mean_times d) (fun ev cov s => rfl) j7 i7
  refine ⟨d', f', obs, k', t, L, L', trs, j3, j4, j5, j6, i6, m1, m2, m3, m4, m5, i1, i2, i8, fun p q hpq => ?_⟩
  have hw := i9 p q (hpq.imp id fun h => mul_le_mul_of_nonneg_left h hℓ.le)
  have ex : (t.inUnits ℓ τ).xw + p * (n.inUnits ℓ τ).run.spacing = ℓ * (t.xw + p * n.run.spacing) := by
    show ℓ * t.xw + p * (ℓ * n.run.spacing) = _
    ring
  have ey : (t.inUnits ℓ τ).yw + q * (n.inUnits ℓ τ).run.spacing = ℓ * (t.yw + q * n.run.spacing) := by
    show ℓ * t.yw + q * (ℓ * n.run.spacing) = _
    ring
  rw [ex, ey] at hw
  rw [hw]
  have hcap : L'.Captures (n.inUnits ℓ τ).run.umbra (ℓ * (t.xw + p * n.run.spacing)) (ℓ * (t.yw + q * n.run.spacing)) ↔
      ∃ tr ∈ trs, NearTrack tr.path n.run.umbra (t.xw + p * n.run.spacing) (t.yw + q * n.run.spacing) := captures_units hℓ m5 _ _ _
  by_cases hx : ∃ tr ∈ trs, NearTrack tr.path n.run.umbra (t.xw + p * n.run.spacing) (t.yw + q * n.run.spacing)
  · rw [if_pos (hcap.mpr hx), if_pos hx]
  · rw [if_neg (fun h => hx (hcap.mp h)), if_neg hx]

open Classical in
/-- C135: stochastic calls. The same for all realizations, if the normal numbers of the coefficients convert, too (`ConvertsNormal`). -/
theorem C135_stochastic_partial (a a' : PyArgs) (n : Inputs) (env : CallEnv) (v v' : PyVal) (hd : a.Denotes n) (hd' : a'.Denotes (n.inUnits ℓ τ))
    (h1 : env.run.la.Correct) (h2 : env.run.la.Converges) (h3 : env.run.la.Strict) (hn : 1 < n.nrealizations)
    (mvn' : ℕ → (Fin 6 → ℝ) → Matrix (Fin 6) (Fin 6) ℝ → Except PyErr (Fin 6 → ℝ)) (hm : ConvertsNormal ℓ τ env.run.mvn mvn')
    (hclose : ∀ o ∈ n.run.obs, ∀ p ∈ n.run.obs, o.dist p.x p.y < 1 ↔ ℓ * o.dist p.x p.y < 1)
    (hr : (oneka a env).ending = .returns v) (hr' : (oneka a' { env with run := { env.run with mvn := mvn' } }).ending = .returns v') (fs : Files) :
    ∃ (d' : Dict) (f' : PField ℝ) (obs : List Obs) (k : ℕ) (t : SWell) (trss : List (List (Trace XR))),
      filterObs n.run.obs (n.run.wells.map fun w => (w.xw, w.yw)) n.buffer = .ok obs ∧ n.run.target = k ∧ n.run.wells[k]? = some t ∧
      ((realizations (oneka a env).events).length : ℤ) = n.nrealizations ∧ ((realizations (oneka a' { env with run := { env.run with mvn := mvn' } }).events).length : ℤ) = n.nrealizations ∧
      (trss.length : ℤ) = n.nrealizations ∧
      (∀ (i : ℕ) (L L' : RealizationLog) (trs : List (Trace XR)), (realizations (oneka a env).events)[i]? = some L →
        (realizations (oneka a' { env with run := { env.run with mvn := mvn' } }).events)[i]? = some L' → trss[i]? = some trs →
        L'.model = L.model.inUnits ℓ τ ∧ L'.ev = coefInUnits ℓ τ (L.model.logShift ℓ) L.ev ∧ L'.cov = covInUnits ℓ τ L.cov ∧
        RetracedIn ℓ τ { n.run with obs := obs } t (env.run.interrupt i) L.model trs ∧ L'.traces = trs.map (Trace.inUnits ℓ τ)) ∧
      loadOneka ((oneka a' { env with run := { env.run with mvn := mvn' } }).events.foldl Effect.apply fs) env.now.archiveName = .ok d' ∧ d'.get "pfield" = some (.field (.field f')) ∧ f'.total = n.nrealizations ∧
      ∀ p q : ℤ, (|p| ≤ 1 ∧ |q| ≤ 1) ∨ n.run.umbra ≤ n.run.spacing →
        f'.weightAt (ℓ * (t.xw + p * n.run.spacing)) (ℓ * (t.yw + q * n.run.spacing)) =
          (trss.countP fun trs => ∃ tr ∈ trs, NearTrack tr.path n.run.umbra (t.xw + p * n.run.spacing) (t.yw + q * n.run.spacing)) := by
  obtain ⟨-, -, obs, k, t, -, -, j3, -, j4, j5, j6, j7, -, -, -⟩ := C68_stochastic a n env v hd hn hr fs
  obtain ⟨d', f', obs', k', t', i1, i2, i3, -, i4, i5, i6, i7, i8, i9, -⟩ := C68_stochastic a' (n.inUnits ℓ τ) { env with run := { env.run with mvn := mvn' } } v' hd' hn hr' fs
  have hobs : obs' = obs.map (Obs.inUnits ℓ) := by
    have := C135_filter_partial ℓ hℓ n.run.obs (n.run.wells.map fun w => (w.xw, w.yw)) n.buffer hclose
    rw [j3, List.map_map] at this
    have e : (n.inUnits ℓ τ).run.wells.map (fun w => (w.xw, w.yw)) = n.run.wells.map ((fun w => (ℓ * w.1, ℓ * w.2)) ∘ fun w => (w.xw, w.yw)) := by
      show (n.run.wells.map (SWell.inUnits ℓ τ)).map _ = _
      rw [List.map_map]
      rfl
    rw [e] at i3
    exact Except.ok.inj (i3.symm.trans this)
  obtain rfl : k' = k := by
    have : (n.inUnits ℓ τ).run.target = n.run.target := rfl
    rw [i4, j4] at this
    exact_mod_cast this
  obtain rfl : t' = t.inUnits ℓ τ := by
    have : (n.run.wells.map (SWell.inUnits ℓ τ))[k']? = some t' := i5
    rw [List.getElem?_map, j5] at this
    exact (Option.some.inj this).symm
  subst hobs
  generalize hA : realizations (oneka a env).events = A at j6 j7 ⊢
  generalize hB : realizations (oneka a' { env with run := { env.run with mvn := mvn' } }).events = B at i6 i7 i9 ⊢
  have i6' : (B.length : ℤ) = n.nrealizations := i6
  have hlen : A.length = B.length := by
    have : (A.length : ℤ) = B.length := by rw [j6, i6']
    exact_mod_cast this
  have key : ∀ i : Fin B.length, ∃ trs L, A[i.1]? = some L ∧ B[i.1].model = L.model.inUnits ℓ τ ∧ B[i.1].ev = coefInUnits ℓ τ (L.model.logShift ℓ) L.ev ∧ B[i.1].cov = covInUnits ℓ τ L.cov ∧
      RetracedIn ℓ τ { n.run with obs := obs } t (env.run.interrupt i) L.model trs ∧ B[i.1].traces = trs.map (Trace.inUnits ℓ τ) := by
    intro i
    have hi : i.1 < A.length := by rw [hlen]; exact i.2
    obtain ⟨m1, m2, m3, trs, m4, m5⟩ := realized_units (a := { n.run with obs := obs }) hℓ hτ h1 h2 h3 (fun μ hμ d j => sample_times hμ d _) (fun ev cov s => hm i ev cov s)
      (j7 i _ (List.getElem?_eq_getElem hi)) (i7 i _ (List.getElem?_eq_getElem i.2))
    exact ⟨trs, _, List.getElem?_eq_getElem hi, m1, m2, m3, m4, m5⟩
  choose f hf using key
  refine ⟨d', f', obs, k', t, List.ofFn f, j3, j4, j5, j6, i6', by rw [List.length_ofFn]; exact i6', ?_, i1, i2, i8, fun p q hpq => ?_⟩
  · intro i L L' trs e1 e2 e3
    rw [List.getElem?_ofFn] at e3
    split_ifs at e3 with hi
    obtain rfl := Option.some.inj e3
    obtain ⟨L0, e0, this⟩ := hf ⟨i, hi⟩
    rw [List.getElem?_eq_getElem hi] at e2
    obtain rfl := Option.some.inj (e1.symm.trans e0)
    obtain rfl := Option.some.inj e2
    exact this
  have hw := i9 p q (hpq.imp id fun h => mul_le_mul_of_nonneg_left h hℓ.le)
  have ex : (t.inUnits ℓ τ).xw + p * (n.inUnits ℓ τ).run.spacing = ℓ * (t.xw + p * n.run.spacing) := by
    show ℓ * t.xw + p * (ℓ * n.run.spacing) = _
    ring
  have ey : (t.inUnits ℓ τ).yw + q * (n.inUnits ℓ τ).run.spacing = ℓ * (t.yw + q * n.run.spacing) := by
    show ℓ * t.yw + q * (ℓ * n.run.spacing) = _
    ring
  rw [ex, ey] at hw
  rw [hw]
  have hBf : B = List.ofFn fun i : Fin B.length => B[i.1] := List.ofFn_getElem.symm
  have : B.countP (fun L => L.Captures (n.inUnits ℓ τ).run.umbra (ℓ * (t.xw + p * n.run.spacing)) (ℓ * (t.yw + q * n.run.spacing))) =
      (List.ofFn f).countP fun trs => ∃ tr ∈ trs, NearTrack tr.path n.run.umbra (t.xw + p * n.run.spacing) (t.yw + q * n.run.spacing) := by
    conv_lhs => rw [hBf]
    rw [List.ofFn_eq_map, List.ofFn_eq_map, List.countP_map, List.countP_map]
    refine List.countP_congr fun i _ => ?_
    simp only [Function.comp_apply, decide_eq_true_eq]
    obtain ⟨L0, -, -, -, -, -, e⟩ := hf i
    exact captures_units hℓ e _ _ _
  exact_mod_cast this

omit hℓ hτ in
/-- C135: the traces are not the converted ones: with another unit of length no trace starts at the converted place. (The code starts them one unit of length outside the rim of the well.) -/
theorem C135_fails_start (hne : ℓ ≠ 1) (a a' : PyArgs) (n : Inputs) (env : CallEnv) (v v' : PyVal) (hd : a.Denotes n) (hd' : a'.Denotes (n.inUnits ℓ τ))
    (mvn' : ℕ → (Fin 6 → ℝ) → Matrix (Fin 6) (Fin 6) ℝ → Except PyErr (Fin 6 → ℝ))
    (hr : (oneka a env).ending = .returns v) (hr' : (oneka a' { env with run := { env.run with mvn := mvn' } }).ending = .returns v') (i : ℕ) (L L' : RealizationLog) (k : ℕ) (tr tr' : Trace XR)
    (hL : (realizations (oneka a env).events)[i]? = some L) (hL' : (realizations (oneka a' { env with run := { env.run with mvn := mvn' } }).events)[i]? = some L') (htr : L.traces[k]? = some tr)
    (htr' : L'.traces[k]? = some tr') : tr'.vertices.head? ≠ tr.vertices.head?.map fun p => (.fin ℓ * p.1, .fin ℓ * p.2) := by
  have key : ∀ (t : SWell) (r : RunArgs) (g g' : ℕ → XR × XR → Except PyErr (XR × XR)),
      computeBacktrace (.fin (t.xw + (t.rw + 1) * Real.cos (2 * Real.pi * k / r.npaths))) (.fin (t.yw + (t.rw + 1) * Real.sin (2 * Real.pi * k / r.npaths))) r.duration r.tol r.maxstep g = some tr →
      computeBacktrace (.fin ((t.inUnits ℓ τ).xw + ((t.inUnits ℓ τ).rw + 1) * Real.cos (2 * Real.pi * k / (r.inUnits ℓ τ).npaths)))
        (.fin ((t.inUnits ℓ τ).yw + ((t.inUnits ℓ τ).rw + 1) * Real.sin (2 * Real.pi * k / (r.inUnits ℓ τ).npaths))) (r.inUnits ℓ τ).duration (r.inUnits ℓ τ).tol (r.inUnits ℓ τ).maxstep g' = some tr' →
      tr'.vertices.head? ≠ tr.vertices.head?.map fun p => (.fin ℓ * p.1, .fin ℓ * p.2) := by
    intro t r g g' e e' h
    rw [(C17_start _ _ _ _ _ _).1 _ e, (C17_start _ _ _ _ _ _).1 _ e'] at h
    simp only [Option.map_some, Option.some.injEq, Prod.mk.injEq, XR.fin_mul, XR.fin.injEq] at h
    obtain ⟨hx, hy⟩ := h
    change ℓ * t.xw + (ℓ * t.rw + 1) * Real.cos (2 * Real.pi * k / r.npaths) = _ at hx
    change ℓ * t.yw + (ℓ * t.rw + 1) * Real.sin (2 * Real.pi * k / r.npaths) = _ at hy
    have c0 : Real.cos (2 * Real.pi * k / r.npaths) = 0 := by
      have : (1 - ℓ) * Real.cos (2 * Real.pi * k / r.npaths) = 0 := by linear_combination hx
      exact (mul_eq_zero.mp this).resolve_left (sub_ne_zero.mpr hne.symm)
    have s0 : Real.sin (2 * Real.pi * k / r.npaths) = 0 := by
      have : (1 - ℓ) * Real.sin (2 * Real.pi * k / r.npaths) = 0 := by linear_combination hy
      exact (mul_eq_zero.mp this).resolve_left (sub_ne_zero.mpr hne.symm)
    have := Real.sin_sq_add_cos_sq (2 * Real.pi * k / r.npaths)
    rw [c0, s0] at this
    norm_num at this
  by_cases hn : 1 < n.nrealizations
  · obtain ⟨-, -, obs, k1, t, -, -, -, -, j4, j5, -, j7, -⟩ := C68_stochastic a n env v hd hn hr (fun _ => none)
    obtain ⟨-, -, obs', k', t', -, -, -, -, i4, i5, -, i7, -⟩ := C68_stochastic a' (n.inUnits ℓ τ) { env with run := { env.run with mvn := mvn' } } v' hd' hn hr' (fun _ => none)
    obtain rfl : k' = k1 := by
      have : (n.inUnits ℓ τ).run.target = n.run.target := rfl
      rw [i4, j4] at this
      exact_mod_cast this
    obtain rfl : t' = t.inUnits ℓ τ := by
      have : (n.run.wells.map (SWell.inUnits ℓ τ))[k']? = some t' := i5
      rw [List.getElem?_map, j5] at this
      exact (Option.some.inj this).symm
    exact key t n.run _ _ ((j7 i L hL).traces k tr htr) ((i7 i L' hL').traces k tr' htr')
  · obtain ⟨-, -, obs, k1, t, M, -, -, -, -, j4, j5, j6, j7, -⟩ := C68_deterministic a n env v hd (not_lt.mp hn) hr (fun _ => none)
    obtain ⟨-, -, obs', k', t', M', -, -, -, -, i4, i5, i6, i7, -⟩ := C68_deterministic a' (n.inUnits ℓ τ) { env with run := { env.run with mvn := mvn' } } v' hd' (not_lt.mp hn) hr' (fun _ => none)
    obtain rfl : k' = k1 := by
      have : (n.inUnits ℓ τ).run.target = n.run.target := rfl
      rw [i4, j4] at this
      exact_mod_cast this
    obtain rfl : t' = t.inUnits ℓ τ := by
      have : (n.run.wells.map (SWell.inUnits ℓ τ))[k']? = some t' := i5
      rw [List.getElem?_map, j5] at this
      exact (Option.some.inj this).symm
    rw [j6] at hL
    rw [i6] at hL'
    rcases i with _ | i
    · obtain rfl := Option.some.inj hL
      obtain rfl := Option.some.inj hL'
      exact key t n.run _ _ (j7.traces k tr htr) (i7.traces k tr' htr')
    · simp at hL

include hℓ in
omit hτ in
/-- C135: the acres in the log are acres only if the unit of length is the metre: a returning deterministic call, the numbers of which are those of `n` (in metres) in a unit of length that is `ℓ` times smaller, logs `ℓ²` times the acres of
the area that it logs (`A` square units, or `A / ℓ²` square metres). -/
theorem C135_fails_acres (a : PyArgs) (n : Inputs) (env : CallEnv) (v : PyVal) (hd : a.Denotes (n.inUnits ℓ τ)) (hn : n.nrealizations ≤ 1) (hr : (oneka a env).ending = .returns v) :
    ∃ A c, areas (oneka a env).events = [A] ∧ acreages (oneka a env).events = [c] ∧ c = ℓ ^ 2 * (A / ℓ ^ 2 / 4046.86) ∧ (c = A / ℓ ^ 2 / 4046.86 ↔ ℓ = 1 ∨ A = 0) := by
  obtain ⟨-, -, -, -, -, -, -, A, -, -, -, -, -, -, -, -, -, -, h1, h2, -, -⟩ := C69_deterministic a (n.inUnits ℓ τ) env v hd hn hr (fun _ => none)
  refine ⟨A, _, h1, h2, by field_simp, ?_⟩
  constructor
  · intro h
    have h3 : A * (ℓ ^ 2 - 1) = 0 := by
      field_simp at h
      linear_combination h
    rcases mul_eq_zero.mp h3 with h4 | h4
    · exact .inr h4
    · left
      have : (ℓ - 1) * (ℓ + 1) = 0 := by linear_combination h4
      rcases mul_eq_zero.mp this with h5 | h5 <;> linarith
  · rintro (rfl | rfl) <;> simp

end Oneka
