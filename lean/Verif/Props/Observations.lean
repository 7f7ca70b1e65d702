import Verif.Lemmas.ObservationsRun
import Verif.Props.Oneka

/-!
# C129: order, duplicates and precision of the observations

In exact arithmetic. The order in which the observations are listed has no effect, unless some of those that are retained are closer than 1 to each other; then it can have one (`C129_order_matters`). Replacing duplicates by their weighted mean does
not change the fit if they are exactly at the same place and confined; else it can (`C129_unconfined_matters`). For confined observations only the ratios of the standard deviations matter for the expected values of the coefficients; the covariances
scale with their square. (`Apart`, `farFrom`, `Confines`, `Covered`, `blur`: Spec/Observations.lean.) Examples: `Props/ObservationsExamples.lean`.
-/

namespace Oneka

open Aquifer

/-! ## Order -/

/-- **C129.** `fit_regional_flow`: listing the observations in another order does not change the expected values and the covariances, nor the exception, nor the model. (Without wells the exception might be another one.) -/
theorem C129_fit_order (m : Aquifer ℝ) (la : LinAlg) (h1 : la.Correct) (h2 : la.Converges) (h3 : la.Strict) (obs obs' : List Obs) (h : obs.Perm obs') (xo yo : ℝ) :
    (m.wells ≠ [] → m.fitRegionalFlow la obs' xo yo = m.fitRegionalFlow la obs xo yo) ∧ (m.fitRegionalFlow la obs' xo yo).2.toOption = (m.fitRegionalFlow la obs xo yo).2.toOption :=
  ⟨fun hw => fit_perm h1 h2 h3 hw h, by rw [fit_determined h1 h2 h3, fit_determined h1 h2 h3, fitSys_perm h]⟩

/-- **C129.** The runs: the same field, models, fits and paths, the same exception, or never returning. -/
theorem C129_run_order (a : RunArgs) (obs : List Obs) (h : a.obs.Perm obs) (nrealizations : ℤ) (env : Env) (h1 : env.la.Correct) (h2 : env.la.Converges) (h3 : env.la.Strict) :
    createStochastic { a with obs := obs } nrealizations env = createStochastic a nrealizations env ∧ createDeterministic { a with obs := obs } env = createDeterministic a env :=
  ⟨(runs_perm h1 h2 h3 h nrealizations).1, (runs_perm h1 h2 h3 h nrealizations).2.1⟩

/-- **C129.** `filter_obs`: if no two of the observations farther than `buffer` from the wells are closer than 1 to each other, then it retains these, whatever their order. -/
theorem C129_filter_order (obs obs' : List Obs) (wells : List (ℝ × ℝ)) (buffer : ℝ) (h : obs.Perm obs') (ha : Apart (farFrom buffer wells obs)) :
    ∃ l l', filterObs obs wells buffer = .ok l ∧ filterObs obs' wells buffer = .ok l' ∧ l.Perm l' ∧ ∀ o, o ∈ l ↔ o ∈ obs ∧ ∀ w ∈ wells, buffer < o.dist w.1 w.2 := by
  have hp := farFrom_perm (b := buffer) (ws := wells) h
  refine ⟨_, _, filter_apart ha, filter_apart (ha.perm hp), hp, fun o => ?_⟩
  classical
  unfold farFrom
  simp only [List.mem_filter, decide_eq_true_eq]

/-- **C129.** Two calls whose observations differ in their order only, with the same random numbers, end in the same way, and report the same areas, deciles, summary and realizations; the figures differ at most in the order in which the observations are
drawn. The observations farther than `buffer` from the wells are at least 1 apart. -/
theorem C129_call_order (a a' : PyArgs) (n : Inputs) (obs : List Obs) (env : CallEnv) (hA : Acceptable a) (hA' : Acceptable a') (hd : a.Denotes n) (hd' : a'.Denotes (n.withObs obs)) (h : n.run.obs.Perm obs)
    (ha : Apart (farFrom n.buffer (n.run.wells.map fun w => (w.xw, w.yw)) n.run.obs)) (h1 : env.run.la.Correct) (h2 : env.run.la.Converges) (h3 : env.run.la.Strict) :
    (oneka a' env).ending = (oneka a env).ending ∧ areas (oneka a' env).events = areas (oneka a env).events ∧ acreages (oneka a' env).events = acreages (oneka a env).events ∧
    decileLines (oneka a' env).events = decileLines (oneka a env).events ∧ summaries (oneka a' env).events = summaries (oneka a env).events ∧
    realizations (oneka a' env).events = realizations (oneka a env).events ∧ List.Forall₂ Figure.SameButObsOrder (figures (oneka a env).events) (figures (oneka a' env).events) := by
  have hs := compute_obs h ha h1 h2 h3
  obtain ⟨c1, c2, c3, c4, c5, c6, -⟩ := call_collected hA hd env
  obtain ⟨k1, k2, k3, k4, k5, k6, -⟩ := call_collected hA' hd' env
  refine ⟨?_, ?_, ?_, ?_, ?_, ?_, ?_⟩
  · obtain ⟨-, -, -, -, -, e⟩ := call_parts hA hd env
    obtain ⟨-, -, -, -, -, e'⟩ := call_parts hA' hd' env
    rw [e, e']
    have := hs.ending
    revert this
    generalize (compute n env).ending = y
    generalize (compute (n.withObs obs) env).ending = y'
    intro hy
    match y, y', hy with
    | .returns x, .returns _, rfl => rfl
    | .raises e, .raises _, rfl => rfl
    | .diverges, .diverges, _ => rfl
  · rw [c3, k3]
    exact collect_obs hs.events fun e e' he => by cases he <;> rfl
  · rw [c4, k4]
    exact collect_obs hs.events fun e e' he => by cases he <;> rfl
  · rw [c2, k2]
    exact collect_obs hs.events fun e e' he => by cases he <;> rfl
  · rw [c6, k6]
    exact collect_obs hs.events fun e e' he => by cases he <;> rfl
  · rw [c5, k5]
    exact collect_obs hs.events fun e e' he => by cases he <;> rfl
  · rw [c1, k1]
    refine collect_obs_rel hs.events fun e e' he => ?_
    cases he with
    | same e => cases e <;> first | exact .none | exact .some (.same _)
    | filter l l' => exact .none
    | figure f f' hf => exact .some hf

/-- **C129.** … and their archives hold the same field. -/
theorem C129_archive_order (a a' : PyArgs) (n : Inputs) (obs : List Obs) (env : CallEnv) (v v' : PyVal) (hd : a.Denotes n) (hd' : a'.Denotes (n.withObs obs)) (h : n.run.obs.Perm obs)
    (ha : Apart (farFrom n.buffer (n.run.wells.map fun w => (w.xw, w.yw)) n.run.obs)) (h1 : env.run.la.Correct) (h2 : env.run.la.Converges) (h3 : env.run.la.Strict)
    (hr : (oneka a env).ending = .returns v) (hr' : (oneka a' env).ending = .returns v') (fs : Files) :
    ∃ d d' f, loadOneka ((oneka a env).events.foldl Effect.apply fs) env.now.archiveName = .ok d ∧ d.get "pfield" = some (.field f) ∧
      loadOneka ((oneka a' env).events.foldl Effect.apply fs) env.now.archiveName = .ok d' ∧ d'.get "pfield" = some (.field f) := by
  have hs := (compute_obs h ha h1 h2 h3).ending
  obtain ⟨d, f, e1, e2, e3⟩ := call_field hd hr fs
  obtain ⟨d', f', e1', e2', e3'⟩ := call_field hd' hr' fs
  rw [e1, e1'] at hs
  obtain rfl : f' = f := hs
  exact ⟨d, d', _, e2, e3, e2', e3'⟩

/-- **C129.** The condition on the distances is needed. Three observations on a line, 0.6 apart: listed from one end, the first two are merged and the third one is retained; with the middle one first, all three are merged. -/
theorem C129_order_matters : ∃ obs obs' : List Obs, obs.Perm obs' ∧ ∀ (wells : List (ℝ × ℝ)) (buffer : ℝ), (∀ o ∈ obs, ∀ w ∈ wells, buffer < o.dist w.1 w.2) →
    ∃ l l', filterObs obs wells buffer = .ok l ∧ filterObs obs' wells buffer = .ok l' ∧ l.length = 2 ∧ l'.length = 1 := by
  refine ⟨[⟨0, 0, 10, 1⟩, ⟨0.6, 0, 10, 1⟩, ⟨1.2, 0, 10, 1⟩], [⟨0.6, 0, 10, 1⟩, ⟨0, 0, 10, 1⟩, ⟨1.2, 0, 10, 1⟩], List.Perm.swap _ _ _, fun wells buffer hw => ?_⟩
  have d1 : hypot ((0:ℝ) - 0.6) (0 - 0) < 1 := by unfold hypot; rw [Real.sqrt_lt' one_pos]; norm_num
  have d2 : ¬ hypot ((0:ℝ) - 1.2) (0 - 0) < 1 := by unfold hypot; rw [Real.sqrt_lt' one_pos]; norm_num
  have d3 : hypot ((0.6:ℝ) - 0) (0 - 0) < 1 := by unfold hypot; rw [Real.sqrt_lt' one_pos]; norm_num
  have d4 : hypot ((0.6:ℝ) - 1.2) (0 - 0) < 1 := by unfold hypot; rw [Real.sqrt_lt' one_pos]; norm_num
  have hf : ∀ l : List Obs, (∀ o ∈ l, o ∈ ([⟨0, 0, 10, 1⟩, ⟨0.6, 0, 10, 1⟩, ⟨1.2, 0, 10, 1⟩] : List Obs)) → filterObs l wells buffer = mergeRuns l := by
    intro l hl
    unfold filterObs
    rw [farFrom_eq, farFrom, List.filter_eq_self.mpr]
    intro o ho
    simpa using hw o (hl o ho)
  refine ⟨[⟨0, 0, (0 + 10 / 1 ^ 2 + 10 / 1 ^ 2) / (0 + 1 / 1 ^ 2 + 1 / 1 ^ 2), Real.sqrt (1 / (0 + 1 / 1 ^ 2 + 1 / 1 ^ 2))⟩, ⟨1.2, 0, 10, 1⟩],
    [⟨0.6, 0, (0 + 10 / 1 ^ 2 + 10 / 1 ^ 2 + 10 / 1 ^ 2) / (0 + 1 / 1 ^ 2 + 1 / 1 ^ 2 + 1 / 1 ^ 2), Real.sqrt (1 / (0 + 1 / 1 ^ 2 + 1 / 1 ^ 2 + 1 / 1 ^ 2))⟩], ?_, ?_, rfl, rfl⟩
  · rw [hf _ (by simp), mergeRuns]
    simp only [List.takeWhile_cons, List.dropWhile_cons, d1, d2, decide_true, decide_false, if_true, Bool.false_eq_true, if_false]
    rw [mergeRuns]
    simp only [List.takeWhile_nil, List.dropWhile_nil, mergeRuns, mergeGroup, if_true, accumulate]
    norm_num
  · rw [hf _ (by simp), mergeRuns]
    simp only [List.takeWhile_cons, List.dropWhile_cons, d3, d4, decide_true, if_true, List.takeWhile_nil, List.dropWhile_nil, mergeRuns, mergeGroup, accumulate, reduceCtorEq, if_false]
    norm_num

/-! ## Duplicates -/

/-- **C129.** Merging duplicates loses nothing: if retained observations closer than 1 to a preceding one are exactly at its place, and both are confined, then the fit to what `filter_obs` returns is the fit to all observations farther than `buffer` from
the wells. -/
theorem C129_duplicates (m : Aquifer ℝ) (hK : 0 < m.conductivity) (hT : 0 < m.thickness) (la : LinAlg) (h1 : la.Correct) (h2 : la.Converges) (h3 : la.Strict) (obs : List Obs) (wells : List (ℝ × ℝ)) (buffer : ℝ)
    (hu : m.Usable (farFrom buffer wells obs))
    (hd : (farFrom buffer wells obs).Pairwise fun o p => o.dist p.x p.y < 1 → p.x = o.x ∧ p.y = o.y ∧ m.Confines o ∧ m.Confines p) (xo yo : ℝ) :
    ∃ l, filterObs obs wells buffer = .ok l ∧ m.fitRegionalFlow la l xo yo = m.fitRegionalFlow la (farFrom buffer wells obs) xo yo := by
  unfold filterObs
  rw [farFrom_eq]
  obtain ⟨gs, hG⟩ := grouping_exists (farFrom buffer wells obs)
  obtain ⟨rs, e, -⟩ := (grouping_spec hG).1 fun g hg _ o ho => by
    have : o ∈ farFrom buffer wells obs := by
      rw [← grouping_flatten hG]
      exact List.mem_flatten.mpr ⟨g, hg, ho⟩
    exact (hu o this).2.1.ne'
  exact ⟨rs, e, merged_fit h1 h2 h3 hK hT hu hd e⟩

/-- **C129.** … so that the runs are the same with the merged observations and with all of them. -/
theorem C129_duplicates_run (a : RunArgs) (wells : List (ℝ × ℝ)) (buffer : ℝ) (l : List Obs) (hl : filterObs a.obs wells buffer = .ok l) (hc : a.Covered (farFrom buffer wells a.obs))
    (hd : (farFrom buffer wells a.obs).Pairwise fun o p => o.dist p.x p.y < 1 → p.x = o.x ∧ p.y = o.y) (nrealizations : ℤ) (env : Env) (h1 : env.la.Correct) (h2 : env.la.Converges) (h3 : env.la.Strict) :
    ((∀ i j, 0 ≤ env.u i j ∧ env.u i j < 1) → createStochastic { a with obs := l } nrealizations env = createStochastic { a with obs := farFrom buffer wells a.obs } nrealizations env) ∧
    createDeterministic { a with obs := l } env = createDeterministic { a with obs := farFrom buffer wells a.obs } env := by
  have hm : mergeRuns (farFrom buffer wells a.obs) = .ok l := by
    rw [← farFrom_eq]
    exact hl
  have key : ∀ (q : Dist → ℕ → Except PyErr ℝ), (∀ d j lo hi x, IsDist d.toPy lo hi → q d j = .ok x → lo ≤ x ∧ x ≤ hi) → ∀ (t : SWell) (mo : Aquifer ℝ), drawModel a q = .ok mo →
      mo.fitRegionalFlow env.la l t.xw t.yw = mo.fitRegionalFlow env.la (farFrom buffer wells a.obs) t.xw t.yw := by
    intro q hq t mo hmo
    obtain ⟨m1, m2, m3, m4⟩ := covered_model hc hq hmo
    refine merged_fit h1 h2 h3 m1 m2 m3 ?_ hm
    refine (List.pairwise_iff_forall_sublist.mpr fun {o p} hs hlt => ?_)
    obtain ⟨e1, e2⟩ := (List.pairwise_iff_forall_sublist.mp hd) hs hlt
    exact ⟨e1, e2, m4 o (hs.subset (by simp)), m4 p (hs.subset (by simp))⟩
  refine ⟨fun hu => ?_, ?_⟩
  · refine stochastic_obs (a := { a with obs := farFrom buffer wells a.obs }) fun t _ i mo hmo => key _ (fun d j lo hi x hd hx => sample_mem hd (hu i j).1 (hu i j).2 hx) t mo hmo
  · exact deterministic_obs (a := { a with obs := farFrom buffer wells a.obs }) fun t _ mo hmo => key _ (fun d _ lo hi x hd hx => mean_range hd hx) t mo hmo

/-- **C129.** The levels must be above the top of the aquifer: in an aquifer 100 thick, two duplicates with levels 29 and 31 do not determine the coefficients as precisely as their weighted mean does. -/
theorem C129_unconfined_matters (la : LinAlg) (h1 : la.Correct) (h2 : la.Converges) (h3 : la.Strict) : ∃ (m : Aquifer ℝ) (obs : List Obs) (l : List Obs), m.conductivity = 1 ∧ m.thickness = 100 ∧ m.Usable obs ∧
    (obs.Pairwise fun o p => o.dist p.x p.y < 1 → p.x = o.x ∧ p.y = o.y) ∧ filterObs obs [] 1 = .ok l ∧ ∃ r r', (m.fitRegionalFlow la obs 0 0).2 = .ok r ∧ (m.fitRegionalFlow la l 0 0).2 = .ok r' ∧ r'.2 ≠ r.2 := by
  have hf : ∀ obs : List Obs, filterObs obs [] 1 = mergeRuns obs := by
    intro obs
    unfold filterObs
    rw [farFrom_eq, farFrom, List.filter_eq_self.mpr (by simp)]
  have hm : mergeRuns (sixObs ++ [⟨0, 2, 31, 0.5⟩]) = .ok [⟨3, 0, 30, 1⟩, ⟨1, 0, 31, 1⟩, ⟨0, 1, 32, 2⟩, ⟨1, 1, 30, 1⟩, ⟨2, 0, 35, 1⟩, ⟨0, 2, 30, Real.sqrt (1 / 8)⟩] := by
    unfold sixObs
    simp only [List.cons_append, List.nil_append]
    refine mergeRuns_far (by norm_num) (mergeRuns_far (by norm_num) (mergeRuns_far (by norm_num) (mergeRuns_far (by norm_num) (mergeRuns_far (by norm_num) ?_))))
    rw [mergeRuns_two (o := ⟨0, 2, 29, 0.5⟩) (p := ⟨0, 2, 31, 0.5⟩) ⟨rfl, rfl⟩ (by norm_num) (by norm_num)]
    norm_num
  have hs : Real.sqrt (1 / 8) ^ 2 = 1 / 8 := Real.sq_sqrt (by norm_num)
  have hsp : 0 < Real.sqrt (1 / 8) := Real.sqrt_pos.mpr (by norm_num)
  set m : Aquifer ℝ := { plain with conductivity := 1, thickness := 100 } with hmdef
  have hu : m.Usable (sixObs ++ [⟨0, 2, 31, 0.5⟩]) := by
    intro o ho
    rcases List.mem_append.mp ho with ho | ho
    · exact sixObs_usable_of (m := m) rfl (by simp [hmdef, plain]) o ho
    · obtain rfl := List.mem_singleton.mp ho
      exact ⟨by show (0:ℝ) < 31; norm_num, by norm_num, by simp [OffWells, hmdef, plain]⟩
  have hu' : m.Usable [⟨3, 0, 30, 1⟩, ⟨1, 0, 31, 1⟩, ⟨0, 1, 32, 2⟩, ⟨1, 1, 30, 1⟩, ⟨2, 0, 35, 1⟩, ⟨0, 2, 30, Real.sqrt (1 / 8)⟩] := by
    intro o ho
    have hb : m.base = 0 := rfl
    simp only [List.mem_cons, List.not_mem_nil, or_false] at ho
    refine ⟨?_, ?_, by simp [OffWells, hmdef, plain]⟩
    · rw [hb]
      rcases ho with rfl | rfl | rfl | rfl | rfl | rfl <;> norm_num
    · rcases ho with rfl | rfl | rfl | rfl | rfl | rfl <;> first | exact hsp | norm_num
  have g : ¬ OnOneConic (sixObs ++ [⟨0, 2, 31, 0.5⟩]) := fun ⟨c, hc, h⟩ => sixObs_general ⟨c, hc, fun o ho => h o (by simp [ho])⟩
  have g' : ¬ OnOneConic [⟨3, 0, 30, 1⟩, ⟨1, 0, 31, 1⟩, ⟨0, 1, 32, 2⟩, ⟨1, 1, 30, 1⟩, ⟨2, 0, 35, 1⟩, ⟨0, 2, 30, Real.sqrt (1 / 8)⟩] := by
    rintro ⟨c, hc, h⟩
    refine sixObs_general ⟨c, hc, fun o ho => ?_⟩
    simp only [sixObs, List.mem_cons, List.not_mem_nil, or_false] at ho
    rcases ho with rfl | rfl | rfl | rfl | rfl | rfl
    · exact h ⟨3, 0, 30, 1⟩ (by simp)
    · exact h ⟨1, 0, 31, 1⟩ (by simp)
    · exact h ⟨0, 1, 32, 2⟩ (by simp)
    · exact h ⟨1, 1, 30, 1⟩ (by simp)
    · exact h ⟨2, 0, 35, 1⟩ (by simp)
    · exact h ⟨0, 2, 30, Real.sqrt (1 / 8)⟩ (by simp)
  have hK : 0 < m.conductivity := one_pos
  have hT : 0 < m.thickness := by show (0:ℝ) < 100; norm_num
  obtain ⟨r, hr⟩ := (C37_degenerate la h1 h2 m hK hT _ 0 0 hu).2 g
  obtain ⟨r', hr'⟩ := (C37_degenerate la h1 h2 m hK hT _ 0 0 hu').2 g'
  refine ⟨m, _, _, rfl, rfl, hu, ?_, (hf _).trans hm, r, r', hr, hr', fun e => ?_⟩
  · have key : ∀ (o : Obs) (x y : ℝ), o.dist x y < 1 → (o.x - x) ^ 2 + (o.y - y) ^ 2 < 1 := by
      intro o x y h
      unfold Obs.dist at h
      rw [Real.sqrt_lt' one_pos] at h
      linarith
    simp only [sixObs, List.cons_append, List.nil_append, List.pairwise_cons, List.mem_cons, List.not_mem_nil, or_false, forall_eq_or_imp, forall_eq]
    refine ⟨⟨?_, ?_, ?_, ?_, ?_, ?_⟩, ⟨?_, ?_, ?_, ?_, ?_⟩, ⟨?_, ?_, ?_, ?_⟩, ⟨?_, ?_, ?_⟩, ⟨?_, ?_⟩, fun _ => ⟨trivial, trivial⟩, by simp⟩
    all_goals intro h; have := key _ _ _ h; norm_num at this
  · have hG := fit_gram h1 h2 h3 (fitSys_usable (xo := 0) (yo := 0) hK hT hu) (fitSys_usable (xo := 0) (yo := 0) hK hT hu') hr hr' e
    have h5 := congrFun (congrFun hG 5) 5
    simp only [sixObs, List.cons_append, List.nil_append, List.map_cons, List.map_nil, List.sum_cons, List.sum_nil, rowOf, potentialStd, hmdef, plain, mono] at h5
    norm_num at h5
    have h8 : Real.sqrt 8 * Real.sqrt 8 = 8 := Real.mul_self_sqrt (by norm_num)
    have h80 : Real.sqrt 8 ≠ 0 := by positivity
    have e5 : (![0, 4, 0, 0, 2, 1] : Fin 6 → ℝ) 5 = 1 := rfl
    rw [e5] at h5
    have : (1 / (30 * (Real.sqrt 8)⁻¹) * (1 / (30 * (Real.sqrt 8)⁻¹))) = 8 / 900 := by
      field_simp
      nlinarith
    rw [this] at h5
    norm_num at h5

/-! ## Precision -/

/-- **C129.** `filter_obs` with `c` times all standard deviations: the same places and levels, with `c` times the standard deviations. -/
theorem C129_filter_precision (c : ℝ) (hc : 0 < c) (obs : List Obs) (wells : List (ℝ × ℝ)) (buffer : ℝ) :
    filterObs (obs.map (Obs.blur c)) wells buffer = (filterObs obs wells buffer).map (List.map (Obs.blur c)) :=
  filterObs_blur hc obs wells buffer

/-- **C129.** `fit_regional_flow` with `c` times all standard deviations, if all observations are confined: the same expected values, and `c ^ 2` times the covariances, or the same exception. -/
theorem C129_fit_precision (m : Aquifer ℝ) (hK : 0 < m.conductivity) (hT : 0 < m.thickness) (la : LinAlg) (h1 : la.Correct) (h2 : la.Converges) (h3 : la.Strict) (c : ℝ) (hc : 0 < c) (obs : List Obs) (hu : m.Usable obs)
    (hl : ∀ o ∈ obs, m.Confines o) (xo yo : ℝ) : m.fitRegionalFlow la (obs.map (Obs.blur c)) xo yo =
      ((m.fitRegionalFlow la obs xo yo).1, (m.fitRegionalFlow la obs xo yo).2.map fun r => (r.1, c ^ 2 • r.2)) :=
  fit_blur h1 h2 h3 hK hT hc hu hl

/-- **C129.** A deterministic run with `c` times all standard deviations, if all observations are confined: the same field, model and paths, or the same exception, or never returning. -/
theorem C129_run_precision (a : RunArgs) (hcov : a.Covered a.obs) (c : ℝ) (hc : 0 < c) (env : Env) (h1 : env.la.Correct) (h2 : env.la.Converges) (h3 : env.la.Strict) :
    createDeterministic { a with obs := a.obs.map (Obs.blur c) } env = (createDeterministic a env).map fun r => ⟨r.outcome, r.log.map (RealizationLog.blur c)⟩ :=
  deterministic_blur fun t _ mo hmo => by
    obtain ⟨m1, m2, m3, m4⟩ := covered_model hcov (fun d _ lo hi x hd hx => mean_range hd hx) hmo
    exact fit_blur h1 h2 h3 m1 m2 hc m3 m4

end Oneka
