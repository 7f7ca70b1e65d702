import Verif.Lemmas.Call

/-!
# What the computations of a call do, case by case
-/

namespace Oneka

theorem stochastic_field {a : RunArgs} {n k : ℕ} {env : Env} {t : SWell} (hk : a.target = k) (ht : a.wells[k]? = some t)
    {r : RunResult} {f : PField ℝ} (h : createStochastic a n env = some r) (ho : r.outcome = .ok f) :
    f.Reachable ∧ f.body ≠ none ∧ f.total = n := by
  have h0 := h
  unfold createStochastic at h
  rw [hk, getWell_nat ht] at h
  simp only at h
  split at h
  · obtain rfl := Option.some.inj h
    simp at ho
  · rename_i f0 hnew
    obtain ⟨hs, hdx, hdy, h0', hr0, hm0, hw0, ⟨b, hb, hbx, hby⟩, hnr, hnc⟩ := new_spec hnew
    obtain ⟨ls, a1, a2, -, a4, a5, -⟩ := loop_spec _ 0 f0 b [] r f hr0 hb hm0 h ho
    obtain ⟨b1, hb1, -⟩ := a5.lattice b hb
    exact ⟨a4, by rw [hb1]; simp, (C44_frequencies a n k env t hk ht h0 ho).2.1⟩

theorem deterministic_field {a : RunArgs} {k : ℕ} {env : Env} {t : SWell} (hk : a.target = k) (ht : a.wells[k]? = some t)
    {r : RunResult} {f : PField ℝ} (h : createDeterministic a env = some r) (ho : r.outcome = .ok f) :
    f.Reachable ∧ f.body ≠ none ∧ f.total = 1 ∧ f.deltax = a.spacing ∧ f.deltay = a.spacing := by
  have h0 := h
  obtain ⟨L, -, -, -, htot, -⟩ := C46_deterministic a k env t hk ht h0 ho
  unfold createDeterministic at h
  rw [hk, getWell_nat ht] at h
  simp only at h
  split at h
  · obtain rfl := Option.some.inj h
    simp at ho
  · rename_i f0 hnew
    obtain ⟨hs, hdx, hdy, h0', hr0, hm0, hw0, ⟨b, hb, hbx, hby⟩, hnr, hnc⟩ := new_spec hnew
    split at h
    · simp at h
    rename_i o l hreal
    obtain rfl := Option.some.inj h
    simp only at ho
    subst ho
    obtain ⟨L, -, -, -, a4, a5, -⟩ := realize_spec hr0 hb hm0 hreal
    obtain ⟨b1, hb1, -⟩ := a5.lattice b hb
    exact ⟨a4, by rw [hb1]; simp, htot, by rw [a5.dx, hdx], by rw [a5.dy, hdy]⟩

/-- the places of the wells -/
def Inputs.wellfield (n : Inputs) : List (ℝ × ℝ) := n.run.wells.map fun w => (w.xw, w.yw)

/-- with positive standard deviations nothing is divided by zero -/
theorem filter_ok {obs : List Obs} (h : ∀ o ∈ obs, 0 < o.std) (wells : List (ℝ × ℝ)) (buffer : ℝ) :
    ∃ out, filterObs obs wells buffer = .ok out := by
  obtain ⟨kept, gs, ⟨hk, hg⟩, -⟩ := C51_groups obs wells buffer
  cases he : filterObs obs wells buffer with
  | ok out => exact ⟨out, rfl⟩
  | error e =>
    exfalso
    obtain ⟨-, g, hgm, -, o, ho, h0⟩ := (C51_error obs kept wells buffer gs hk hg e).mp he
    have : o ∈ kept := by
      rw [← grouping_flatten hg]
      exact List.mem_flatten.mpr ⟨g, hgm, ho⟩
    have := h o (hk.1.subset this)
    rw [h0] at this
    exact lt_irrefl _ this

/-- the table handed to `summary_statistics` -/
def obsTable (obs : List Obs) : List (List (Option ℝ)) := obs.map fun o => [some o.x, some o.y, some o.z, some o.std]

theorem summary_ok {obs : List Obs} (h : obs ≠ []) : ∃ cols, summaryStatistics (obsTable obs) = .ok cols ∧ cols.length = 4 ∧
    ∀ (j : ℕ) (s : ColumnStats), cols[j]? = some s → ColumnOK ((obsTable obs).map (fun v => v.getD j none) |>.filterMap id) s := by
  refine C52_statistics (obsTable obs) 4 (by simpa [obsTable] using h) ?_ ?_
  · intro v hv
    obtain ⟨o, -, rfl⟩ := List.mem_map.mp hv
    rfl
  · intro j hj
    obtain ⟨o, ho⟩ := List.exists_mem_of_ne_nil _ h
    refine ⟨_, List.mem_map.mpr ⟨o, ho, rfl⟩, ?_⟩
    interval_cases j <;> exact ⟨_, rfl⟩

/-- the run that the call makes -/
noncomputable def theRun (n : Inputs) (env : CallEnv) (obs : List Obs) : Option RunResult :=
  if 1 < n.nrealizations then createStochastic { n.run with obs := obs } n.nrealizations env.run
  else createDeterministic { n.run with obs := obs } env.run

/-- what `filter_obs` logs -/
noncomputable def filterEvents (n : Inputs) : List Effect := ((filterLog n.run.obs n.wellfield n.buffer).map LogLine.filter).map Effect.log

/-- what is logged before the run -/
noncomputable def preLog (n : Inputs) (cols : List ColumnStats) : List Effect := filterEvents n ++ [.log (.text "\n"), .log (.summary cols)]

/-- what the run logs that the call makes, if it never returns -/
noncomputable def theEndless (n : Inputs) (env : CallEnv) (obs : List Obs) : List RealizationLog :=
  if 1 < n.nrealizations then endlessStochastic { n.run with obs := obs } n.nrealizations env.run
  else endlessDeterministic { n.run with obs := obs } env.run

/-- what the run logs -/
def runLog (r : RunResult) : List Effect := r.log.map fun l => .log (.realization l)

section
variable {n : Inputs} {env : CallEnv} {obs : List Obs}

theorem compute_unfiltered {e : PyErr} (h : filterObs n.run.obs n.wellfield n.buffer = .error e) : compute n env = ⟨filterEvents n, .raises e⟩ := by
  unfold compute
  unfold filterEvents
  unfold Inputs.wellfield at h ⊢
  rw [Prog.bind_ret (a := ()) rfl, Prog.lift_error h]
  simp [Prog.infos]

theorem compute_few (h : filterObs n.run.obs n.wellfield n.buffer = .ok obs) (h6 : obs.length ≤ 6) :
    compute n env = ⟨filterEvents n, .raises .assertionError⟩ := by
  unfold compute
  unfold filterEvents
  unfold Inputs.wellfield at h ⊢
  rw [Prog.bind_ret (a := ()) rfl, Prog.lift_ok h, Prog.lift_error (e := .assertionError)]
  · simp [Prog.infos]
  · rw [decide_eq_false (by omega)]
    rfl

theorem compute_pre (h : filterObs n.run.obs n.wellfield n.buffer = .ok obs) (h6 : 6 < obs.length) {cols : List ColumnStats}
    (hc : summaryStatistics (obsTable obs) = .ok cols) :
    compute n env = ⟨preLog n cols ++ (if 1 < n.nrealizations then (do
        let f ← runProg (endlessStochastic { n.run with obs := obs } n.nrealizations env.run) (createStochastic { n.run with obs := obs } n.nrealizations env.run)
        let plot ← Prog.lift (createProbabilityPlot env.gaussian n.run.target n.run.wells obs f n.smooth)
        Prog.emit (.figure (.probability plot))
        let im ← Prog.lift (createImpactPlot n.run.spacing f)
        Prog.emit (.figure (.impact im.drawn))
        Prog.infos decileHeader
        let lines ← Prog.lift (decileTable im)
        Prog.infos (lines.map fun l => .decile l.1 l.2)
        Prog.info (.text "===========================================")
        pure (.field f))
      else (do
        let f ← runProg (endlessDeterministic { n.run with obs := obs } env.run) (createDeterministic { n.run with obs := obs } env.run)
        let plot ← Prog.lift (createDeterministicPlot n.run.target n.run.wells obs f)
        Prog.emit (.figure (.deterministic plot))
        Prog.info (.text "\n")
        Prog.info (.text "Capture Zone Area:")
        Prog.info (.area plot.area)
        Prog.info (.acres (plot.area / acre))
        pure (.field f)) : Prog FieldVal).events, (if 1 < n.nrealizations then (do
        let f ← runProg (endlessStochastic { n.run with obs := obs } n.nrealizations env.run) (createStochastic { n.run with obs := obs } n.nrealizations env.run)
        let plot ← Prog.lift (createProbabilityPlot env.gaussian n.run.target n.run.wells obs f n.smooth)
        Prog.emit (.figure (.probability plot))
        let im ← Prog.lift (createImpactPlot n.run.spacing f)
        Prog.emit (.figure (.impact im.drawn))
        Prog.infos decileHeader
        let lines ← Prog.lift (decileTable im)
        Prog.infos (lines.map fun l => .decile l.1 l.2)
        Prog.info (.text "===========================================")
        pure (.field f))
      else (do
        let f ← runProg (endlessDeterministic { n.run with obs := obs } env.run) (createDeterministic { n.run with obs := obs } env.run)
        let plot ← Prog.lift (createDeterministicPlot n.run.target n.run.wells obs f)
        Prog.emit (.figure (.deterministic plot))
        Prog.info (.text "\n")
        Prog.info (.text "Capture Zone Area:")
        Prog.info (.area plot.area)
        Prog.info (.acres (plot.area / acre))
        pure (.field f)) : Prog FieldVal).ending⟩ := by
  unfold preLog filterEvents
  unfold Inputs.wellfield at h ⊢
  unfold obsTable at hc
  conv_lhs => unfold compute
  rw [Prog.bind_ret (a := ()) rfl, Prog.lift_ok h, Prog.lift_ok (a := ()), Prog.lift_ok hc, Prog.bind_ret (a := ()) rfl, Prog.bind_ret (a := ()) rfl]
  · simp only [Prog.infos, List.append_assoc]
    rfl
  · rw [decide_eq_true (by omega)]
    rfl

variable (h : filterObs n.run.obs n.wellfield n.buffer = .ok obs) (h6 : 6 < obs.length) {cols : List ColumnStats}
  (hc : summaryStatistics (obsTable obs) = .ok cols)
include h h6 hc

theorem compute_none (hr : theRun n env obs = none) : compute n env = ⟨preLog n cols ++ (theEndless n env obs).map fun l => .log (.realization l), .diverges⟩ := by
  rw [compute_pre h h6 hc]
  unfold theRun at hr
  unfold theEndless
  split at hr
  · rename_i h1
    rw [if_pos h1, if_pos h1, hr, Prog.bind_div rfl]
    simp [runProg]
  · rename_i h1
    rw [if_neg h1, if_neg h1, hr, Prog.bind_div rfl]
    simp [runProg]

theorem compute_error {r : RunResult} {e : PyErr} (hr : theRun n env obs = some r) (he : r.outcome = .error e) :
    compute n env = ⟨preLog n cols ++ runLog r, .raises e⟩ := by
  have hend : ∀ E, (runProg E (some r)).ending = .raises e := fun E => by simp [runProg, he]
  rw [compute_pre h h6 hc]
  unfold theRun at hr
  split at hr
  · rename_i h1
    rw [if_pos h1, hr, Prog.bind_raise (hend _)]
    rfl
  · rename_i h1
    rw [if_neg h1, hr, Prog.bind_raise (hend _)]
    rfl

theorem compute_stochastic (h1 : 1 < n.nrealizations) {r : RunResult} {f : PField ℝ} (hr : theRun n env obs = some r) (he : r.outcome = .ok f)
    {pl : ProbabilityPlot} (hp : createProbabilityPlot env.gaussian n.run.target n.run.wells obs f n.smooth = .ok pl) {im : Impact}
    (hi : createImpactPlot n.run.spacing f = .ok im) {lines : List (ℝ × ℝ)} (hl : decileTable im = .ok lines) :
    compute n env = ⟨preLog n cols ++ runLog r ++ [.figure (.probability pl), .figure (.impact im.drawn)] ++ decileHeader.map .log ++
      lines.map (fun l => .log (.decile l.1 l.2)) ++ [.log (.text "===========================================")], .returns (.field f)⟩ := by
  have hend : ∀ E, (runProg E (some r)).ending = .returns f := fun E => by simp [runProg, he]
  rw [compute_pre h h6 hc]
  unfold theRun at hr
  rw [if_pos h1] at hr
  rw [if_pos h1, hr, Prog.bind_ret (hend _), Prog.lift_ok hp, Prog.bind_ret (a := ()) rfl, Prog.lift_ok hi, Prog.bind_ret (a := ()) rfl,
    Prog.bind_ret (a := ()) rfl, Prog.lift_ok hl, Prog.bind_ret (a := ()) rfl, Prog.bind_ret (a := ()) rfl]
  simp [runProg, runLog, Prog.emit, Prog.infos, Prog.info, pure]

theorem compute_deterministic (h1 : n.nrealizations ≤ 1) {r : RunResult} {f : PField ℝ} (hr : theRun n env obs = some r) (he : r.outcome = .ok f)
    {pl : DeterministicPlot} (hp : createDeterministicPlot n.run.target n.run.wells obs f = .ok pl) :
    compute n env = ⟨preLog n cols ++ runLog r ++ [.figure (.deterministic pl), .log (.text "\n"), .log (.text "Capture Zone Area:"),
      .log (.area pl.area), .log (.acres (pl.area / acre))], .returns (.field f)⟩ := by
  have hend : ∀ E, (runProg E (some r)).ending = .returns f := fun E => by simp [runProg, he]
  rw [compute_pre h h6 hc]
  unfold theRun at hr
  rw [if_neg (by omega)] at hr
  rw [if_neg (by omega), hr, Prog.bind_ret (hend _), Prog.lift_ok hp, Prog.bind_ret (a := ()) rfl, Prog.bind_ret (a := ()) rfl,
    Prog.bind_ret (a := ()) rfl, Prog.bind_ret (a := ()) rfl, Prog.bind_ret (a := ()) rfl]
  simp [runProg, runLog, Prog.emit, Prog.info, pure]

end

/-- The course of the computations, for accepted regular arguments. -/
inductive Computed (n : Inputs) (env : CallEnv) (obs : List Obs) : Prop
  | few : obs.length ≤ 6 → compute n env = ⟨filterEvents n, .raises .assertionError⟩ → Computed n env obs
  | endless (cols : List ColumnStats) : 6 < obs.length → summaryStatistics (obsTable obs) = .ok cols → theRun n env obs = none →
      compute n env = ⟨preLog n cols ++ (theEndless n env obs).map fun l => .log (.realization l), .diverges⟩ → Computed n env obs
  | failed (cols : List ColumnStats) (r : RunResult) (e : PyErr) : 6 < obs.length → summaryStatistics (obsTable obs) = .ok cols →
      theRun n env obs = some r → r.outcome = .error e → compute n env = ⟨preLog n cols ++ runLog r, .raises e⟩ → Computed n env obs
  | stochastic (cols : List ColumnStats) (r : RunResult) (f : PField ℝ) (pl : ProbabilityPlot) (im : Impact) (lines : List (ℝ × ℝ)) :
      6 < obs.length → summaryStatistics (obsTable obs) = .ok cols → 1 < n.nrealizations → theRun n env obs = some r → r.outcome = .ok f →
      f.Reachable → 0 < f.total →
      createProbabilityPlot env.gaussian n.run.target n.run.wells obs f n.smooth = .ok pl → createImpactPlot n.run.spacing f = .ok im →
      decileTable im = .ok lines →
      compute n env = ⟨preLog n cols ++ runLog r ++ [.figure (.probability pl), .figure (.impact im.drawn)] ++ decileHeader.map .log ++
        lines.map (fun l => .log (.decile l.1 l.2)) ++ [.log (.text "===========================================")], .returns (.field f)⟩ →
      Computed n env obs
  | deterministic (cols : List ColumnStats) (r : RunResult) (f : PField ℝ) (pl : DeterministicPlot) :
      6 < obs.length → summaryStatistics (obsTable obs) = .ok cols → n.nrealizations ≤ 1 → theRun n env obs = some r → r.outcome = .ok f →
      f.Reachable → 0 < f.total →
      createDeterministicPlot n.run.target n.run.wells obs f = .ok pl →
      compute n env = ⟨preLog n cols ++ runLog r ++ [.figure (.deterministic pl), .log (.text "\n"), .log (.text "Capture Zone Area:"),
        .log (.area pl.area), .log (.acres (pl.area / acre))], .returns (.field f)⟩ → Computed n env obs

theorem computed {n : Inputs} (env : CallEnv) {obs : List Obs} (h : filterObs n.run.obs n.wellfield n.buffer = .ok obs) {k : ℕ} {t : SWell}
    (hk : n.run.target = k) (ht : n.run.wells[k]? = some t) : Computed n env obs := by
  by_cases h6 : 6 < obs.length
  swap
  · exact .few (by omega) (compute_few h (by omega))
  obtain ⟨cols, hc, -⟩ := summary_ok (obs := obs) (by rintro rfl; simp at h6)
  cases hr : theRun n env obs with
  | none => exact .endless cols h6 hc hr (compute_none h h6 hc hr)
  | some r =>
    cases he : r.outcome with
    | error e => exact .failed cols r e h6 hc hr he (compute_error h h6 hc hr he)
    | ok f =>
      have hkl : k < n.run.wells.length := by
        by_contra hh
        rw [List.getElem?_eq_none (by omega)] at ht
        simp at ht
      by_cases h1 : 1 < n.nrealizations
      · have hr' := hr
        unfold theRun at hr'
        rw [if_pos h1, show n.nrealizations = ((n.nrealizations.toNat : ℕ) : ℤ) by omega] at hr'
        obtain ⟨f1, f2, f3⟩ := stochastic_field (a := { n.run with obs := obs }) hk ht hr' he
        have hpos : 0 < f.total := by
          rw [f3]
          have : 0 < n.nrealizations.toNat := by omega
          exact_mod_cast this
        have key := fun e => C56_empty f f1 f2 k n.run.wells hkl obs n.smooth n.run.spacing env.gaussian e
        rw [← hk] at key
        obtain ⟨pl, hp⟩ : ∃ pl, createProbabilityPlot env.gaussian n.run.target n.run.wells obs f n.smooth = .ok pl := by
          cases hp : createProbabilityPlot env.gaussian n.run.target n.run.wells obs f n.smooth with
          | ok pl => exact ⟨pl, rfl⟩
          | error e => exact absurd ((key e).1.mp hp).2 (not_le.mpr hpos)
        obtain ⟨im, hi⟩ : ∃ im, createImpactPlot n.run.spacing f = .ok im := by
          cases hp : createImpactPlot n.run.spacing f with
          | ok pl => exact ⟨pl, rfl⟩
          | error e => exact absurd ((key e).2.2.mp hp).2 (not_le.mpr hpos)
        obtain ⟨lines, hl⟩ := decile_total f f1 hpos _ im hi
        exact .stochastic cols r f pl im lines h6 hc h1 hr he f1 hpos hp hi hl (compute_stochastic h h6 hc h1 hr he hp hi hl)
      · have hr' := hr
        unfold theRun at hr'
        rw [if_neg h1] at hr'
        obtain ⟨f1, f2, f3, -⟩ := deterministic_field (a := { n.run with obs := obs }) hk ht hr' he
        have hpos : 0 < f.total := by rw [f3]; exact one_pos
        have key := fun e => C56_empty f f1 f2 k n.run.wells hkl obs n.smooth n.run.spacing env.gaussian e
        rw [← hk] at key
        obtain ⟨pl, hp⟩ : ∃ pl, createDeterministicPlot n.run.target n.run.wells obs f = .ok pl := by
          cases hp : createDeterministicPlot n.run.target n.run.wells obs f with
          | ok pl => exact ⟨pl, rfl⟩
          | error e => exact absurd ((key e).2.1.mp hp).2 (not_le.mpr hpos)
        exact .deterministic cols r f pl h6 hc (by omega) hr he f1 hpos hp (compute_deterministic h h6 hc (by omega) hr he hp)

end Oneka
