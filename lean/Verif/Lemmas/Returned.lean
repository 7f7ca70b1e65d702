import Verif.Lemmas.Compute

/-!
# What a call that returned has logged, drawn and archived
-/

namespace Oneka

/-- `call` distinguishes the endings of a call -/
theorem returned_course {a : PyArgs} {env : CallEnv} {v : PyVal} (h : (oneka a env).ending = .returns v) :
    v = .none ∧ ∃ f, Acceptable a ∧ (logTheRun a).ending = .returns () ∧ (stage a env).ending = .returns f ∧ env.openError = none ∧
      env.writeError = none ∧ oneka a env = ⟨(logTheRun a).events ++ (stage a env).events ++
        [.opened env.now.archiveName, .wrote env.now.archiveName (archiveDict a f), .shown], .returns .none⟩ := by
  rcases course a env with ⟨e, h1, h2, h3⟩ | ⟨e, h1, h2, h3⟩ | ⟨e, h1, h2, h3, h4⟩ | ⟨h1, h2, h3, h4⟩ | ⟨f, e, h1, h2, h3, h4, h5⟩ |
    ⟨f, e, h1, h2, h3, h4, h5, h6⟩ | ⟨f, h1, h2, h3, h4, h5, h6⟩
  · rw [h3] at h; simp at h
  · rw [h3] at h; simp at h
  · rw [h4] at h; simp at h
  · rw [h4] at h; simp at h
  · rw [h5] at h; simp at h
  · rw [h6] at h; simp at h
  · have : v = .none := by
      rw [h6] at h
      simpa using h.symm
    exact ⟨this, f, h1, h2, h3, h4, h5, h6⟩

theorem fullLog_plain {a : PyArgs} {s : Bool} {ws os : List PyVal} : ∀ l ∈ fullLog a s ws os, (∃ t, l = .text t) ∨ ∃ t v, l = .value t v := by
  intro l hl
  unfold fullLog banner at hl
  simp only [List.mem_append, List.mem_cons, List.mem_map, List.not_mem_nil, or_false] at hl
  rcases hl with (((hl | hl) | ⟨v, -, rfl⟩) | hl) | ⟨v, -, rfl⟩
  all_goals first
    | exact .inr ⟨_, _, rfl⟩
    | skip
  all_goals aesop

/-- log entries that are texts or arguments -/
def PlainLog (es : List Effect) : Prop := ∀ e ∈ es, (∃ t, e = .log (.text t)) ∨ ∃ t v, e = .log (.value t v)

theorem fullLog_effects {a : PyArgs} {s : Bool} {ws os : List PyVal} : PlainLog ((fullLog a s ws os).map .log) := by
  intro e he
  obtain ⟨l, hl, rfl⟩ := List.mem_map.mp he
  rcases fullLog_plain l hl with ⟨t, rfl⟩ | ⟨t, v, rfl⟩
  · exact .inl ⟨t, rfl⟩
  · exact .inr ⟨t, v, rfl⟩

theorem realizations_plain {es : List Effect} (h : PlainLog es) : realizations es = [] := by
  refine List.filterMap_eq_nil_iff.mpr fun e he => ?_
  rcases h e he with ⟨t, rfl⟩ | ⟨t, v, rfl⟩ <;> rfl

theorem figures_plain {es : List Effect} (h : PlainLog es) : figures es = [] := by
  refine List.filterMap_eq_nil_iff.mpr fun e he => ?_
  rcases h e he with ⟨t, rfl⟩ | ⟨t, v, rfl⟩ <;> rfl

theorem decileLines_plain {es : List Effect} (h : PlainLog es) : decileLines es = [] := by
  refine List.filterMap_eq_nil_iff.mpr fun e he => ?_
  rcases h e he with ⟨t, rfl⟩ | ⟨t, v, rfl⟩ <;> rfl

theorem summaries_plain {es : List Effect} (h : PlainLog es) : summaries es = [] := by
  refine List.filterMap_eq_nil_iff.mpr fun e he => ?_
  rcases h e he with ⟨t, rfl⟩ | ⟨t, v, rfl⟩ <;> rfl

theorem areas_plain {es : List Effect} (h : PlainLog es) : areas es = [] := by
  refine List.filterMap_eq_nil_iff.mpr fun e he => ?_
  rcases h e he with ⟨t, rfl⟩ | ⟨t, v, rfl⟩ <;> rfl

theorem acreages_plain {es : List Effect} (h : PlainLog es) : acreages es = [] := by
  refine List.filterMap_eq_nil_iff.mpr fun e he => ?_
  rcases h e he with ⟨t, rfl⟩ | ⟨t, v, rfl⟩ <;> rfl

theorem acreages_runLog (r : RunResult) : acreages (runLog r) = [] := by
  unfold acreages runLog
  rw [List.filterMap_map]
  exact List.filterMap_eq_nil_iff.mpr fun _ _ => rfl

theorem acreages_lines (lines : List (ℝ × ℝ)) : acreages (lines.map fun l => .log (.decile l.1 l.2)) = [] := by
  unfold acreages
  rw [List.filterMap_map]
  exact List.filterMap_eq_nil_iff.mpr fun _ _ => rfl

theorem acreages_append (l l' : List Effect) : acreages (l ++ l') = acreages l ++ acreages l' := List.filterMap_append

theorem filterLines_plain {es : List Effect} (h : PlainLog es) : filterLines es = [] := by
  refine List.filterMap_eq_nil_iff.mpr fun e he => ?_
  rcases h e he with ⟨t, rfl⟩ | ⟨t, v, rfl⟩ <;> rfl

theorem filterLines_runLog (r : RunResult) : filterLines (runLog r) = [] := by
  unfold filterLines runLog
  rw [List.filterMap_map]
  exact List.filterMap_eq_nil_iff.mpr fun _ _ => rfl

theorem filterLines_lines (lines : List (ℝ × ℝ)) : filterLines (lines.map fun l => .log (.decile l.1 l.2)) = [] := by
  unfold filterLines
  rw [List.filterMap_map]
  exact List.filterMap_eq_nil_iff.mpr fun _ _ => rfl

theorem filterLines_append (l l' : List Effect) : filterLines (l ++ l') = filterLines l ++ filterLines l' := List.filterMap_append

theorem realizations_append (l l' : List Effect) : realizations (l ++ l') = realizations l ++ realizations l' := List.filterMap_append
theorem figures_append (l l' : List Effect) : figures (l ++ l') = figures l ++ figures l' := List.filterMap_append
theorem decileLines_append (l l' : List Effect) : decileLines (l ++ l') = decileLines l ++ decileLines l' := List.filterMap_append
theorem summaries_append (l l' : List Effect) : summaries (l ++ l') = summaries l ++ summaries l' := List.filterMap_append
theorem areas_append (l l' : List Effect) : areas (l ++ l') = areas l ++ areas l' := List.filterMap_append
theorem logged_append (l l' : List Effect) : logged (l ++ l') = logged l ++ logged l' := List.filterMap_append

theorem realizations_runLog (r : RunResult) : realizations (runLog r) = r.log := by
  unfold realizations runLog
  rw [List.filterMap_map]
  exact List.filterMap_some

theorem figures_runLog (r : RunResult) : figures (runLog r) = [] := by
  unfold figures runLog
  rw [List.filterMap_map]
  exact List.filterMap_eq_nil_iff.mpr fun _ _ => rfl

theorem decileLines_runLog (r : RunResult) : decileLines (runLog r) = [] := by
  unfold decileLines runLog
  rw [List.filterMap_map]
  exact List.filterMap_eq_nil_iff.mpr fun _ _ => rfl

theorem summaries_runLog (r : RunResult) : summaries (runLog r) = [] := by
  unfold summaries runLog
  rw [List.filterMap_map]
  exact List.filterMap_eq_nil_iff.mpr fun _ _ => rfl

theorem areas_runLog (r : RunResult) : areas (runLog r) = [] := by
  unfold areas runLog
  rw [List.filterMap_map]
  exact List.filterMap_eq_nil_iff.mpr fun _ _ => rfl

theorem logged_runLog (r : RunResult) : logged (runLog r) = [] := by
  unfold logged runLog
  rw [List.filterMap_map]
  exact List.filterMap_eq_nil_iff.mpr fun _ _ => rfl

theorem realizations_filterEvents (n : Inputs) : realizations (filterEvents n) = [] := by
  unfold realizations filterEvents
  rw [List.filterMap_map, List.filterMap_map]
  exact List.filterMap_eq_nil_iff.mpr fun _ _ => rfl

theorem figures_filterEvents (n : Inputs) : figures (filterEvents n) = [] := by
  unfold figures filterEvents
  rw [List.filterMap_map, List.filterMap_map]
  exact List.filterMap_eq_nil_iff.mpr fun _ _ => rfl

theorem decileLines_filterEvents (n : Inputs) : decileLines (filterEvents n) = [] := by
  unfold decileLines filterEvents
  rw [List.filterMap_map, List.filterMap_map]
  exact List.filterMap_eq_nil_iff.mpr fun _ _ => rfl

theorem summaries_filterEvents (n : Inputs) : summaries (filterEvents n) = [] := by
  unfold summaries filterEvents
  rw [List.filterMap_map, List.filterMap_map]
  exact List.filterMap_eq_nil_iff.mpr fun _ _ => rfl

theorem areas_filterEvents (n : Inputs) : areas (filterEvents n) = [] := by
  unfold areas filterEvents
  rw [List.filterMap_map, List.filterMap_map]
  exact List.filterMap_eq_nil_iff.mpr fun _ _ => rfl

theorem acreages_filterEvents (n : Inputs) : acreages (filterEvents n) = [] := by
  unfold acreages filterEvents
  rw [List.filterMap_map, List.filterMap_map]
  exact List.filterMap_eq_nil_iff.mpr fun _ _ => rfl

theorem logged_filterEvents (n : Inputs) : logged (filterEvents n) = [] := by
  unfold logged filterEvents
  rw [List.filterMap_map, List.filterMap_map]
  exact List.filterMap_eq_nil_iff.mpr fun _ _ => rfl

theorem filterLines_filterEvents (n : Inputs) : filterLines (filterEvents n) = filterLog n.run.obs n.wellfield n.buffer := by
  unfold filterLines filterEvents
  rw [List.filterMap_map, List.filterMap_map]
  exact List.filterMap_some

section
variable (lines : List (ℝ × ℝ))

theorem realizations_lines : realizations (lines.map fun l => .log (.decile l.1 l.2)) = [] := by
  unfold realizations
  rw [List.filterMap_map]
  exact List.filterMap_eq_nil_iff.mpr fun _ _ => rfl

theorem figures_lines : figures (lines.map fun l => .log (.decile l.1 l.2)) = [] := by
  unfold figures
  rw [List.filterMap_map]
  exact List.filterMap_eq_nil_iff.mpr fun _ _ => rfl

theorem summaries_lines : summaries (lines.map fun l => .log (.decile l.1 l.2)) = [] := by
  unfold summaries
  rw [List.filterMap_map]
  exact List.filterMap_eq_nil_iff.mpr fun _ _ => rfl

theorem areas_lines : areas (lines.map fun l => .log (.decile l.1 l.2)) = [] := by
  unfold areas
  rw [List.filterMap_map]
  exact List.filterMap_eq_nil_iff.mpr fun _ _ => rfl

theorem logged_lines : logged (lines.map fun l => .log (.decile l.1 l.2)) = [] := by
  unfold logged
  rw [List.filterMap_map]
  exact List.filterMap_eq_nil_iff.mpr fun _ _ => rfl

theorem decileLines_lines : decileLines (lines.map fun l => .log (.decile l.1 l.2)) = lines := by
  unfold decileLines
  rw [List.filterMap_map]
  exact List.filterMap_some

end

/-- What a call with more than one realization did when it returned. -/
structure StochasticReturn (a : PyArgs) (n : Inputs) (env : CallEnv) (obs : List Obs) (cols : List ColumnStats) (r : RunResult) (f : PField ℝ)
    (pl : ProbabilityPlot) (im : Impact) (lines : List (ℝ × ℝ)) : Prop where
  filtered : filterObs n.run.obs n.wellfield n.buffer = .ok obs
  enough : 6 < obs.length
  summary : summaryStatistics (obsTable obs) = .ok cols
  run : createStochastic { n.run with obs := obs } n.nrealizations env.run = some r
  outcome : r.outcome = .ok f
  reachable : f.Reachable
  total : 0 < f.total
  plot : createProbabilityPlot env.gaussian n.run.target n.run.wells obs f n.smooth = .ok pl
  impact : createImpactPlot n.run.spacing f = .ok im
  deciles : decileTable im = .ok lines
  realizations_eq : realizations (oneka a env).events = r.log
  figures_eq : figures (oneka a env).events = [.probability pl, .impact im.drawn]
  deciles_eq : decileLines (oneka a env).events = lines
  summaries_eq : summaries (oneka a env).events = [cols]
  areas_eq : areas (oneka a env).events = []
  acreages_eq : acreages (oneka a env).events = []
  filterLines_eq : filterLines (oneka a env).events = filterLog n.run.obs n.wellfield n.buffer
  archived : Effect.wrote env.now.archiveName (archiveDict a (.field f)) ∈ (oneka a env).events

/-- What a call with at most one realization did when it returned. -/
structure DeterministicReturn (a : PyArgs) (n : Inputs) (env : CallEnv) (obs : List Obs) (cols : List ColumnStats) (r : RunResult) (f : PField ℝ)
    (pl : DeterministicPlot) : Prop where
  filtered : filterObs n.run.obs n.wellfield n.buffer = .ok obs
  enough : 6 < obs.length
  summary : summaryStatistics (obsTable obs) = .ok cols
  run : createDeterministic { n.run with obs := obs } env.run = some r
  outcome : r.outcome = .ok f
  reachable : f.Reachable
  total : 0 < f.total
  plot : createDeterministicPlot n.run.target n.run.wells obs f = .ok pl
  realizations_eq : realizations (oneka a env).events = r.log
  figures_eq : figures (oneka a env).events = [.deterministic pl]
  deciles_eq : decileLines (oneka a env).events = []
  summaries_eq : summaries (oneka a env).events = [cols]
  areas_eq : areas (oneka a env).events = [pl.area]
  acreages_eq : acreages (oneka a env).events = [pl.area / acre]
  filterLines_eq : filterLines (oneka a env).events = filterLog n.run.obs n.wellfield n.buffer
  archived : Effect.wrote env.now.archiveName (archiveDict a (.field f)) ∈ (oneka a env).events

theorem returned_cases {a : PyArgs} {n : Inputs} {env : CallEnv} {v : PyVal} (hd : a.Denotes n)
    (h : (oneka a env).ending = .returns v) :
    (1 < n.nrealizations ∧ ∃ obs cols r f pl im lines, StochasticReturn a n env obs cols r f pl im lines) ∨
    (n.nrealizations ≤ 1 ∧ ∃ obs cols r f pl, DeterministicReturn a n env obs cols r f pl) := by
  obtain ⟨-, fv, ha, hl, hs, -, -, he⟩ := returned_course h
  obtain ⟨⟨k, t, hk, ht⟩, -⟩ := accepted_inputs ha hd
  have hst : stage a env = compute n env := by unfold stage; rw [inputs_of_denotes hd]
  obtain ⟨ws, os, -, -, hlog⟩ := log_accepted ha hd.nrealizations
  have hp := fullLog_effects (a := a) (s := decide (1 < n.nrealizations)) (ws := ws) (os := os)
  rw [hst] at he hs
  obtain ⟨obs, ho⟩ : ∃ obs, filterObs n.run.obs n.wellfield n.buffer = .ok obs := by
    cases hf : filterObs n.run.obs n.wellfield n.buffer with
    | ok obs => exact ⟨obs, rfl⟩
    | error e => rw [compute_unfiltered hf] at hs; simp at hs
  rw [hlog] at he
  rcases computed env ho hk ht with ⟨-, c⟩ | ⟨cols, -, -, -, c⟩ | ⟨cols, r, e, -, -, -, -, c⟩ | ⟨cols, r, f, pl, im, lines, h6, hc, h1, hrun, hout, hf, ht, hpl, him, hli, c⟩ |
    ⟨cols, r, f, pl, h6, hc, h1, hrun, hout, hf, ht, hpl, c⟩
  · rw [c] at hs; simp at hs
  · rw [c] at hs; simp at hs
  · rw [c] at hs; simp at hs
  · have hrun' := hrun
    unfold theRun at hrun'
    rw [if_pos h1] at hrun'
    obtain rfl : fv = .field f := by rw [c] at hs; simpa using hs.symm
    refine .inl ⟨h1, obs, cols, r, f, pl, im, lines, ho, h6, hc, hrun', hout, hf, ht, hpl, him, hli, ?_, ?_, ?_, ?_, ?_, ?_, ?_, ?_⟩
    · rw [he, c]
      unfold preLog
      simp only [realizations_append, realizations_filterEvents, realizations_plain hp, realizations_runLog, realizations_lines]
      simp [realizations, decileHeader]
    · rw [he, c]
      unfold preLog
      simp only [figures_append, figures_filterEvents, figures_plain hp, figures_runLog, figures_lines]
      simp [figures, decileHeader]
    · rw [he, c]
      unfold preLog
      simp only [decileLines_append, decileLines_filterEvents, decileLines_plain hp, decileLines_runLog, decileLines_lines]
      simp [decileLines, decileHeader]
    · rw [he, c]
      unfold preLog
      simp only [summaries_append, summaries_filterEvents, summaries_plain hp, summaries_runLog, summaries_lines]
      simp [summaries, decileHeader]
    · rw [he, c]
      unfold preLog
      simp only [areas_append, areas_filterEvents, areas_plain hp, areas_runLog, areas_lines]
      simp [areas, decileHeader]
    · rw [he, c]
      unfold preLog
      simp only [acreages_append, acreages_filterEvents, acreages_plain hp, acreages_runLog, acreages_lines]
      simp [acreages, decileHeader]
    · rw [he, c]
      unfold preLog
      simp only [filterLines_append, filterLines_filterEvents, filterLines_plain hp, filterLines_runLog, filterLines_lines]
      simp [filterLines, decileHeader]
    · rw [he]; simp
  · have hrun' := hrun
    unfold theRun at hrun'
    rw [if_neg (by omega)] at hrun'
    obtain rfl : fv = .field f := by rw [c] at hs; simpa using hs.symm
    refine .inr ⟨h1, obs, cols, r, f, pl, ho, h6, hc, hrun', hout, hf, ht, hpl, ?_, ?_, ?_, ?_, ?_, ?_, ?_, ?_⟩
    · rw [he, c]
      unfold preLog
      simp only [realizations_append, realizations_filterEvents, realizations_plain hp, realizations_runLog]
      simp [realizations]
    · rw [he, c]
      unfold preLog
      simp only [figures_append, figures_filterEvents, figures_plain hp, figures_runLog]
      simp [figures]
    · rw [he, c]
      unfold preLog
      simp only [decileLines_append, decileLines_filterEvents, decileLines_plain hp, decileLines_runLog]
      simp [decileLines]
    · rw [he, c]
      unfold preLog
      simp only [summaries_append, summaries_filterEvents, summaries_plain hp, summaries_runLog]
      simp [summaries]
    · rw [he, c]
      unfold preLog
      simp only [areas_append, areas_filterEvents, areas_plain hp, areas_runLog]
      simp [areas]
    · rw [he, c]
      unfold preLog
      simp only [acreages_append, acreages_filterEvents, acreages_plain hp, acreages_runLog]
      simp [acreages]
    · rw [he, c]
      unfold preLog
      simp only [filterLines_append, filterLines_filterEvents, filterLines_plain hp, filterLines_runLog]
      simp [filterLines]
    · rw [he]; simp

end Oneka
