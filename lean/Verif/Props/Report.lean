import Verif.Lemmas.PropsReport

/-!
# What a call reports: figures, tables and log (C69, C71)
-/

namespace Oneka

/-! ## C69 -/

/-- C69: what a call with several realizations reports is about the archived field and the retained observations. It logs the summary statistics of the retained observations;
draws the smoothed probabilities of the archived field at its nodes, with the wells, the target and the retained observations; draws an impact plot, whose points are (probability, whole acres in the area of the nodes
with at least that probability, ties broken one cell at a time); and logs nineteen lines: thresholds 5 %, 10 %, …, 95 %, the largest probability not above the threshold, and the area
of the nodes above the threshold plus one cell (the extra cell is the defect of C54; if all probabilities are above the threshold, the largest of all and one cell). Example: `Props/Examples.lean`. -/
theorem C69_stochastic (a : PyArgs) (n : Inputs) (env : CallEnv) (v : PyVal) (hd : a.Denotes n) (h1 : 1 < n.nrealizations)
    (h : (oneka a env).ending = .returns v) (fs : Files) :
    ∃ (d : Dict) (f : PField ℝ) (obs : List Obs) (k : ℕ) (t : SWell) (cols : List ColumnStats) (pl : ProbabilityPlot) (g : Grid ℝ) (pts : List (ℝ × ℝ)),
      loadOneka ((oneka a env).events.foldl Effect.apply fs) env.now.archiveName = .ok d ∧ d.get "pfield" = some (.field (.field f)) ∧
      filterObs n.run.obs (n.run.wells.map fun w => (w.xw, w.yw)) n.buffer = .ok obs ∧ n.run.target = k ∧ n.run.wells[k]? = some t ∧
      summaries (oneka a env).events = [cols] ∧ SummaryOf obs cols ∧
      figures (oneka a env).events = [.probability pl, .impact pts] ∧
      pl.z = env.gaussian g n.smooth ∧ g.rows = pl.y.length ∧ g.cols = pl.x.length ∧
      (∀ (i j : ℕ) (x y : ℝ), pl.x[j]? = some x → pl.y[i]? = some y → f.IsNode x y ∧ g.val i j = f.probAt x y) ∧
      (∀ x y, f.IsNode x y → x ∈ pl.x ∧ y ∈ pl.y) ∧
      pl.marks = ⟨n.run.wells.map fun w => (w.xw, w.yw), (t.xw, t.yw), obs.map fun o => (o.x, o.y)⟩ ∧
      (∀ p ∈ pts, ∃ A : ℝ, p.2 = ⌊A / 4046.86⌋ ∧ (f.nodesWhere (fun w => w = p.1)).Nonempty ∧ f.areaWhere n.run.spacing (fun w => p.1 < w) < A ∧
        A ≤ f.areaWhere n.run.spacing (fun w => p.1 ≤ w)) ∧
      (decileLines (oneka a env).events).length = 19 ∧
      (∀ (i : ℕ) (l : ℝ × ℝ), (decileLines (oneka a env).events)[i]? = some l → (f.nodesWhere (fun w => w ≤ 5/100 * ((i:ℝ) + 1))).Nonempty →
        IsGreatest {w | w ≤ 5/100 * ((i:ℝ) + 1) ∧ ∃ X Y, f.IsNode X Y ∧ f.probAt X Y = w} l.1 ∧
        l.2 = f.areaWhere n.run.spacing (fun w => 5/100 * ((i:ℝ) + 1) < w) + n.run.spacing ^ 2) ∧
      (∀ (i : ℕ) (l : ℝ × ℝ), (decileLines (oneka a env).events)[i]? = some l → f.nodesWhere (fun w => w ≤ 5/100 * ((i:ℝ) + 1)) = ∅ →
        IsGreatest {w | ∃ X Y, f.IsNode X Y ∧ f.probAt X Y = w} l.1 ∧ l.2 = n.run.spacing ^ 2) ∧
      areas (oneka a env).events = [] := by
  obtain ⟨-, -, ha, -⟩ := returned_course h
  obtain ⟨⟨k, t, hk, ht⟩, -, hsp, -, hsm, -⟩ := accepted_inputs ha hd
  rcases returned_cases hd h with ⟨-, obs, cols, r, f, pl, im, lines, H⟩ | ⟨h2, -⟩
  swap
  · omega
  obtain ⟨d, hd1, hd2⟩ := archived_field h H.archived fs
  have hne : obs ≠ [] := by
    rintro rfl
    have := H.enough
    simp at this
  obtain ⟨pl', g, p1, p2, p3, p4, p5, p6, p7⟩ := C56_smoothed_plot f H.reachable H.total k n.run.wells t ht obs n.smooth hsm env.gaussian
  obtain rfl : pl' = pl := by
    have := H.plot
    rw [hk, p1] at this
    exact Except.ok.inj this
  obtain ⟨l1, l2⟩ := decile_lines im lines H.deciles
  refine ⟨d, f, obs, k, t, cols, pl', g, im.drawn, hd1, hd2, H.filtered, hk, ht, H.summaries_eq, summary_of hne H.summary, H.figures_eq,
    p2, p3, p4, p5, p6, p7, ?_, ?_, ?_, ?_, H.areas_eq⟩
  · rintro ⟨w, A⟩ hp
    exact impact_point H.reachable H.total hsp H.impact hp
  · rw [H.deciles_eq, l1]
  · intro i l hl hne
    rw [H.deciles_eq] at hl
    obtain ⟨w, A, q1, q2, q3⟩ := decile_line f H.reachable H.total n.run.spacing im H.impact _ hne
    rw [l2 i l hl] at q1
    obtain rfl := Except.ok.inj q1
    refine ⟨?_, q3⟩
    convert q2 using 2
    ext w'
    constructor
    · rintro ⟨c1, X, Y, c2, c3⟩
      exact ⟨c1, (X, Y), ⟨c2, c3⟩, trivial⟩
    · rintro ⟨c1, ⟨X, Y⟩, ⟨c2, c3⟩, -⟩
      exact ⟨c1, X, Y, c2, c3⟩
  · intro i l hl hno
    rw [H.deciles_eq] at hl
    obtain ⟨w, q1, q2⟩ := decile_none f H.reachable H.total n.run.spacing im H.impact _ hno
    rw [l2 i l hl] at q1
    obtain rfl := Except.ok.inj q1
    refine ⟨?_, rfl⟩
    convert q2 using 2
    ext w'
    constructor
    · rintro ⟨X, Y, c2, c3⟩
      exact ⟨(X, Y), ⟨c2, c3⟩, trivial⟩
    · rintro ⟨⟨X, Y⟩, ⟨c2, c3⟩, -⟩
      exact ⟨X, Y, c2, c3⟩

/-- C69: what a call with at most one realization reports: the summary statistics of the retained observations, one figure with the cells of the captured nodes, and their total area in square
metres and in acres (of 4046.86 square metres). Example: `Props/Examples.lean`. -/
theorem C69_deterministic (a : PyArgs) (n : Inputs) (env : CallEnv) (v : PyVal) (hd : a.Denotes n) (h1 : n.nrealizations ≤ 1)
    (h : (oneka a env).ending = .returns v) (fs : Files) :
    ∃ (d : Dict) (f : PField ℝ) (obs : List Obs) (k : ℕ) (t : SWell) (cols : List ColumnStats) (pl : DeterministicPlot) (A : ℝ),
      loadOneka ((oneka a env).events.foldl Effect.apply fs) env.now.archiveName = .ok d ∧ d.get "pfield" = some (.field (.field f)) ∧
      filterObs n.run.obs (n.run.wells.map fun w => (w.xw, w.yw)) n.buffer = .ok obs ∧ n.run.target = k ∧ n.run.wells[k]? = some t ∧
      summaries (oneka a env).events = [cols] ∧ SummaryOf obs cols ∧
      figures (oneka a env).events = [.deterministic pl] ∧
      (∀ r : Rect, r ∈ pl.filled ↔ ∃ X Y, f.IsNode X Y ∧ 0 < f.weightAt X Y ∧
        r = ⟨X - n.run.spacing / 2, X + n.run.spacing / 2, Y - n.run.spacing / 2, Y + n.run.spacing / 2⟩) ∧
      pl.marks = ⟨n.run.wells.map fun w => (w.xw, w.yw), (t.xw, t.yw), obs.map fun o => (o.x, o.y)⟩ ∧
      areas (oneka a env).events = [A] ∧ acreages (oneka a env).events = [A / 4046.86] ∧ A = n.run.spacing ^ 2 * {p : ℝ × ℝ | f.IsNode p.1 p.2 ∧ 0 < f.weightAt p.1 p.2}.ncard ∧
      decileLines (oneka a env).events = [] := by
  obtain ⟨-, -, ha, -⟩ := returned_course h
  obtain ⟨⟨k, t, hk, ht⟩, -, hsp, -, hsm, -⟩ := accepted_inputs ha hd
  rcases returned_cases hd h with ⟨h2, -⟩ | ⟨-, obs, cols, r, f, pl, H⟩
  · omega
  obtain ⟨d, hd1, hd2⟩ := archived_field h H.archived fs
  have hne : obs ≠ [] := by
    rintro rfl
    have := H.enough
    simp at this
  obtain ⟨-, -, htot, hdx, hdy⟩ := deterministic_field (a := { n.run with obs := obs }) hk ht H.run H.outcome
  obtain ⟨pl', q1, q2, q3, -, q5⟩ := C55_area f H.reachable H.total k n.run.wells t ht obs
  obtain rfl : pl' = pl := by
    have := H.plot
    rw [hk, q1] at this
    exact Except.ok.inj this
  have hset : f.nodesWhere (fun v => 0 < v) = {p : ℝ × ℝ | f.IsNode p.1 p.2 ∧ 0 < f.weightAt p.1 p.2} := by
    ext p
    unfold PField.nodesWhere PField.probAt
    rw [htot]
    simp
  rw [hdx, hdy] at q2 q3
  rw [hset] at q2 q3
  simp only at q2 q3
  refine ⟨d, f, obs, k, t, cols, pl', pl'.area, hd1, hd2, H.filtered, hk, ht, H.summaries_eq, summary_of hne H.summary, H.figures_eq, ?_, q5,
    H.areas_eq, H.acreages_eq, by rw [q2]; ring, H.deciles_eq⟩
  intro r
  rw [q3]
  constructor
  · rintro ⟨⟨X, Y⟩, ⟨c1, c2⟩, c3⟩
    exact ⟨X, Y, c1, c2, c3⟩
  · rintro ⟨X, Y, c1, c2, c3⟩
    exact ⟨(X, Y), ⟨c1, c2⟩, c3⟩

/-- C69: the figures are shown exactly by the calls that return: once, at the very end, when the archive has been written completely; whoever waits at an open figure has the archive already. -/
theorem C69_shown (a : PyArgs) (env : CallEnv) :
    (∀ v, (oneka a env).ending = .returns v → ∃ (before : List Effect) (d : Dict),
      (oneka a env).events = before ++ [.wrote env.now.archiveName d, .shown] ∧ Effect.shown ∉ before ∧ ∀ n d', Effect.wrote n d' ∉ before) ∧
    ((∀ v, (oneka a env).ending ≠ .returns v) → Effect.shown ∉ (oneka a env).events) := by
  have hq := quiet_both a env
  constructor
  · intro v h
    obtain ⟨-, f, -, -, -, -, -, he⟩ := returned_course h
    refine ⟨(logTheRun a).events ++ (stage a env).events ++ [.opened env.now.archiveName], archiveDict a f, ?_, ?_, ?_⟩
    · rw [he]; simp
    · intro hm
      rcases List.mem_append.mp hm with hm | hm
      · exact (hq _ hm).2 rfl
      · simp at hm
    · intro n d hm
      rcases List.mem_append.mp hm with hm | hm
      · exact (hq _ hm).1 trivial
      · simp at hm
  · intro h
    rcases course a env with ⟨e, -, -, he⟩ | ⟨e, -, -, he⟩ | ⟨e, -, -, -, he⟩ | ⟨-, -, -, he⟩ | ⟨f, e, -, -, -, -, he⟩ | ⟨f, e, -, -, -, ho, hw, he⟩ | ⟨f, -, -, -, -, -, he⟩
    · rw [he]; simp
    · rw [he]; exact fun hm => (quiet_logTheRun a _ hm).2 rfl
    · rw [he]; exact fun hm => (hq _ hm).2 rfl
    · rw [he]; exact fun hm => (hq _ hm).2 rfl
    · rw [he]; exact fun hm => (hq _ hm).2 rfl
    · rw [he]
      intro hm
      rcases List.mem_append.mp hm with hm | hm
      · exact (hq _ hm).2 rfl
      · simp at hm
    · rw [he] at h; exact absurd rfl (h .none)

/-! ## C71 -/

/-- C71: once the arguments have been accepted, whatever happens afterwards (the call returns, raises or never ends), the log begins with all nineteen arguments: the
scalars in order, the number of wells and all wells, the number of observations and all observations (before filtering). The run is labelled STOCHASTIC if more than one
realization was asked for, DETERMINISTIC otherwise. Example: `Props/Examples.lean`. -/
theorem C71_log (a : PyArgs) (env : CallEnv) (ha : Acceptable a) (n : ℤ) (hn : a.nrealizations.IsInteger n) :
    ∃ ws os, a.wells = .list ws ∧ a.observations = .list os ∧ a.report (decide (1 < n)) ws os <+: logged (oneka a env).events := by
  obtain ⟨ws, os, hw, ho, hl⟩ := log_accepted ha hn
  refine ⟨ws, os, hw, ho, ?_⟩
  have key : ∀ rest, a.report (decide (1 < n)) ws os <+: logged ((logTheRun a).events ++ rest) := by
    intro rest
    rw [logged_append, hl]
    simp only
    rw [logged_fullLog]
    exact List.prefix_append _ _
  rcases course a env with ⟨e, h1, -⟩ | ⟨e, -, h1, h⟩ | ⟨e, -, h1, -, h⟩ | ⟨-, h1, -, h⟩ | ⟨f, e, -, h1, -, -, h⟩ | ⟨f, e, -, h1, -, -, -, h⟩ | ⟨f, -, h1, -, -, -, h⟩
  · exact absurd ha h1
  · rw [hl] at h1; simp at h1
  all_goals
    rw [h]
    simp only [List.append_assoc]
    exact key _

/-- C71: with finite arguments nothing else is logged as an argument: the arguments appear exactly once. Example: `Props/Examples.lean`. -/
theorem C71_once (a : PyArgs) (n : Inputs) (env : CallEnv) (ha : Acceptable a) (hd : a.Denotes n) :
    ∃ ws os, a.wells = .list ws ∧ a.observations = .list os ∧ logged (oneka a env).events = a.report (decide (1 < n.nrealizations)) ws os := by
  obtain ⟨ws, os, hw, ho, hl⟩ := log_accepted ha hd.nrealizations
  refine ⟨ws, os, hw, ho, ?_⟩
  obtain ⟨⟨k, t, hk, ht⟩, -⟩ := accepted_inputs ha hd
  have hst : stage a env = compute n env := by unfold stage; rw [inputs_of_denotes hd]
  have hlog : logged (logTheRun a).events = a.report (decide (1 < n.nrealizations)) ws os := by
    rw [hl]
    exact logged_fullLog a _ ws os
  have hcomp : logged (stage a env).events = [] := by
    rw [hst]
    cases hob : filterObs n.run.obs n.wellfield n.buffer with
    | error e => rw [compute_unfiltered hob]; exact logged_filterEvents n
    | ok obs =>
    rcases computed env hob hk ht with ⟨-, c⟩ | ⟨cols, -, -, -, c⟩ | ⟨cols, r, e, -, -, -, -, c⟩ | ⟨cols, r, f, pl, im, lines, -, -, -, -, -, -, -, -, -, -, c⟩ |
      ⟨cols, r, f, pl, -, -, -, -, -, -, -, -, c⟩
    all_goals
      rw [c]
      try unfold preLog
      simp only [logged_append, logged_runLog, logged_lines, logged_filterEvents]
      try simp [logged, decileHeader]
  rcases course a env with ⟨e, h1, -⟩ | ⟨e, -, h1, h⟩ | ⟨e, -, h1, -, h⟩ | ⟨-, h1, -, h⟩ | ⟨f, e, -, h1, -, -, h⟩ | ⟨f, e, -, h1, -, -, -, h⟩ | ⟨f, -, h1, -, -, -, h⟩
  · exact absurd ha h1
  · rw [hl] at h1; simp at h1
  all_goals
    rw [h]
    simp only [logged_append, hlog, hcomp]
    try simp [logged]

end Oneka
