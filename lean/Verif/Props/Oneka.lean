import Verif.Lemmas.PropsOneka

/-!
# Properties of the entry point and of the archive (C58–C61, C68–C71)
-/

namespace Oneka

/-! ## C58 -/

/-- C58: arguments that are not acceptable are rejected with an AssertionError or a TypeError, and nothing has been logged, drawn or written. Example: `Props/Examples.lean`. -/
theorem C58_no_effect (a : PyArgs) (env : CallEnv) (h : ¬ Acceptable a) :
    ∃ e, (e = .assertionError ∨ e = .typeError) ∧ oneka a env = ⟨[], .raises e⟩ := by
  rcases course a env with ⟨e, -, h2, h3⟩ | ⟨e, h1, -⟩ | ⟨e, h1, -⟩ | ⟨h1, -⟩ | ⟨f, e, h1, -⟩ | ⟨f, e, h1, -⟩ | ⟨f, h1, -⟩
  · exact ⟨e, h2, h3⟩
  all_goals exact absurd h1 h

/-! ## C59 -/

/-- C59: exactly the acceptable arguments pass the checks (everything else has no effect at all, C58). Missing from the full claim: the number of realizations is not
checked, and one of the defaults is not acceptable (see below). Example: `Props/Examples.lean`. -/
theorem C59_accepted_partial (a : PyArgs) (env : CallEnv) : (oneka a env).events ≠ [] ↔ Acceptable a := by
  constructor
  · intro h
    by_contra hn
    obtain ⟨e, -, he⟩ := C58_no_effect a env hn
    rw [he] at h
    exact h rfl
  · intro ha
    have hl := log_nonempty a
    rcases course a env with ⟨e, h1, -⟩ | ⟨e, -, -, h⟩ | ⟨e, -, -, -, h⟩ | ⟨-, -, -, h⟩ | ⟨f, e, -, -, -, -, h⟩ | ⟨f, e, -, -, -, -, -, h⟩ | ⟨f, -, -, -, -, -, h⟩
    · exact absurd ha h1
    all_goals rw [h]; simp [hl]

/-- C59 fails for the default of `smooth`: if `smooth` is omitted, every call is rejected. Example: `Props/Examples.lean`. -/
theorem C59_fails_for_default_smooth (req : PyArgs) (o : OptArgs) (env : CallEnv) (h : o.smooth = none) :
    ∃ e, (e = .assertionError ∨ e = .typeError) ∧ oneka (req.withDefaults o) env = ⟨[], .raises e⟩ := by
  refine C58_no_effect _ env fun ha => ?_
  obtain ⟨x, hx, hpos⟩ := ha.smooth
  simp only [PyArgs.withDefaults, h, Option.getD_none, PyVal.num, Int.cast_zero, Option.some.injEq] at hx
  rw [← hx, XR.fin_lt] at hpos
  exact lt_irrefl _ hpos

/-- C59: the other six defaults are acceptable: a call with acceptable required arguments and an acceptable `smooth` is accepted if the rest is omitted. Example: `Props/Examples.lean`. -/
theorem C59_other_defaults_partial (a : PyArgs) (ha : Acceptable a) :
    Acceptable (a.withDefaults ⟨none, none, none, some a.smooth, none, none, none⟩) := by
  have pos : ∀ n : ℤ, 0 < n → (PyVal.int n).NumberWith fun x => .fin 0 < x := by
    intro n hn
    exact ⟨.fin n, rfl, (XR.fin_lt _ _).mpr (by exact_mod_cast hn)⟩
  exact ⟨ha.projectname, ha.runtime, ha.wells, ha.npaths, ha.duration, ha.base, ha.cDist, ha.pDist, ha.tDist, ha.observations,
    pos 100 (by norm_num), pos 10 (by norm_num), pos 10 (by norm_num), ha.smooth, ⟨true, rfl⟩, pos 1 (by norm_num), pos 10 (by norm_num)⟩

/-- C59 fails for the number of realizations: a float passes all checks, and the call dies of a ValueError while the arguments are being logged, leaving half of
the log behind and no archive. Example: `Props/Examples.lean`. -/
theorem C59_fails_for_nrealizations (a : PyArgs) (env : CallEnv) (ha : Acceptable a) (x : XR) (hx : a.nrealizations = .float x) :
    (oneka a env).ending = .raises .valueError ∧ (oneka a env).events ≠ [] ∧ ∀ e ∈ (oneka a env).events, ¬ e.OnFiles := by
  have hlog : (logTheRun a).ending = .raises .valueError := by
    obtain ⟨ws, hws, -, k, hk, -⟩ := ha.wells
    have hnp : formatD a.npaths = .ok () := by
      rcases ha.npaths with ⟨m, hm, -⟩ | hb
      · exact formatD_integer (n := m) (.inl hm)
      · exact formatD_integer (n := 1) (.inr ⟨true, hb, rfl⟩)
    have ht : formatD a.target = .ok () := formatD_integer (n := k) hk
    have hlt : PyVal.lt (.int 1) a.nrealizations = .ok (decide ((.fin 1 : XR) < x)) := by
      unfold PyVal.lt
      rw [hx]
      simp [PyVal.num]
    have hf : formatD a.nrealizations = .error .valueError := by rw [hx]; rfl
    unfold logTheRun logD logF logV
    rw [hlt, ht, hnp, hf, formatF_number ha.duration]
    simp only [Prog.bind_def, Prog.andThen, Prog.infos, Prog.info, Prog.emit, Prog.lift]
  rcases course a env with ⟨e, h1, -⟩ | ⟨e, -, h1, h⟩ | ⟨e, -, h1, -⟩ | ⟨-, h1, -⟩ | ⟨f, e, -, h1, -⟩ | ⟨f, e, -, h1, -⟩ | ⟨f, -, h1, -⟩
  · exact absurd ha h1
  · obtain rfl : PyErr.valueError = e := by rw [hlog] at h1; simpa using h1
    rw [h]
    exact ⟨rfl, log_nonempty a, fun e he => (quiet_logTheRun a e he).1⟩
  all_goals rw [hlog] at h1; simp at h1

/-! ## C60 -/

open Classical in
/-- C60: a call that returns gives None and has written exactly one archive: one file is opened and one dictionary is written to it. That dictionary holds all nineteen
arguments as they were passed in, and a field. Whatever files there were before, loading the archive gives the dictionary, and no other file has changed. Example: `Props/Examples.lean`. -/
theorem C60_archive (a : PyArgs) (env : CallEnv) (v : PyVal) (h : (oneka a env).ending = .returns v) :
    v = .none ∧ ∃ d f, (oneka a env).events.filter (fun e => decide e.OnFiles) = [.opened env.now.archiveName, .wrote env.now.archiveName d] ∧
      d.Records a ∧ d.get "pfield" = some (.field f) ∧
      ∀ fs : Files, loadOneka ((oneka a env).events.foldl Effect.apply fs) env.now.archiveName = .ok d ∧
        ∀ n, n ≠ env.now.archiveName → (oneka a env).events.foldl Effect.apply fs n = fs n := by
  obtain ⟨hv, f, -, -, -, -, -, he⟩ := returned_course h
  have hq := quiet_both a env
  refine ⟨hv, archiveDict a f, f, ?_, records_archive a f, rfl, fun fs => ?_⟩
  · rw [he, List.filter_append, List.filter_eq_nil_iff.mpr]
    · simp only [List.filter, opened_on, wrote_on, shown_on, List.nil_append]
    · intro e he'
      rw [decide_eq_false (hq e he').1]
      simp
  · rw [he]
    simp only
    rw [returned_files hq]
    exact ⟨by unfold loadOneka; simp, fun n hn => if_neg hn⟩

/-- C60: … and for finite arguments the archived field is the field that the run returned, a run with the retained observations: a stochastic one if more than one
realization was asked for, otherwise the deterministic one. Example: `Props/Examples.lean`. -/
theorem C60_field (a : PyArgs) (n : Inputs) (env : CallEnv) (v : PyVal) (hd : a.Denotes n)
    (h : (oneka a env).ending = .returns v) (fs : Files) :
    ∃ d obs r f, loadOneka ((oneka a env).events.foldl Effect.apply fs) env.now.archiveName = .ok d ∧ d.get "pfield" = some (.field (.field f)) ∧
      filterObs n.run.obs (n.run.wells.map fun w => (w.xw, w.yw)) n.buffer = .ok obs ∧ 7 ≤ obs.length ∧ r.outcome = .ok f ∧
      (if 1 < n.nrealizations then createStochastic { n.run with obs := obs } n.nrealizations env.run
        else createDeterministic { n.run with obs := obs } env.run) = some r := by
  obtain ⟨-, d, f', hfil, -, hpf, hfs⟩ := C60_archive a env v h
  have key : ∀ f : PField ℝ, Effect.wrote env.now.archiveName (archiveDict a (.field f)) ∈ (oneka a env).events → d.get "pfield" = some (.field (.field f)) := by
    classical
    intro f hf
    have : Effect.wrote env.now.archiveName (archiveDict a (.field f)) ∈ (oneka a env).events.filter (fun e => decide e.OnFiles) :=
      List.mem_filter.mpr ⟨hf, wrote_on _ _⟩
    rw [hfil] at this
    obtain rfl : archiveDict a (.field f) = d := by simpa using this
    rfl
  rcases returned_cases hd h with ⟨h1, obs, cols, r, f, pl, im, lines, H⟩ | ⟨h1, obs, cols, r, f, pl, H⟩
  · exact ⟨d, obs, r, f, (hfs fs).1, key f H.archived, H.filtered, H.enough, H.outcome, by rw [if_pos h1]; exact H.run⟩
  · exact ⟨d, obs, r, f, (hfs fs).1, key f H.archived, H.filtered, H.enough, H.outcome, by rw [if_neg (by omega)]; exact H.run⟩

open Classical in
/-- C60: a call that raises or never ends has written no archive. It has changed no file, or just one: the archive could be opened but not written, and the file is broken. Example: `Props/Examples.lean`. -/
theorem C60_no_archive (a : PyArgs) (env : CallEnv) (h : ∀ v, (oneka a env).ending ≠ .returns v) :
    (∀ n d, Effect.wrote n d ∉ (oneka a env).events) ∧
    ((∀ fs : Files, (oneka a env).events.foldl Effect.apply fs = fs) ∨
      (∃ e, env.openError = none ∧ env.writeError = some e ∧ (oneka a env).ending = .raises e) ∧
      ∀ (fs : Files) (n : String), (oneka a env).events.foldl Effect.apply fs n = if n = env.now.archiveName then some .broken else fs n) := by
  have hq := quiet_both a env
  have quiet : ∀ l : List Effect, (∀ e ∈ l, Quiet e) → ∀ n d, Effect.wrote n d ∉ l := fun l hl n d hm => (hl _ hm).1 trivial
  rcases course a env with ⟨e, -, -, he⟩ | ⟨e, -, -, he⟩ | ⟨e, -, -, -, he⟩ | ⟨-, -, -, he⟩ | ⟨f, e, -, -, -, -, he⟩ | ⟨f, e, -, -, -, ho, hw, he⟩ | ⟨f, -, -, -, -, -, he⟩
  · rw [he]
    exact ⟨by simp, .inl fun fs => rfl⟩
  · have hq' : ∀ e ∈ (logTheRun a).events, Quiet e := quiet_logTheRun a
    rw [he]
    exact ⟨quiet _ hq', .inl fun fs => quiet_files hq' fs⟩
  · rw [he]
    exact ⟨quiet _ hq, .inl fun fs => quiet_files hq fs⟩
  · rw [he]
    exact ⟨quiet _ hq, .inl fun fs => quiet_files hq fs⟩
  · rw [he]
    exact ⟨quiet _ hq, .inl fun fs => quiet_files hq fs⟩
  · rw [he]
    refine ⟨fun n d hm => ?_, .inr ⟨⟨e, ho, hw, rfl⟩, fun fs n => ?_⟩⟩
    · rcases List.mem_append.mp hm with hm | hm
      · exact quiet _ hq n d hm
      · simp at hm
    · simp only
      rw [List.foldl_append, quiet_files hq]
      rfl
  · exact absurd (by rw [he]) (h .none)

/-! ## C61 -/

/-- a call changes at most the file named after its time -/
theorem other_files (a : PyArgs) (env : CallEnv) (fs : Files) (n : String) (hn : n ≠ env.now.archiveName) :
    (oneka a env).events.foldl Effect.apply fs n = fs n := by
  by_cases h : ∃ v, (oneka a env).ending = .returns v
  · obtain ⟨v, hv⟩ := h
    obtain ⟨-, d, f, -, -, -, hfs⟩ := C60_archive a env v hv
    exact (hfs fs).2 n hn
  · push Not at h
    rcases (C60_no_archive a env h).2 with h | ⟨-, h⟩
    · rw [h]
    · rw [h, if_neg hn]

theorem filesAfter_other : ∀ (calls : List (PyArgs × CallEnv)) (fs : Files) (n : String), (∀ c ∈ calls, n ≠ c.2.now.archiveName) →
    filesAfter fs calls n = fs n
  | [], _, _, _ => rfl
  | (a, env) :: calls, fs, n, h => by
    rw [filesAfter, filesAfter_other calls _ n fun c hc => h c (by simp [hc])]
    exact other_files a env fs n (h (a, env) (by simp))

/-- C61: in a sequence of calls that write their archives in different seconds, every archive is loadable after the last call, and holds what was written to it. Missing: the
file name has only whole seconds (see the next two theorems). Example: `Props/Examples.lean`. -/
theorem C61_distinct_partial (calls : List (PyArgs × CallEnv)) (fs : Files) (hv : ∀ c ∈ calls, c.2.now.Valid)
    (hd : calls.Pairwise fun c c' => c.2.now ≠ c'.2.now) :
    ∀ c ∈ calls, ∀ v, (oneka c.1 c.2).ending = .returns v →
      ∃ d, loadOneka (filesAfter fs calls) c.2.now.archiveName = .ok d ∧ Effect.wrote c.2.now.archiveName d ∈ (oneka c.1 c.2).events ∧ d.Records c.1 := by
  classical
  induction calls generalizing fs with
  | nil => simp
  | cons c0 calls ih =>
    intro c hc v hret
    obtain ⟨a, env⟩ := c0
    rw [List.pairwise_cons] at hd
    rw [filesAfter]
    rcases List.mem_cons.mp hc with rfl | hc
    · obtain ⟨-, d, f, hfil, hrec, -, hfs⟩ := C60_archive a env v hret
      refine ⟨d, ?_, ?_, hrec⟩
      · unfold loadOneka
        rw [filesAfter_other calls _ _ ?_]
        · exact (hfs fs).1
        · intro c hc' hname
          exact hd.1 c hc' (archiveName_inj (hv _ (by simp)) (hv c (by simp [hc'])) hname)
      · have : Effect.wrote env.now.archiveName d ∈ (oneka a env).events.filter (fun e => decide e.OnFiles) := by rw [hfil]; simp
        exact (List.mem_filter.mp this).1
    · exact ih _ (fun c hc => hv c (by simp [hc])) hd.2 c hc v hret

/-- C61 fails within a second: if two calls return and write their archives in the same second, the archive of the first one is gone: loading it gives the arguments
of the second. Example: `Props/Examples.lean`. -/
theorem C61_fails_same_second (a a' : PyArgs) (env env' : CallEnv) (v v' : PyVal) (fs : Files) (ht : env.now = env'.now)
    (_h : (oneka a env).ending = .returns v) (h' : (oneka a' env').ending = .returns v') :
    ∃ d, loadOneka (filesAfter fs [(a, env), (a', env')]) env.now.archiveName = .ok d ∧ d.Records a' := by
  obtain ⟨-, d, f, -, hrec, -, hfs⟩ := C60_archive a' env' v' h'
  refine ⟨d, ?_, hrec⟩
  rw [filesAfter, filesAfter, filesAfter, ht]
  exact (hfs _).1

/-- C61 fails within a second even if only one call succeeds: a later call that fails to write its archive destroys the earlier one. Example: `Props/Examples.lean`. -/
theorem C61_fails_broken (a a' : PyArgs) (env env' : CallEnv) (v : PyVal) (fs : Files) (e : PyErr) (ht : env.now = env'.now)
    (_h : (oneka a env).ending = .returns v) (ho : env'.openError = none) (hw : env'.writeError = some e)
    (h' : ∃ f, (oneka a' { env' with writeError := none }).ending = .returns f) :
    (oneka a' env').ending = .raises e ∧ ∃ e', loadOneka (filesAfter fs [(a, env), (a', env')]) env.now.archiveName = .error e' := by
  obtain ⟨f, hf⟩ := h'
  obtain ⟨-, fv, ha, hl, hs, -, -, -⟩ := returned_course hf
  have hs' : stage a' env' = stage a' { env' with writeError := none } := rfl
  have hs : (stage a' env').ending = .returns fv := hs
  have he : oneka a' env' = ⟨(logTheRun a').events ++ (stage a' env').events ++ [.opened env'.now.archiveName], .raises e⟩ := by
    rcases course a' env' with ⟨e, h1, -⟩ | ⟨e, -, h1, -⟩ | ⟨e, -, -, h1, -⟩ | ⟨-, -, h1, -⟩ | ⟨f, e, -, -, -, h1, -⟩ | ⟨f, e1, -, -, -, -, h1, h2⟩ | ⟨f, -, -, -, -, h1, -⟩
    · exact absurd ha h1
    · rw [hl] at h1; simp at h1
    · rw [hs] at h1; simp at h1
    · rw [hs] at h1; simp at h1
    · rw [ho] at h1; simp at h1
    · obtain rfl : e = e1 := by rw [hw] at h1; simpa using h1
      exact h2
    · rw [hw] at h1; simp at h1
  refine ⟨by rw [he], .other 1, ?_⟩
  rw [filesAfter, filesAfter, filesAfter, he]
  simp only
  rw [List.foldl_append, quiet_files (quiet_both a' env'), ht]
  simp [loadOneka, Effect.apply]

/-! ## C68 -/

/-- the dictionary in the archive of a returned call -/
theorem archived_field {a : PyArgs} {env : CallEnv} {v : PyVal} (h : (oneka a env).ending = .returns v) {f : PField ℝ}
    (hf : Effect.wrote env.now.archiveName (archiveDict a (.field f)) ∈ (oneka a env).events) (fs : Files) :
    ∃ d, loadOneka ((oneka a env).events.foldl Effect.apply fs) env.now.archiveName = .ok d ∧ d.get "pfield" = some (.field (.field f)) := by
  classical
  obtain ⟨-, d, f', hfil, -, hpf, hfs⟩ := C60_archive a env v h
  refine ⟨d, (hfs fs).1, ?_⟩
  have : Effect.wrote env.now.archiveName (archiveDict a (.field f)) ∈ (oneka a env).events.filter (fun e => decide e.OnFiles) :=
    List.mem_filter.mpr ⟨hf, wrote_on _ _⟩
  rw [hfil] at this
  obtain rfl : archiveDict a (.field f) = d := by simpa using this
  rfl

open Classical in
/-- C68: end to end, for more than one realization. A call that returns has logged exactly as many realizations as were asked for; each of them is a faithful realization
(C45) of the arguments with the retained observations; and the archived field counts, on the grid through the target well, how many of these realizations capture each
node: total weight `nrealizations`, and weight at a node equal to the number of realizations with a trace nearby (for the nodes around the target; for all nodes if the umbra does
not exceed the spacing, cf. C10). Example: `Props/Examples.lean`. -/
theorem C68_stochastic (a : PyArgs) (n : Inputs) (env : CallEnv) (v : PyVal) (hd : a.Denotes n) (h1 : 1 < n.nrealizations)
    (h : (oneka a env).ending = .returns v) (fs : Files) :
    ∃ (d : Dict) (f : PField ℝ) (obs : List Obs) (k : ℕ) (t : SWell),
      loadOneka ((oneka a env).events.foldl Effect.apply fs) env.now.archiveName = .ok d ∧ d.get "pfield" = some (.field (.field f)) ∧
      filterObs n.run.obs (n.run.wells.map fun w => (w.xw, w.yw)) n.buffer = .ok obs ∧ 7 ≤ obs.length ∧
      n.run.target = k ∧ n.run.wells[k]? = some t ∧
      ((realizations (oneka a env).events).length : ℤ) = n.nrealizations ∧
      (∀ (i : ℕ) (L : RealizationLog), (realizations (oneka a env).events)[i]? = some L →
        Realized { n.run with obs := obs } env.run.la t (fun d j => d.sample (env.run.u i j)) (env.run.mvn i) (env.run.interrupt i) L) ∧
      f.total = n.nrealizations ∧
      (∀ p q : ℤ, (|p| ≤ 1 ∧ |q| ≤ 1) ∨ n.run.umbra ≤ n.run.spacing →
        f.weightAt (t.xw + p * n.run.spacing) (t.yw + q * n.run.spacing) =
          ((realizations (oneka a env).events).countP fun L => L.Captures n.run.umbra (t.xw + p * n.run.spacing) (t.yw + q * n.run.spacing))) ∧
      (∀ X Y, f.IsNode X Y → ∃ p q : ℤ, X = t.xw + p * n.run.spacing ∧ Y = t.yw + q * n.run.spacing) := by
  obtain ⟨-, -, ha, -⟩ := returned_course h
  obtain ⟨⟨k, t, hk, ht⟩, -, -, hu, -⟩ := accepted_inputs ha hd
  rcases returned_cases hd h with ⟨-, obs, cols, r, f, pl, im, lines, H⟩ | ⟨h2, -⟩
  swap
  · omega
  obtain ⟨d, hd1, hd2⟩ := archived_field h H.archived fs
  have hrun := H.run
  rw [show n.nrealizations = ((n.nrealizations.toNat : ℕ) : ℤ) by omega] at hrun
  obtain ⟨c1, c2, -, c4, c5, -⟩ := C44_frequencies { n.run with obs := obs } n.nrealizations.toNat k env.run t hk ht hrun H.outcome
  refine ⟨d, f, obs, k, t, hd1, hd2, H.filtered, H.enough, hk, ht, ?_, ?_, ?_, ?_, c5⟩
  · rw [H.realizations_eq, c1]; omega
  · intro i L hL
    rw [H.realizations_eq] at hL
    have hi : i < n.nrealizations.toNat := by
      rw [← c1]
      by_contra hh
      rw [List.getElem?_eq_none (by omega)] at hL
      simp at hL
    obtain ⟨L', e, R⟩ := C45_realizations { n.run with obs := obs } n.nrealizations.toNat k env.run t hk ht hrun H.outcome i hi
    obtain rfl : L = L' := by rw [e] at hL; simpa using hL.symm
    exact R
  · rw [c2]
    have : ((n.nrealizations.toNat : ℕ) : ℤ) = n.nrealizations := by omega
    exact_mod_cast congrArg (fun z : ℤ => (z : ℝ)) this
  · intro p q hpq
    rw [H.realizations_eq]
    exact c4 hu.le p q hpq

open Classical in
/-- C68: end to end, for at most one realization: one faithful realization with the mean parameters and the fitted coefficients, and a field of total weight 1 that is 1 where it
captures and 0 elsewhere. Example: `Props/Examples.lean`. -/
theorem C68_deterministic (a : PyArgs) (n : Inputs) (env : CallEnv) (v : PyVal) (hd : a.Denotes n) (h1 : n.nrealizations ≤ 1)
    (h : (oneka a env).ending = .returns v) (fs : Files) :
    ∃ (d : Dict) (f : PField ℝ) (obs : List Obs) (k : ℕ) (t : SWell) (L : RealizationLog),
      loadOneka ((oneka a env).events.foldl Effect.apply fs) env.now.archiveName = .ok d ∧ d.get "pfield" = some (.field (.field f)) ∧
      filterObs n.run.obs (n.run.wells.map fun w => (w.xw, w.yw)) n.buffer = .ok obs ∧ 7 ≤ obs.length ∧
      n.run.target = k ∧ n.run.wells[k]? = some t ∧
      realizations (oneka a env).events = [L] ∧
      Realized { n.run with obs := obs } env.run.la t (fun d _ => d.mean) (fun ev _ => .ok ev) (env.run.interrupt 0) L ∧
      f.total = 1 ∧
      (∀ p q : ℤ, (|p| ≤ 1 ∧ |q| ≤ 1) ∨ n.run.umbra ≤ n.run.spacing →
        f.weightAt (t.xw + p * n.run.spacing) (t.yw + q * n.run.spacing) =
          if L.Captures n.run.umbra (t.xw + p * n.run.spacing) (t.yw + q * n.run.spacing) then 1 else 0) ∧
      (∀ X Y, f.IsNode X Y → ∃ p q : ℤ, X = t.xw + p * n.run.spacing ∧ Y = t.yw + q * n.run.spacing) := by
  obtain ⟨-, -, ha, -⟩ := returned_course h
  obtain ⟨⟨k, t, hk, ht⟩, -, -, hu, -⟩ := accepted_inputs ha hd
  rcases returned_cases hd h with ⟨h2, -⟩ | ⟨-, obs, cols, r, f, pl, H⟩
  · omega
  obtain ⟨d, hd1, hd2⟩ := archived_field h H.archived fs
  obtain ⟨L, c1, c2, -, c4, -, c6, c7⟩ := C46_deterministic { n.run with obs := obs } k env.run t hk ht H.run H.outcome
  exact ⟨d, f, obs, k, t, L, hd1, hd2, H.filtered, H.enough, hk, ht, by rw [H.realizations_eq, c1], c2, c4, fun p q hpq => c6 hu.le p q hpq, c7⟩

end Oneka
