import Verif.Lemmas.PropsRunme

/-!
# The driver and the shipped data modules (C75–C78)
-/

namespace Oneka

/-! ## C75 -/

/-- C75: if `main` returns for a module that can be imported, the archive holds every constant of the module under the name that belongs to it, and the time at
which the run was started. Example: `Props/RunmeExamples.lean`. -/
theorem C75_archive (name : String) (env : MainEnv) (m : String → Option PyVal) (hm : env.modules name = .found m)
    (h : (runMain name env).ending = .returns ()) (w : World) :
    ∃ d, loadOneka (w.afterMain name env).archives env.call.now.archiveName = .ok d ∧ d.get "runtime" = some (.val (.str env.asctime)) ∧
      ∀ p ∈ archivedConstants, ∃ v, m p.2 = some v ∧ d.get p.1 = some (.val v) := by
  obtain ⟨hl, a, v, ha, hv⟩ := main_returns h hm
  obtain ⟨-, d, f, -, hrec, -, hfs⟩ := C60_archive a env.call v hv
  obtain ⟨q0, q1, q2, q3, q4, q5, q6, q7, q8, q9, q10, q11, q12, q13, q14, q15, q16, q17, q18⟩ := moduleArgs_ok ha
  refine ⟨d, ?_, by rw [hrec.runtime, q0], ?_⟩
  · rw [main_archives hm ha hl]
    exact (hfs w.archives).1
  · intro p hp
    simp only [archivedConstants, List.mem_cons, List.not_mem_nil, or_false] at hp
    rcases hp with rfl | rfl | rfl | rfl | rfl | rfl | rfl | rfl | rfl | rfl | rfl | rfl | rfl | rfl | rfl | rfl | rfl | rfl
    exacts [⟨_, q1, hrec.projectname⟩, ⟨_, q2, hrec.target⟩, ⟨_, q3, hrec.npaths⟩, ⟨_, q4, hrec.duration⟩, ⟨_, q5, hrec.nrealizations⟩, ⟨_, q6, hrec.base⟩,
      ⟨_, q7, hrec.cDist⟩, ⟨_, q8, hrec.pDist⟩, ⟨_, q9, hrec.tDist⟩, ⟨_, q10, hrec.wells⟩, ⟨_, q11, hrec.observations⟩, ⟨_, q12, hrec.buffer⟩,
      ⟨_, q13, hrec.spacing⟩, ⟨_, q14, hrec.umbra⟩, ⟨_, q15, hrec.smooth⟩, ⟨_, q16, hrec.confined⟩, ⟨_, q17, hrec.tol⟩, ⟨_, q18, hrec.maxstep⟩]

/-- C75: once the constants of the module have been accepted, whatever happens afterwards, the log file of the run holds every constant of the module: the scalars with
their labels, and one entry for every well and every observation. Example: `Props/RunmeExamples.lean`. -/
theorem C75_log (name : String) (env : MainEnv) (m : String → Option PyVal) (a : PyArgs) (n : ℤ) (hm : env.modules name = .found m)
    (hs : Supplies m env.asctime a) (hl : env.logError = none) (hacc : Acceptable a) (hn : a.nrealizations.IsInteger n) (w : World) :
    (∀ p ∈ loggedConstants, ∃ v, m p.2 = some v ∧ .value p.1 v ∈ (w.afterMain name env).log env.logTime.logName) ∧
    (∃ v, m "NREALIZATIONS" = some v ∧ .value (if 1 < n then "nrealizations STOCHASTIC" else "nrealizations DETERMINISTIC") v ∈
      (w.afterMain name env).log env.logTime.logName) ∧
    (∃ ws, m "WELLS" = some (.list ws) ∧ ∀ v ∈ ws, .value "    " v ∈ (w.afterMain name env).log env.logTime.logName) ∧
    ∃ os, m "OBSERVATIONS" = some (.list os) ∧ ∀ v ∈ os, .value "    " v ∈ (w.afterMain name env).log env.logTime.logName := by
  have ha := moduleArgs_of hs
  obtain ⟨ws, os, hw, ho, hrep⟩ := C71_log a env.call hacc n hn
  obtain ⟨hop, hpre⟩ := entries_eq hm ha hl
  have key : ∀ label v, (label, v) ∈ a.report (decide (1 < n)) ws os → .value label v ∈ (w.afterMain name env).log env.logTime.logName :=
    fun label v h => opened_log w hop (hpre.subset (logged_mem (hrep.subset h)))
  obtain ⟨q0, q1, q2, q3, q4, q5, q6, q7, q8, q9, q10, q11, q12, q13, q14, q15, q16, q17, q18⟩ := moduleArgs_ok ha
  refine ⟨fun p hp => ?_, ⟨_, q5, key _ _ ?_⟩, ⟨ws, by rw [q10, hw], fun v hv => key _ _ ?_⟩, ⟨os, by rw [q11, ho], fun v hv => key _ _ ?_⟩⟩
  · simp only [loggedConstants, List.mem_cons, List.not_mem_nil, or_false] at hp
    rcases hp with rfl | rfl | rfl | rfl | rfl | rfl | rfl | rfl | rfl | rfl | rfl | rfl | rfl | rfl | rfl
    · exact ⟨_, q1, key _ _ (by simp [PyArgs.report])⟩
    · exact ⟨_, q2, key _ _ (by simp [PyArgs.report])⟩
    · exact ⟨_, q3, key _ _ (by simp [PyArgs.report])⟩
    · exact ⟨_, q4, key _ _ (by simp [PyArgs.report])⟩
    · exact ⟨_, q6, key _ _ (by simp [PyArgs.report])⟩
    · exact ⟨_, q7, key _ _ (by simp [PyArgs.report])⟩
    · exact ⟨_, q8, key _ _ (by simp [PyArgs.report])⟩
    · exact ⟨_, q9, key _ _ (by simp [PyArgs.report])⟩
    · exact ⟨_, q12, key _ _ (by simp [PyArgs.report])⟩
    · exact ⟨_, q13, key _ _ (by simp [PyArgs.report])⟩
    · exact ⟨_, q14, key _ _ (by simp [PyArgs.report])⟩
    · exact ⟨_, q15, key _ _ (by simp [PyArgs.report])⟩
    · exact ⟨_, q16, key _ _ (by simp [PyArgs.report])⟩
    · exact ⟨_, q17, key _ _ (by simp [PyArgs.report])⟩
    · exact ⟨_, q18, key _ _ (by simp [PyArgs.report])⟩
  · simp [PyArgs.report]
  · simp [PyArgs.report, hv]
  · simp [PyArgs.report, hv]

/-! ## C76 -/

/-- C76: for a module that is not found `main` prints a message with its name and returns; nothing has changed. Example: `Props/RunmeExamples.lean`. -/
theorem C76_missing_module (name : String) (env : MainEnv) (hm : env.modules name = .missing) :
    (runMain name env).ending = .returns () ∧ (runMain name env).acts = [.print "ModuleNotFoundError: No module named" (.str name)] ∧
    ∀ w : World, w.afterMain name env = w := by
  rcases main_course name env with ⟨-, h⟩ | ⟨e, h, -⟩ | ⟨m, h, -⟩
  · unfold World.afterMain World.after
    simp only [List.foldl_cons, List.foldl_nil, Step.apply]
    rw [h]
    exact ⟨rfl, rfl, fun w => rfl⟩
  · rw [hm] at h; simp at h
  · rw [hm] at h; simp at h

/-- C76: any other exception raised by the import ends `main`; nothing has changed. Example: `Props/RunmeExamples.lean`. -/
theorem C76_import_fails (name : String) (env : MainEnv) (e : PyErr) (hm : env.modules name = .fails e) :
    (runMain name env).ending = .raises e ∧ ∀ w : World, w.afterMain name env = w := by
  rcases main_course name env with ⟨h, -⟩ | ⟨e', h1, h⟩ | ⟨m, h, -⟩
  · rw [hm] at h; simp at h
  · obtain rfl : e = e' := by rw [hm] at h1; exact Import.fails.inj h1
    unfold World.afterMain World.after
    simp only [List.foldl_cons, List.foldl_nil, Step.apply]
    rw [h]
    exact ⟨rfl, fun w => rfl⟩
  · rw [hm] at h; simp at h

/-- C76: if a constant is missing, `main` raises (an AttributeError, unless the log file cannot be created), and neither an archive nor the contents of a log file have changed. Example: `Props/RunmeExamples.lean`. -/
theorem C76_missing_constant (name : String) (env : MainEnv) (m : String → Option PyVal) (hm : env.modules name = .found m) (c : String × String)
    (hc : c ∈ archivedConstants) (h : m c.2 = none) :
    (∃ e, (runMain name env).ending = .raises e ∧ (e = .attributeError ∨ env.logError = some e)) ∧
    ∀ w : World, (w.afterMain name env).archives = w.archives ∧ ∀ f, (w.afterMain name env).log f = w.log f := by
  unfold World.afterMain World.after
  simp only [List.foldl_cons, List.foldl_nil, Step.apply]
  rcases main_course name env with ⟨h1, -⟩ | ⟨e, h1, -⟩ | ⟨m', h', ⟨-, h1⟩ | ⟨p, -, ⟨e, hl, h1⟩ | ⟨hl, ⟨e, he, h1⟩ | ⟨a, ha, -⟩⟩⟩⟩
  · rw [hm] at h1; simp at h1
  · rw [hm] at h1; simp at h1
  · rw [h1]
    exact ⟨⟨_, rfl, .inl rfl⟩, fun w => ⟨rfl, fun _ => rfl⟩⟩
  · rw [h1]
    exact ⟨⟨_, rfl, .inr hl⟩, fun w => ⟨rfl, fun _ => rfl⟩⟩
  · rw [h1]
    exact ⟨⟨_, rfl, .inl (moduleArgs_error he)⟩, fun w => start_world w p env⟩
  · exfalso
    obtain rfl : m = m' := by rw [hm] at h'; exact Import.found.inj h'
    obtain ⟨q0, q1, q2, q3, q4, q5, q6, q7, q8, q9, q10, q11, q12, q13, q14, q15, q16, q17, q18⟩ := moduleArgs_ok ha
    simp only [archivedConstants, List.mem_cons, List.not_mem_nil, or_false] at hc
    rcases hc with rfl | rfl | rfl | rfl | rfl | rfl | rfl | rfl | rfl | rfl | rfl | rfl | rfl | rfl | rfl | rfl | rfl | rfl <;> simp_all

/-- C76: if the constants are not acceptable, `main` raises, and neither an archive nor the contents of a log file have changed. Example: `Props/RunmeExamples.lean`. -/
theorem C76_rejected (name : String) (env : MainEnv) (m : String → Option PyVal) (a : PyArgs) (hm : env.modules name = .found m)
    (hs : Supplies m env.asctime a) (h : ¬ Acceptable a) :
    (∃ e, (runMain name env).ending = .raises e ∧ (e = .assertionError ∨ e = .typeError ∨ env.logError = some e)) ∧
    ∀ w : World, (w.afterMain name env).archives = w.archives ∧ ∀ f, (w.afterMain name env).log f = w.log f := by
  have ha := moduleArgs_of hs
  obtain ⟨e0, he0, hcall⟩ := C58_no_effect a env.call h
  have hp := (moduleArgs_ok ha).2.1
  unfold World.afterMain World.after
  simp only [List.foldl_cons, List.foldl_nil, Step.apply]
  rcases main_course name env with ⟨h1, -⟩ | ⟨e, h1, -⟩ | ⟨m', h', ⟨h1, -⟩ | ⟨p, -, ⟨e, hl, h1⟩ | ⟨hl, ⟨e, he, -⟩ | ⟨a', h0, ⟨v, hv, -⟩ | ⟨e, hv, h1⟩ | ⟨hv, -⟩⟩⟩⟩⟩
  · rw [hm] at h1; simp at h1
  · rw [hm] at h1; simp at h1
  all_goals obtain rfl : m = m' := by rw [hm] at h'; exact Import.found.inj h'
  · rw [h1] at hp; simp at hp
  · rw [h1]
    exact ⟨⟨_, rfl, .inr (.inr hl)⟩, fun w => ⟨rfl, fun _ => rfl⟩⟩
  · rw [ha] at he; simp at he
  all_goals
    obtain rfl : a = a' := by rw [ha] at h0; exact Except.ok.inj h0
    rw [hcall] at hv
  · simp at hv
  · obtain rfl : e0 = e := by simpa using hv
    rw [h1, hcall]
    refine ⟨⟨_, rfl, ?_⟩, fun w => ?_⟩
    · rcases he0 with he0 | he0
      · exact .inl he0
      · exact .inr (.inl he0)
    · simpa using start_world w p env
  · simp at hv

/-! ## C77 -/

/-- C77 (partial: the file must belong to one process): in a process of its own, a call of `main` appends exactly its own entries to its log file, and nothing to any other log file. Example: `Props/RunmeExamples.lean`. -/
theorem C77_own_partial (name : String) (env : MainEnv) (w : World) (hw : w.handlers = []) (f : String) :
    ((runMain name env).Opens f → (w.afterMain name env).log f = w.log f ++ (runMain name env).entries) ∧
    (¬ (runMain name env).Opens f → (w.afterMain name env).log f = w.log f) := by
  have h := history_log f [.main name env] w
  have one : ∀ l : List LogLine, l.flatMap (List.replicate 1) = l := by
    intro l
    induction l <;> simp_all
  rw [World.afterMain, h, hw]
  simp only [List.count_nil, appended, List.append_nil]
  constructor <;> intro ho
  · rw [if_pos ho, one]
  · rw [if_neg ho, flatMap_zero, List.append_nil]

/-- C77, the exact rule: after any sequence of calls of `main` in any number of processes, a log file holds what it held before, followed by the entries of the calls
in order, each written once for every time the current process has opened the file so far. Example: `Props/RunmeExamples.lean`. -/
theorem C77_history (steps : List Step) (w : World) (hw : w.handlers = []) (f : String) : (w.after steps).log f = w.log f ++ appended f 0 steps := by
  rw [history_log, hw, List.count_nil]

/-- C77 fails for two calls in one process: the log file of the first also gets all entries of the second. Example: `Props/RunmeExamples.lean`. -/
theorem C77_fails_in_one_process (name name' : String) (env env' : MainEnv) (w : World) (hw : w.handlers = []) (f g : String) (hfg : f ≠ g)
    (hf : (runMain name env).Opens f) (hg : (runMain name' env').Opens g) :
    (w.after [.main name env, .main name' env']).log f = w.log f ++ (runMain name env).entries ++ (runMain name' env').entries := by
  have one : ∀ l : List LogLine, l.flatMap (List.replicate 1) = l := by
    intro l
    induction l <;> simp_all
  have hng : ¬ (runMain name' env').Opens f := by
    intro h
    rcases main_world name' env' w with ⟨-, h2, -⟩ | ⟨-, h2, -⟩
    · exact h2 _ h
    · rw [h2] at h hg
      exact hfg (h.trans hg.symm)
  rw [C77_history _ _ hw]
  simp only [appended, if_pos hf, if_neg hng, one, List.append_nil, List.append_assoc, Nat.zero_add]

/-- C77 fails for two calls in one process within one second: the entries of the second are written twice, into the same file. Example: `Props/RunmeExamples.lean`. -/
theorem C77_fails_same_second (name name' : String) (env env' : MainEnv) (w : World) (hw : w.handlers = []) (f : String)
    (hf : (runMain name env).Opens f) (hg : (runMain name' env').Opens f) :
    (w.after [.main name env, .main name' env']).log f = w.log f ++ (runMain name env).entries ++ (runMain name' env').entries.flatMap fun l => [l, l] := by
  have one : ∀ l : List LogLine, l.flatMap (List.replicate 1) = l := by
    intro l
    induction l <;> simp_all
  rw [C77_history _ _ hw]
  simp only [appended, if_pos hf, if_pos hg, one, List.append_nil, List.append_assoc, Nat.zero_add]
  rfl

/-- C77 (partial: one process per call and one call per second): every log file holds what it held before, followed by exactly the entries of its own call. Example: `Props/RunmeExamples.lean`. -/
theorem C77_separate_partial (runs : List (String × MainEnv)) (w : World) (hv : ∀ r ∈ runs, r.2.logTime.Valid)
    (hd : runs.Pairwise fun r r' => r.2.logTime ≠ r'.2.logTime) (r : String × MainEnv) (hr : r ∈ runs) (f : String) (hf : (runMain r.1 r.2).Opens f) :
    (w.after (separately runs)).log f = w.log f ++ (runMain r.1 r.2).entries := by
  have one : ∀ l : List LogLine, l.flatMap (List.replicate 1) = l := by
    intro l
    induction l <;> simp_all
  rw [history_log]
  congr 1
  generalize w.handlers.count f = c
  induction runs generalizing c with
  | nil => simp at hr
  | cons r0 runs ih =>
    have hc : separately (r0 :: runs) = .restart :: .main r0.1 r0.2 :: separately runs := rfl
    rw [hc]
    rw [List.pairwise_cons] at hd
    have other : ∀ r1 ∈ r0 :: runs, r1.2.logTime ≠ r.2.logTime → ¬ (runMain r1.1 r1.2).Opens f := by
      intro r1 h1 hne ho
      have := (opens_iff ho).symm.trans (opens_iff hf)
      exact hne (logName_injective (hv _ h1) (hv _ hr) this)
    rcases List.mem_cons.mp hr with rfl | hr'
    · simp only [appended, if_pos hf, one, Nat.zero_add]
      rw [separate_appended, List.append_nil]
      exact fun r1 h1 => other r1 (List.mem_cons_of_mem _ h1) (hd.1 r1 h1).symm
    · have hno := other r0 List.mem_cons_self (hd.1 r hr')
      simp only [appended, if_neg hno, flatMap_zero, List.nil_append]
      exact ih (fun r h => hv r (List.mem_cons_of_mem _ h)) hd.2 hr' _

/-! ## C78 -/

section

variable {p : String × DataSet} {env : MainEnv} (hp : p ∈ shipped) (hm : env.modules p.1 = .found p.2.attrs) (hl : env.logError = none)

include hp hm hl

/-- C78: a run of a shipped data module raises only if the coefficients of a realization cannot be drawn or the archive cannot be opened or written. Example: `Props/RunmeExamples.lean`. -/
theorem C78_raises (hu : ∀ i j, 0 ≤ env.call.run.u i j ∧ env.call.run.u i j < 1) (hla : env.call.run.la.Correct) (hc : env.call.run.la.Converges)
    (e : PyErr) (h : (runMain p.1 env).ending = .raises e) :
    (∃ (i : ℕ) (ev : Fin 6 → ℝ) (cov : Matrix (Fin 6) (Fin 6) ℝ), (i : ℤ) < p.2.nrealizations ∧ env.call.run.mvn i ev cov = .error e) ∨
    env.call.openError = some e ∨ env.call.writeError = some e := by
  obtain ⟨c, hg⟩ := shipped_good p hp
  obtain ⟨-, -, -, -, -, -, -, -, -, -, -, -, -, -, -, h16, h17, -, h19⟩ := p.2.good_spec hg
  obtain ⟨q1, q2, -⟩ := shipped_ending hp hm hl
  obtain ⟨obs, ho, hf⟩ := C70_raises q1 (p.2.denotes _) (p.2.regular hg) (fun _ => ⟨p.2.spread hg, hu⟩) hla hc e (q2 e h)
  obtain rfl : p.2.kept.map LitObs.obs = obs := by rw [p.2.retained hg] at ho; exact Except.ok.inj ho
  clear h
  cases hf with
  | few h => rw [List.length_map] at h; omega
  | dry o h1 h2 =>
    obtain ⟨o', ho', rfl⟩ := List.mem_map.mp h1
    have : (p.2.base.val : ℝ) < o'.z.val := by exact_mod_cast h17 o' ho'
    exact absurd this (not_lt.mpr h2)
  | conic h => exact absurd h (Certificate.general h19)
  | coefficients i ev cov e h1 h2 h3 => exact .inl ⟨i, ev, cov, h2, h3⟩
  | opening e h => exact .inr (.inl h)
  | writing e h1 h => exact .inr (.inr h)

/-- C78: it runs forever only if one of its traces does. Example: `Props/RunmeExamples.lean`. -/
theorem C78_diverges (h : (runMain p.1 env).ending = .diverges) :
    ∃ (k : ℕ) (t : SWell), p.2.inputs.run.target = k ∧ p.2.inputs.run.wells[k]? = some t ∧ EndlessRun p.2.inputs (p.2.kept.map LitObs.obs) env.call.run t := by
  obtain ⟨c, hg⟩ := shipped_good p hp
  obtain ⟨q1, -, q2, -⟩ := shipped_ending hp hm hl
  obtain ⟨obs, k, t, ho, hk, ht, he⟩ := C70_diverges q1 (p.2.denotes _) (q2 h)
  obtain rfl : p.2.kept.map LitObs.obs = obs := by rw [p.2.retained hg] at ho; exact Except.ok.inj ho
  exact ⟨k, t, hk, ht, he⟩

/-- C78: in all other cases it returns. Example: `Props/RunmeExamples.lean`. -/
theorem C78_returns (hu : ∀ i j, 0 ≤ env.call.run.u i j ∧ env.call.run.u i j < 1) (hla : env.call.run.la.Correct) (hc : env.call.run.la.Converges)
    (hmv : ∀ i ev cov, ∃ c, env.call.run.mvn i ev cov = .ok c)
    (ht : ∀ (k : ℕ) (t : SWell), p.2.inputs.run.wells[k]? = some t → ¬ EndlessRun p.2.inputs (p.2.kept.map LitObs.obs) env.call.run t)
    (ho : env.call.openError = none) (hw : env.call.writeError = none) : (runMain p.1 env).ending = .returns () := by
  cases he : (runMain p.1 env).ending with
  | returns _ => rfl
  | raises e =>
    exfalso
    rcases C78_raises hp hm hl hu hla hc e he with ⟨i, ev, cov, -, h⟩ | h | h
    · obtain ⟨c, h'⟩ := hmv i ev cov
      rw [h'] at h; simp at h
    · rw [ho] at h; simp at h
    · rw [hw] at h; simp at h
  | diverges =>
    exfalso
    obtain ⟨k, t, -, h1, h2⟩ := C78_diverges hp hm hl he
    exact ht k t h1 h2

end

end Oneka
