import Verif.Lemmas.Script

/-!
# The program and the profiler (C134)
-/

namespace Oneka

/-- C134: the program prints its last line if, and only if, `main` returns for the name that was typed; the line is printed once, at the end. Example: `Props/ScriptExamples.lean`. -/
theorem C134_done (name : String) (env : ScriptEnv) (h : env.answer = .ok name) :
    (runScript env).ending = (runMain name env.main).ending ∧
    ((runScript env).SaysDone ↔ (runMain name env.main).ending = .returns ()) ∧
    ((runScript env).SaysDone → ∃ l, (runScript env).console = l ++ [("\\\\\\\\\\\\\\\\\\ DONE //////////////////", .str "")] ∧
      ("\\\\\\\\\\\\\\\\\\ DONE //////////////////", PyVal.str "") ∉ l) := by
  obtain ⟨h1, h2, -⟩ := script_course h
  have h3 := main_not_done name env.main
  unfold MainRun.SaysDone at h3 ⊢
  rw [h2]
  refine ⟨h1, ?_, fun hd => ⟨(promptText, .str "") :: (runMain name env.main).console, ?_, ?_⟩⟩
  · split
    · rename_i he
      simp [he, doneText]
    · rename_i he
      simp [he, h3, promptText]
  · split
    · rfl
    · rename_i he
      rw [if_neg he] at hd
      simp [h3, promptText] at hd
  · simp [h3, promptText]

/-- C134: when the program says that it is done, either the archive of the run is there and holds all constants of the module, and the elapsed time was printed; or there is no
such module, a message with its name was printed, the elapsed time was not, and nothing has changed. Example: `Props/ScriptExamples.lean`. -/
theorem C134_meaning (name : String) (env : ScriptEnv) (h : env.answer = .ok name) (hd : (runScript env).SaysDone) (w : World) :
    (((runScript env).leads w).Holds name env.main ∧ ("Total elapsed time", PyVal.float env.main.elapsed) ∈ (runScript env).console) ∨
    (env.main.modules name = .missing ∧ ("ModuleNotFoundError: No module named", PyVal.str name) ∈ (runScript env).console ∧
      (∀ v, ("Total elapsed time", v) ∉ (runScript env).console) ∧ (runScript env).leads w = w) := by
  have he := (C134_done name env h).2.1.mp hd
  obtain ⟨-, h2, h3⟩ := script_course h
  rw [h2, h3]
  cases hm : env.main.modules name with
  | missing =>
    obtain ⟨-, h4, h5⟩ := C76_missing_module name env.main hm
    right
    refine ⟨rfl, ?_, fun v => ?_, h5 w⟩
    · unfold MainRun.console
      rw [h4]
      simp [Act.line?]
    · unfold MainRun.console
      rw [h4, if_pos he]
      simp [Act.line?, promptText, doneText]
  | fails e =>
    rw [(C76_import_fails name env.main e hm).1] at he
    simp at he
  | found m =>
    left
    obtain ⟨d, h4, -, h5⟩ := C75_archive name env.main m hm he w
    refine ⟨⟨m, d, hm, h4, h5⟩, ?_⟩
    have := (elapsed_iff name env.main).mpr ⟨⟨m, hm⟩, he⟩
    simp [this]

/-- C134: the program changes files as the call of `main` does, and shows the elapsed time if, and only if, the module is found and `main` returns. Example: `Props/ScriptExamples.lean`. -/
theorem C134_files (name : String) (env : ScriptEnv) (h : env.answer = .ok name) :
    (∀ w, (runScript env).leads w = w.afterMain name env.main) ∧
    (("Total elapsed time", PyVal.float env.main.elapsed) ∈ (runScript env).console ↔
      (∃ m, env.main.modules name = .found m) ∧ (runScript env).ending = .returns ()) := by
  obtain ⟨h1, h2, h3⟩ := script_course h
  refine ⟨h3, ?_⟩
  rw [h1, ← elapsed_iff, h2]
  split <;> simp [promptText, doneText]

/-- C134: without an answer the program raises, and nothing has changed. Example: `Props/ScriptExamples.lean`. -/
theorem C134_no_answer (env : ScriptEnv) (e : PyErr) (h : env.answer = .error e) :
    (runScript env).ending = .raises e ∧ ¬ (runScript env).SaysDone ∧ ∀ w, (runScript env).leads w = w := by
  unfold runScript MainRun.SaysDone MainRun.console MainRun.leads
  rw [h]
  refine ⟨rfl, ?_, fun w => rfl⟩
  simp [Act.line?, promptText]

/-- C134: `profile_me` of the imported module raises a NameError and computes nothing; in the program it ends as `main` does, with the same effects on all files. The profiler is off
afterwards if, and only if, `main` returned. Example: `Props/ScriptExamples.lean`. -/
theorem C134_profile (env : MainEnv) :
    ((profileMe none env).run.ending = .raises .nameError ∧ (∀ w, (profileMe none env).run.leads w = w) ∧ (profileMe none env).active = true) ∧
    ∀ name, (profileMe (some name) env).run.ending = (runMain name env).ending ∧ (∀ w, (profileMe (some name) env).run.leads w = w.afterMain name env) ∧
      ((profileMe (some name) env).active = false ↔ (runMain name env).ending = .returns ()) := by
  refine ⟨⟨rfl, fun w => rfl, rfl⟩, fun name => ?_⟩
  unfold profileMe MainRun.leads World.afterMain World.after
  cases he : (runMain name env).ending <;> simp [Step.apply, Act.apply, he]

end Oneka
