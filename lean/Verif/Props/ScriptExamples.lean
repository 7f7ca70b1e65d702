import Verif.Props.Script
import Verif.Props.RunmeExamples

/-!
# Runs of the program that meet the hypotheses of C134
-/

namespace Oneka

/-- C134: every shipped module that is typed is computed: the program says that it is done, and the archive is there. -/
theorem shipped_done (N : ℕ) (s t : DateTime) {p : String × DataSet} (hp : p ∈ shipped) (w : World) :
    (runScript ⟨.ok p.1, shippedEnv N s t⟩).SaysDone ∧ ((runScript ⟨.ok p.1, shippedEnv N s t⟩).leads w).Holds p.1 (shippedEnv N s t) ∧
    ("Total elapsed time", PyVal.float (.fin 12)) ∈ (runScript ⟨.ok p.1, shippedEnv N s t⟩).console := by
  have h := (C134_done p.1 ⟨.ok p.1, shippedEnv N s t⟩ rfl).2.1.mpr (shipped_returns N s t hp)
  rcases C134_meaning p.1 ⟨.ok p.1, shippedEnv N s t⟩ rfl h w with ⟨h1, h2⟩ | ⟨h1, -⟩
  · exact ⟨h, h1, h2⟩
  · have := shipped_found N s t hp
    rw [show (shippedEnv N s t).modules p.1 = .missing from h1] at this
    simp at this

/-- C134: the name of the file instead of the name of the module: the program also says that it is done, but has done nothing. -/
example (N : ℕ) (s t : DateTime) (w : World) : (runScript ⟨.ok "data.perham.py", shippedEnv N s t⟩).SaysDone ∧
    (runScript ⟨.ok "data.perham.py", shippedEnv N s t⟩).leads w = w ∧
    ("ModuleNotFoundError: No module named", PyVal.str "data.perham.py") ∈ (runScript ⟨.ok "data.perham.py", shippedEnv N s t⟩).console := by
  have hm : (shippedEnv N s t).modules "data.perham.py" = .missing := by simp [shippedEnv, shipped]
  have h := (C134_done "data.perham.py" ⟨.ok "data.perham.py", shippedEnv N s t⟩ rfl).2.1.mpr (C76_missing_module _ _ hm).1
  rcases C134_meaning "data.perham.py" ⟨.ok "data.perham.py", shippedEnv N s t⟩ rfl h w with ⟨⟨m, d, h1, -⟩, -⟩ | ⟨-, h1, -, h2⟩
  · rw [show (shippedEnv N s t).modules "data.perham.py" = .found m from h1] at hm
    simp at hm
  · exact ⟨h, h2, h1⟩

/-- C134: a run that fails is not done: the folder for the log files does not exist -/
example (N : ℕ) (s t : DateTime) : ¬ (runScript ⟨.ok "data.perham", { shippedEnv N s t with logError := some (.other 2) }⟩).SaysDone := by
  have hp : ("data.perham", perhamData) ∈ shipped := by simp [shipped]
  intro h
  have := (C134_done "data.perham" ⟨.ok "data.perham", { shippedEnv N s t with logError := some (.other 2) }⟩ rfl).2.1.mp h
  have := (main_returns this (shipped_found N s t hp)).1
  simp at this

/-- C134: the end of the input -/
example (N : ℕ) (s t : DateTime) : (runScript ⟨.error (.other 3), shippedEnv N s t⟩).ending = .raises (.other 3) :=
  (C134_no_answer ⟨.error (.other 3), shippedEnv N s t⟩ _ rfl).1

/-- C134: the profiler is off after a shipped module, and on after an interrupted one -/
example (N : ℕ) (s t : DateTime) : (profileMe (some "data.perham") (shippedEnv N s t)).active = false ∧
    (profileMe (some "data.perham") { shippedEnv N s t with logError := some (.other 2) }).active ≠ false := by
  have hp : ("data.perham", perhamData) ∈ shipped := by simp [shipped]
  refine ⟨(((C134_profile _).2 _).2.2).mpr (shipped_returns N s t hp), fun h => ?_⟩
  have := (main_returns ((((C134_profile _).2 _).2.2).mp h) (shipped_found N s t hp)).1
  simp at this

end Oneka
