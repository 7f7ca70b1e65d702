import Verif.Spec.Script
import Verif.Props.Runme

/-!
# Lemmas about the program
-/

namespace Oneka

/-- what `main` prints, in all cases -/
theorem main_console (name : String) (env : MainEnv) :
    (runMain name env).console = [] ∨ (runMain name env).console = [("ModuleNotFoundError: No module named", .str name)] ∨
    ∃ p, (runMain name env).console = [("Running:", p)] ∨ (runMain name env).console = [("Running:", p), ("Total elapsed time", .float env.elapsed)] := by
  have key : ∀ es : List Effect, (es.map Act.effect).filterMap Act.line? = [] := fun es => by
    induction es with
    | nil => rfl
    | cons e es ih => simpa [Act.line?] using ih
  unfold MainRun.console
  rcases main_course name env with ⟨-, h⟩ | ⟨e, -, h⟩ | ⟨m, -, ⟨-, h⟩ | ⟨p, -, ⟨e, -, h⟩ | ⟨-, ⟨e, -, h⟩ | ⟨a, -, ⟨v, -, h⟩ | ⟨e, -, h⟩ | ⟨-, h⟩⟩⟩⟩⟩ <;> rw [h]
  · exact .inr (.inl rfl)
  · exact .inl rfl
  · exact .inl rfl
  · exact .inr (.inr ⟨p, .inl rfl⟩)
  · exact .inr (.inr ⟨p, .inl rfl⟩)
  · refine .inr (.inr ⟨p, .inr ?_⟩)
    simp only [List.filterMap_append, key]
    rfl
  · refine .inr (.inr ⟨p, .inl ?_⟩)
    simp only [List.filterMap_append, key]
    rfl
  · refine .inr (.inr ⟨p, .inl ?_⟩)
    simp only [List.filterMap_append, key]
    rfl

theorem elapsed_iff (name : String) (env : MainEnv) : ("Total elapsed time", PyVal.float env.elapsed) ∈ (runMain name env).console ↔
    (∃ m, env.modules name = .found m) ∧ (runMain name env).ending = .returns () := by
  have key : ∀ es : List Effect, (es.map Act.effect).filterMap Act.line? = [] := fun es => by
    induction es with
    | nil => rfl
    | cons e es ih => simpa [Act.line?] using ih
  unfold MainRun.console
  rcases main_course name env with ⟨h0, h⟩ | ⟨e, h0, h⟩ | ⟨m, h0, ⟨-, h⟩ | ⟨p, -, ⟨e, -, h⟩ | ⟨-, ⟨e, -, h⟩ | ⟨a, -, ⟨v, -, h⟩ | ⟨e, -, h⟩ | ⟨-, h⟩⟩⟩⟩⟩ <;> rw [h, h0] <;>
    simp [List.filterMap_append, List.filterMap_cons, key, Act.line?, startActs, shutdown, -List.mem_filterMap]

theorem main_not_done (name : String) (env : MainEnv) : ¬ (runMain name env).SaysDone := by
  unfold MainRun.SaysDone
  rcases main_console name env with h | h | ⟨p, h | h⟩ <;> rw [h] <;> simp

open Classical in
/-- the course of the program -/
theorem script_course {name : String} {env : ScriptEnv} (h : env.answer = .ok name) :
    (runScript env).ending = (runMain name env.main).ending ∧
    (runScript env).console = (promptText, .str "") :: (runMain name env.main).console ++
      (if (runMain name env.main).ending = .returns () then [(doneText, PyVal.str "")] else []) ∧
    ∀ w, (runScript env).leads w = w.afterMain name env.main := by
  unfold runScript MainRun.console MainRun.leads World.afterMain World.after
  rw [h]
  cases he : (runMain name env.main).ending <;>
    simp [Act.line?, Step.apply, Act.apply, he]

end Oneka
