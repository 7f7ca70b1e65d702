import Verif.Lemmas.Returned

/-!
# Lemmas for Props/Oneka.lean
-/

namespace Oneka

theorem log_nonempty (a : PyArgs) : (logTheRun a).events ≠ [] := by
  have h : (Prog.infos banner).events <+: (logTheRun a).events := by
    unfold logTheRun
    exact Prog.events_prefix _ _
  intro h0
  rw [h0] at h
  simp [Prog.infos, banner] at h

theorem records_archive (a : PyArgs) (f : FieldVal) : Dict.Records (archiveDict a f) a := by
  constructor <;> rfl

/-- the files after the effects of a returned call -/
theorem returned_files {l : List Effect} (hq : ∀ e ∈ l, Quiet e) (name : String) (d : Dict) (fs : Files) :
    (l ++ [Effect.opened name, .wrote name d, .shown]).foldl Effect.apply fs = fun n => if n = name then some (.archive d) else fs n := by
  rw [List.foldl_append, quiet_files hq]
  funext n
  simp only [List.foldl_cons, List.foldl_nil, Effect.apply]
  split <;> rfl

theorem opened_on [DecidablePred Effect.OnFiles] (n : String) : decide (Effect.OnFiles (.opened n)) = true := decide_eq_true trivial

theorem wrote_on [DecidablePred Effect.OnFiles] (n : String) (d : Dict) : decide (Effect.OnFiles (.wrote n d)) = true := decide_eq_true trivial

theorem shown_on [DecidablePred Effect.OnFiles] : decide (Effect.OnFiles .shown) = false := decide_eq_false id

end Oneka
