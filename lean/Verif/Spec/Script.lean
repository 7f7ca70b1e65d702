import Verif.Model.Script
import Verif.Spec.Runme

/-!
# Vocabulary for the properties of the program
-/

namespace Oneka

/-- a line of console output -/
def Act.line? : Act → Option (String × PyVal)
  | .print t v => some (t, v)
  | _ => none

/-- What is printed on the console, in order. -/
def MainRun.console (r : MainRun) : List (String × PyVal) := r.acts.filterMap Act.line?

/-- The world after a run. -/
def MainRun.leads (r : MainRun) (w : World) : World := r.acts.foldl Act.apply w

/-- The program says that it is done. -/
def MainRun.SaysDone (r : MainRun) : Prop := ("\\\\\\\\\\\\\\\\\\ DONE //////////////////", PyVal.str "") ∈ r.console

/-- The module `name` is found, and the archive of the run can be loaded and holds each of its constants under the name that belongs to it. -/
def World.Holds (w : World) (name : String) (env : MainEnv) : Prop :=
  ∃ m d, env.modules name = .found m ∧ loadOneka w.archives env.call.now.archiveName = .ok d ∧ ∀ p ∈ archivedConstants, ∃ v, m p.2 = some v ∧ d.get p.1 = some (.val v)

end Oneka
