import Verif.Spec.Oneka

/-!
# Vocabulary for what the result of a call depends on
-/

namespace Oneka

/-- The two calls pose the same problem: they agree in all numbers, except perhaps in `smooth`, in `buffer` and in the observations; and of the observations the same are retained. -/
structure Inputs.SameProblem (n n' : Inputs) : Prop where
  nrealizations : n'.nrealizations = n.nrealizations
  run : { n'.run with obs := [] } = { n.run with obs := [] }
  retained : filterObs n'.run.obs (n'.run.wells.map fun w => (w.xw, w.yw)) n'.buffer = filterObs n.run.obs (n.run.wells.map fun w => (w.xw, w.yw)) n.buffer

/-- The random numbers, the linear algebra routines and the interruptions are the same, and so is whether the archive can be opened and written. -/
structure CallEnv.SameChance (env env' : CallEnv) : Prop where
  run : env'.run = env.run
  openError : env'.openError = env.openError
  writeError : env'.writeError = env.writeError

/-- What was found, in order: all of the log but fixed texts, the arguments, and the observations that were removed or merged. -/
def findings (es : List Effect) : List LogLine :=
  es.filterMap fun
    | .log (.text _) | .log (.value _ _) | .log (.filter _) => none
    | .log l => some l
    | _ => none

/-- The same figure, except perhaps for how smooth the probabilities are drawn. -/
def Figure.Alike : Figure → Figure → Prop
  | .probability p, .probability p' => p'.x = p.x ∧ p'.y = p.y ∧ p'.marks = p.marks
  | f, f' => f' = f

end Oneka
