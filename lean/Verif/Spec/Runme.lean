import Verif.Model.Runme
import Verif.Spec.Oneka

/-!
# Vocabulary for the properties of the driver
-/

namespace Oneka

/-- The names in the archive and the constants of a data module that belong to them. -/
def archivedConstants : List (String × String) :=
  [("projectname", "PROJECTNAME"), ("target", "TARGET"), ("npaths", "NPATHS"), ("duration", "DURATION"), ("nrealizations", "NREALIZATIONS"), ("base", "BASE"),
    ("c_dist", "C_DIST"), ("p_dist", "P_DIST"), ("t_dist", "T_DIST"), ("stochastic_wells", "WELLS"), ("observations", "OBSERVATIONS"), ("buffer", "BUFFER"),
    ("spacing", "SPACING"), ("umbra", "UMBRA"), ("smooth", "SMOOTH"), ("confined", "CONFINED"), ("tol", "TOL"), ("maxstep", "MAXSTEP")]

/-- The labels in the log and the constants of a data module that belong to them (the number of realizations has one of two labels; wells and observations are logged one by one). -/
def loggedConstants : List (String × String) :=
  [("project name", "PROJECTNAME"), ("target", "TARGET"), ("npaths", "NPATHS"), ("duration", "DURATION"), ("base", "BASE"), ("c_dist", "C_DIST"), ("p_dist", "P_DIST"),
    ("t_dist", "T_DIST"), ("buffer", "BUFFER"), ("spacing", "SPACING"), ("umbra", "UMBRA"), ("smooth", "SMOOTH"), ("confined", "CONFINED"), ("tol", "TOL"),
    ("maxstep", "MAXSTEP")]

/-- The module has all constants, and `a` are the arguments of a call with them: every constant in the role of its name, and the time at which the run was started. -/
structure Supplies (m : String → Option PyVal) (started : String) (a : PyArgs) : Prop where
  projectname : m "PROJECTNAME" = some a.projectname
  runtime : a.runtime = .str started
  target : m "TARGET" = some a.target
  npaths : m "NPATHS" = some a.npaths
  duration : m "DURATION" = some a.duration
  nrealizations : m "NREALIZATIONS" = some a.nrealizations
  base : m "BASE" = some a.base
  cDist : m "C_DIST" = some a.cDist
  pDist : m "P_DIST" = some a.pDist
  tDist : m "T_DIST" = some a.tDist
  wells : m "WELLS" = some a.wells
  observations : m "OBSERVATIONS" = some a.observations
  buffer : m "BUFFER" = some a.buffer
  spacing : m "SPACING" = some a.spacing
  umbra : m "UMBRA" = some a.umbra
  smooth : m "SMOOTH" = some a.smooth
  confined : m "CONFINED" = some a.confined
  tol : m "TOL" = some a.tol
  maxstep : m "MAXSTEP" = some a.maxstep

/-- the log entry that an effect is -/
def Effect.entry? : Effect → Option LogLine
  | .log l => some l
  | _ => none

/-- the log entry that an effect of `main` is -/
def Act.entry? : Act → Option LogLine
  | .effect e => e.entry?
  | _ => none

/-- The log entries of a call of `main`, in order. -/
def MainRun.entries (r : MainRun) : List LogLine := r.acts.filterMap Act.entry?

/-- The call of `main` opens a log file of this name. -/
def MainRun.Opens (r : MainRun) (file : String) : Prop := Act.attach file ∈ r.acts

/-- What a log file holds (nothing, if there is no such file). -/
def World.log (w : World) (file : String) : List LogLine := (w.logs file).getD []

/-- The world after a call of `main`. -/
noncomputable def World.afterMain (w : World) (name : String) (env : MainEnv) : World := w.after [.main name env]

open Classical in
/-- What a sequence of steps appends to a log file, if `c` handlers for it are attached at the beginning: every entry of a call is written once for every handler, and
calls that open the file attach one more. -/
noncomputable def appended (file : String) : ℕ → List Step → List LogLine
  | _, [] => []
  | _, .restart :: steps => appended file 0 steps
  | c, .main name env :: steps =>
    let c' := if (runMain name env).Opens file then c + 1 else c
    (runMain name env).entries.flatMap (List.replicate c') ++ appended file c' steps

/-- Every call in a process of its own. -/
def separately (runs : List (String × MainEnv)) : List Step := runs.flatMap fun r => [.restart, .main r.1 r.2]

end Oneka
