import Verif.Model.Oneka

/-!
# Model of runme.py

`main(module_name)` imports a data module, opens a log file, calls `oneka` with the constants of the module and logs the elapsed time.
Simplifications: console output is recorded as text and value; the log file is a list of log entries; once a log file has been created, writing to it never fails.
The profiler (runme.py:77-86) and the prompt (runme.py:89-94) are in `Model/Script.lean`.
-/

namespace Oneka

/-- What `importlib.import_module(name)` does (runme.py:35). -/
inductive Import
  /-- ModuleNotFoundError, raised for the module or for one that it imports -/
  | missing
  /-- any other exception -/
  | fails (e : PyErr)
  /-- a module: its attributes -/
  | found (attrs : String → Option PyVal)

/-- What a call of `main` depends on besides the module name. (runme.py:33-74) -/
structure MainEnv where
  modules : String → Import
  /-- `time.asctime()` -/
  asctime : String
  /-- the clock when the log file is named -/
  logTime : DateTime
  /-- creating the log file may fail -/
  logError : Option PyErr
  call : CallEnv
  /-- `time.time() - start_time`, at the end -/
  elapsed : XR

/-- An effect of `main`. (runme.py:33-74) -/
inductive Act
  /-- output on the console -/
  | print (text : String) (v : PyVal)
  /-- a log file was opened for appending and its handler was added to the logger -/
  | attach (file : String)
  /-- an effect of `oneka`, or a log entry of `main` -/
  | effect (e : Effect)

/-- A call of `main`: its effects and how it ends. (runme.py:33-74) -/
structure MainRun where
  acts : List Act
  ending : Ending Unit

/-- `m.NAME` (AttributeError if there is no such constant) (runme.py:36, 61-66) -/
def attr (m : String → Option PyVal) (name : String) : Except PyErr PyVal := (m name).elim (.error .attributeError) .ok

/-- runme.py:61-67: the positional arguments of the call of `oneka`, in the order of its parameters (oneka/oneka.py:73-79). -/
def moduleArgs (m : String → Option PyVal) (runtime : String) : Except PyErr PyArgs := do
  let projectname ← attr m "PROJECTNAME"
  let target ← attr m "TARGET"
  let npaths ← attr m "NPATHS"
  let duration ← attr m "DURATION"
  let nrealizations ← attr m "NREALIZATIONS"
  let base ← attr m "BASE"
  let cDist ← attr m "C_DIST"
  let pDist ← attr m "P_DIST"
  let tDist ← attr m "T_DIST"
  let wells ← attr m "WELLS"
  let observations ← attr m "OBSERVATIONS"
  let buffer ← attr m "BUFFER"
  let spacing ← attr m "SPACING"
  let umbra ← attr m "UMBRA"
  let smooth ← attr m "SMOOTH"
  let confined ← attr m "CONFINED"
  let tol ← attr m "TOL"
  let maxstep ← attr m "MAXSTEP"
  pure ⟨projectname, .str runtime, target, npaths, duration, nrealizations, base, cDist, pDist, tDist, wells, observations, buffer, spacing, umbra, smooth, confined,
    tol, maxstep⟩

/-- runme.py:50: the name of the log file. -/
def DateTime.logName (t : DateTime) : String := String.ofList ("logs\\Oneka".toList ++ t.stamp ++ ".log".toList)

/-- runme.py:68-74: the last statements of `main`. -/
def shutdown (env : MainEnv) : List Act :=
  [.effect (.log (.text "\n")), .effect (.log (.value "Total elapsed time" (.float env.elapsed))), .print "Total elapsed time" (.float env.elapsed)]

/-- runme.py:33-75 `main`. -/
noncomputable def runMain (name : String) (env : MainEnv) : MainRun :=
  match env.modules name with
  | .missing => ⟨[.print "ModuleNotFoundError: No module named" (.str name)], .returns ()⟩
  | .fails e => ⟨[], .raises e⟩
  | .found m =>
    match attr m "PROJECTNAME" with
    | .error e => ⟨[], .raises e⟩
    | .ok p =>
      match env.logError with
      | some e => ⟨[.print "Running:" p], .raises e⟩
      | none =>
        match moduleArgs m env.asctime with
        | .error e => ⟨[.print "Running:" p, .attach env.logTime.logName], .raises e⟩
        | .ok a =>
          let called := [.print "Running:" p, .attach env.logTime.logName] ++ (oneka a env.call).events.map .effect
          match (oneka a env.call).ending with
          | .returns _ => ⟨called ++ shutdown env, .returns ()⟩
          | .raises e => ⟨called, .raises e⟩
          | .diverges => ⟨called, .diverges⟩

/-! ## Files -/

/-- The files, and the log files whose handlers are attached to the logger `Oneka` of the current process. (runme.py:46-57) -/
structure World where
  archives : Files
  logs : String → Option (List LogLine)
  handlers : List String

/-- one handler writes one entry at the end of its file (runme.py:51-55) -/
def appendLog (logs : String → Option (List LogLine)) (file : String) (l : LogLine) : String → Option (List LogLine) :=
  fun n => if n = file then some ((logs n).getD [] ++ [l]) else logs n

/-- What an effect does. runme.py:51-55: `FileHandler` opens its file for appending; `addHandler` keeps the handlers that the logger already has. A log entry goes to all
handlers of the logger. `logging.shutdown()` (runme.py:72) closes the files but leaves the handlers attached; a handler reopens its file for appending when
the next entry arrives (`logging.FileHandler.emit`). -/
def Act.apply (w : World) : Act → World
  | .print _ _ => w
  | .attach file => { w with logs := fun n => if n = file then some ((w.logs n).getD []) else w.logs n, handlers := w.handlers ++ [file] }
  | .effect (.log l) => { w with logs := w.handlers.foldl (fun logs h => appendLog logs h l) w.logs }
  | .effect e => { w with archives := e.apply w.archives }

/-- What happens to the world. (runme.py:33-74) -/
inductive Step
  /-- a call of `main` in the current process -/
  | main (name : String) (env : MainEnv)
  /-- the process ends and a new one begins -/
  | restart

/-- The effect of a step. A new process has a logger without handlers. (runme.py:33-74) -/
noncomputable def Step.apply (w : World) : Step → World
  | .main name env => (runMain name env).acts.foldl Act.apply w
  | .restart => { w with handlers := [] }

/-- The world after a sequence of steps. (runme.py:33-74) -/
noncomputable def World.after (w : World) (steps : List Step) : World := steps.foldl Step.apply w

end Oneka
