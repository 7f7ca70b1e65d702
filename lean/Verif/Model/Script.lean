import Verif.Model.Runme

/-!
# Model of the program runme.py and of its profiler

`python runme.py` asks for the name of a data module, calls `main` with it, and prints a last line. `profile_me` calls `main` under a profiler.
Simplifications: an exception that leaves the program is the ending of the run (Python prints a traceback); the statistics of the profiler are one line of console output.
-/

namespace Oneka

/-- runme.py:91, the prompt of `input`. -/
def promptText : String := "Enter the data module name (without .py, e.g. data.basic): "

/-- runme.py:94, the last line. -/
def doneText : String := "\\\\\\\\\\\\\\\\\\ DONE //////////////////"

/-- What the program depends on: the answer to its prompt (`input` raises at the end of the input, or if it is interrupted), and what `main` depends on. (runme.py:90-94) -/
structure ScriptEnv where
  answer : Except PyErr String
  main : MainEnv

/-- runme.py:90-94: the program. -/
noncomputable def runScript (env : ScriptEnv) : MainRun :=
  let asked := [.print promptText (.str "")]
  match env.answer with
  | .error e => ⟨asked, .raises e⟩
  | .ok name =>
    let r := runMain name env.main
    match r.ending with
    | .returns _ => ⟨asked ++ r.acts ++ [.print doneText (.str "")], .returns ()⟩
    | .raises e => ⟨asked ++ r.acts, .raises e⟩
    | .diverges => ⟨asked ++ r.acts, .diverges⟩

/-- A call of `profile_me`: its effects, how it ends, and whether the profiler is still on. (runme.py:78-86) -/
structure ProfileRun where
  run : MainRun
  active : Bool

/-- runme.py:78-86 `profile_me`. `global` is the global variable `module_name` of the module runme: there is one only in the program, after the prompt (runme.py:91);
the name is looked up after the profiler has been switched on. -/
noncomputable def profileMe (global : Option String) (env : MainEnv) : ProfileRun :=
  match global with
  | none => ⟨⟨[], .raises .nameError⟩, true⟩
  | some name =>
    let r := runMain name env
    match r.ending with
    | .returns _ => ⟨⟨r.acts ++ [.print "statistics" (.str "")], .returns ()⟩, false⟩
    | .raises e => ⟨⟨r.acts, .raises e⟩, true⟩
    | .diverges => ⟨⟨r.acts, .diverges⟩, true⟩

end Oneka
