import Verif.Model.Oneka

/-!
# Model of the texts that the code writes

The table made by `summary_statistics` (oneka/utilities.py:148-257) and the texts of the log entries. A text is a list of characters; a log entry may consist of several messages.
What `'{0}'.format(…)` makes of an argument of the call or of a tuple (Python's `str`) is not modelled: it is a parameter (`Printer`).
-/

namespace Oneka

/-! ## The table of summary statistics -/

/-- A format specification: `w.kf` or `w.ke`. Other specifications are not modelled. (the argument `formats` of oneka/utilities.py:148) -/
inductive Fmt
  | fixed (w k : ℕ)
  | sci (w k : ℕ)

/-- `'{0:{fmt}}'.format(x, fmt=…)` (oneka/utilities.py:180, 226-250) -/
noncomputable def Fmt.apply : Fmt → ℝ → List Char
  | .fixed w k, x => padLeft w (Oneka.fixed k x)
  | .sci w k, x => padLeft w (Oneka.sci false k x)

/-- oneka/utilities.py:180 -/
noncomputable def Fmt.width (f : Fmt) : ℕ := (f.apply 1).length

/-- oneka/utilities.py:203-255: the lines of the table. (`formats`, `names` and `cols` have the same length.) -/
noncomputable def tableLines (title : List Char) (names : List (List Char)) (formats : List Fmt) (cols : List ColumnStats) : List (List Char) :=
  let widths := formats.map Fmt.width
  let total := 5 + widths.sum
  [centred total title,
    List.replicate total '=',
    "     ".toList ++ (List.zipWith padLeft widths names).flatten,
    List.replicate total '-',
    "cnt: ".toList ++ (List.zipWith (fun w c => padLeft w (natDigits c.cnt)) widths cols).flatten,
    "min: ".toList ++ (List.zipWith (fun f c => f.apply c.min) formats cols).flatten,
    "med: ".toList ++ (List.zipWith (fun f c => f.apply c.med) formats cols).flatten,
    "max: ".toList ++ (List.zipWith (fun f c => f.apply c.max) formats cols).flatten,
    "avg: ".toList ++ (List.zipWith (fun f c => f.apply c.avg) formats cols).flatten,
    "std: ".toList ++ (List.zipWith (fun f c => f.apply c.std) formats cols).flatten,
    List.replicate total '=']

/-- every line is followed by a line feed (oneka/utilities.py:206-255) -/
def withFeeds (lines : List (List Char)) : List Char := (lines.map fun l => l ++ ['\n']).flatten

/-- oneka/utilities.py:148-257 `summary_statistics`: the text in the returned buffer. `none` in `values` is a NaN. IndexError if there are fewer formats or names than
columns. -/
noncomputable def summaryText (values : List (List (Option ℝ))) (names : List (List Char)) (formats : List Fmt) (title : List Char) : Except PyErr (List Char) :=
  match values[0]? with
  | none => .error .indexError
  | some v =>
    if formats.length < v.length then .error .indexError
    else
      match summaryStatistics values with
      | .error e => .error e
      | .ok cols =>
        if names.length < v.length then .error .indexError
        else .ok (withFeeds (tableLines title (names.take v.length) (formats.take v.length) cols))

/-! ## Log entries -/

/-- `str` of an argument of the call, of an observation and of a well. -/
structure Printer where
  val : PyVal → List Char
  obs : Obs → List Char
  well : ℝ × ℝ → List Char

/-- several texts with `, ` between them (oneka/stochastic.py:245-250) -/
def commaSep (l : List (List Char)) : List Char := ", ".toList.intercalate l

/-- the six coefficients in parentheses (oneka/stochastic.py:247-250) -/
noncomputable def coefText (c : Fin 6 → ℝ) : List Char :=
  "(".toList ++ commaSep ((List.finRange 6).map fun i => sci true 4 (c i)) ++ ")".toList

/-- oneka/capturezone.py:250: the warning, if the trace made one. `inf` and `nan` are printed as such. -/
noncomputable def warningText : XR → List Char
  | .fin t => " trace terminated prematurely at t = ".toList ++ fixed 2 t ++ " < duration.".toList
  | .pinf => " trace terminated prematurely at t = inf < duration.".toList
  | .ninf => " trace terminated prematurely at t = -inf < duration.".toList
  | .nan => " trace terminated prematurely at t = nan < duration.".toList

/-- the warnings of the traces of a realization, in order (oneka/capturezone.py:250) -/
noncomputable def warningTexts (l : RealizationLog) : List (List Char) := l.traces.filterMap fun t => t.warning.map warningText

/-- oneka/stochastic.py:244-250: what realization number `i` logs, and the warnings of its traces. -/
noncomputable def stochasticText (i : ℕ) (l : RealizationLog) : List (List Char) :=
  ["Realization #".toList ++ natDigits i ++ ": ".toList ++ commaSep [fixed 2 l.model.base, fixed 2 l.model.conductivity, fixed 2 l.model.porosity,
      fixed 2 l.model.thickness, sci false 4 l.recharge],
    "    coef ev:  ".toList ++ coefText l.ev,
    "    coef rng: ".toList ++ coefText l.model.coef] ++ warningTexts l

/-- oneka/deterministic.py:202-218: what the deterministic run logs, and the warnings of its traces. -/
noncomputable def deterministicText (l : RealizationLog) : List (List Char) :=
  ["\n".toList, "Deterministic Capture Zone Parameters: ".toList,
    "base         = ".toList ++ fixed 2 l.model.base,
    "conductivity = ".toList ++ fixed 2 l.model.conductivity,
    "porosity     = ".toList ++ fixed 2 l.model.porosity,
    "recharge     = ".toList ++ sci true 4 l.recharge,
    "\n".toList, "Conic Discharge Potential Coefficients: ".toList,
    "A = ".toList ++ sci true 4 (l.model.coef 0), "B = ".toList ++ sci true 4 (l.model.coef 1), "C = ".toList ++ sci true 4 (l.model.coef 2),
    "D = ".toList ++ sci true 4 (l.model.coef 3), "E = ".toList ++ sci true 4 (l.model.coef 4), "F = ".toList ++ sci true 4 (l.model.coef 5)] ++ warningTexts l

/-- oneka/oneka.py:286-287: a line of the decile table. -/
noncomputable def decileText (p area : ℝ) : List Char :=
  padLeft 8 (fixed 3 p) ++ " ".toList ++ padLeft 16 (commaFixed 0 area) ++ " ".toList ++ padLeft 16 (commaFixed 2 (area / acre))

/-- oneka/utilities.py:106, 124, 126, 131-142 -/
def FilterLine.message (pr : Printer) : FilterLine → List Char
  | .removed o w => "observation removed: ".toList ++ pr.obs o ++ " is too close to ".toList ++ pr.well w
  | .duplicate o => "    duplicate observation: ".toList ++ pr.obs o
  | .averaged o => "averaged observation created: ".toList ++ pr.obs o
  | .count n => "active observations: ".toList ++ natDigits n
  | .active i o => "     [".toList ++ padded (max 3 (Nat.log 10 i + 1)) i ++ "] ".toList ++ pr.obs o
  | .text s => s.toList

/-- left-aligned in 14 columns (the labels in oneka/oneka.py:342-363) -/
def padRight14 (s : List Char) : List Char := s ++ List.replicate (14 - s.length) ' '

/-- `'{0:.2f}'.format(v)` of a number (oneka/oneka.py:346-363) -/
noncomputable def fixedVal (v : PyVal) : List Char :=
  match v.num with
  | some (.fin x) => fixed 2 x
  | some .pinf => "inf".toList
  | some .ninf => "-inf".toList
  | _ => "nan".toList

/-- `'{0:d}'.format(v)` of an integer (oneka/oneka.py:344-351) -/
def intVal (v : PyVal) : List Char :=
  match v.int? with
  | some n => intDigits n
  | none => []

/-- oneka/oneka.py:342-373: the text of an argument. -/
noncomputable def valueText (pr : Printer) (label : String) (v : PyVal) : List Char :=
  if label = "target" ∨ label = "npaths" then padRight14 label.toList ++ "= ".toList ++ intVal v
  else if label = "nrealizations STOCHASTIC" then "nrealizations = ".toList ++ intVal v ++ " STOCHASTIC".toList
  else if label = "nrealizations DETERMINISTIC" then "nrealizations = ".toList ++ intVal v ++ " DETERMINISTIC".toList
  else if label ∈ ["duration", "base", "buffer", "spacing", "umbra", "tol", "maxstep"] then padRight14 label.toList ++ "= ".toList ++ fixedVal v
  else if label ∈ ["stochastic_wells", "observations"] then label.toList ++ ": ".toList ++ intVal v
  else if label = "    " then label.toList ++ pr.val v
  else padRight14 label.toList ++ "= ".toList ++ pr.val v

/-- oneka/oneka.py:257-259: the names and formats that the call hands to `summary_statistics`. -/
def obsNames : List (List Char) := ["Easting".toList, "Northing".toList, "Head".toList, "Stdev".toList]

/-- oneka/oneka.py:258 -/
def obsFormats : List Fmt := [.fixed 12 2, .fixed 12 2, .fixed 12 2, .fixed 12 2]

/-- oneka/oneka.py:258 -/
def obsTitle : List Char := "Retained Observations".toList

/-- The messages of a log entry; `i` is the number of the realization, `stochastic` says which kind of run it is. (`other`, which stands for entries outside the model, has none.)
(oneka/oneka.py:257-303, 331-375, oneka/utilities.py:106-142, oneka/stochastic.py:245-250, oneka/deterministic.py:202-218) -/
noncomputable def LogLine.messages (pr : Printer) (stochastic : Bool) (i : ℕ) : LogLine → List (List Char)
  | .text s => [s.toList]
  | .value label v => [valueText pr label v]
  | .filter l => [l.message pr]
  | .summary cols => [withFeeds (tableLines obsTitle obsNames obsFormats cols)]
  | .realization l => if stochastic then stochasticText i l else deterministicText l
  | .decile p a => [decileText p a]
  | .area a => [fixed 0 a ++ " [m^2]".toList]
  | .acres a => [fixed 2 a ++ " [acres]".toList]
  | .other _ => []

/-- `1` for the entry of a realization: the next one has the next number (oneka/stochastic.py:220) -/
def LogLine.realized : LogLine → ℕ
  | .realization _ => 1
  | _ => 0

/-- What a call writes to the log, message by message; `i` counts the realizations. (oneka/oneka.py:244-317) -/
noncomputable def logText (pr : Printer) (stochastic : Bool) : ℕ → List Effect → List (List Char)
  | _, [] => []
  | i, .log l :: es => l.messages pr stochastic i ++ logText pr stochastic (i + l.realized) es
  | i, _ :: es => logText pr stochastic i es

/-- The messages that a call of `oneka` writes to the log (oneka/oneka.py:166-317). -/
noncomputable def callText (pr : Printer) (a : PyArgs) (n : Inputs) (env : CallEnv) : List (List Char) :=
  logText pr (decide (1 < n.nrealizations)) 0 (oneka a env).events

end Oneka
