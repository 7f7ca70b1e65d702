import Verif.Spec.Format
import Verif.Model.Text

/-!
# What texts show
-/

namespace Oneka

/-- The text shows a number that is within `ε` of `x`. -/
def Shows (s : List Char) (ε x : ℝ) : Prop := ∃ q, readNumber s = some q ∧ |q - x| ≤ ε

/-- The number of columns that a format asks for. -/
def Fmt.columns : Fmt → ℕ
  | .fixed w _ => w
  | .sci w _ => w

/-- The precision of a format: half a unit of the last decimal; for `w.ke` it is relative. -/
noncomputable def Fmt.precision : Fmt → ℝ → ℝ
  | .fixed _ k, _ => 1 / 2 / 10 ^ k
  | .sci _ k, x => |x| / 2 / 10 ^ k

/-- The number certainly fits in the columns of the format: `w.kf` has `w-k-2` columns for the digits before the point (and one for the sign); `w.ke` needs `k+7` columns. -/
def Fmt.Holds : Fmt → ℝ → Prop
  | .fixed w k, x => 1 ≤ k ∧ k + 3 ≤ w ∧ |x| ≤ 10 ^ (w - k - 2) - 1
  | .sci w k, x => 1 ≤ k ∧ k + 7 ≤ w ∧ (x = 0 ∨ (10:ℝ) ^ (-99 : ℤ) ≤ |x| ∧ |x| < (10:ℝ) ^ (99 : ℤ))

/-- All statistics of a column fit. -/
structure Fmt.HoldsColumn (f : Fmt) (s : ColumnStats) : Prop where
  cnt : s.cnt < 10 ^ f.columns
  min : f.Holds s.min
  med : f.Holds s.med
  max : f.Holds s.max
  avg : f.Holds s.avg
  std : f.Holds s.std

/-- The number of columns of a table: five for the row labels, and those of the formats. -/
def totalColumns (formats : List Fmt) : ℕ := 5 + (formats.map Fmt.columns).sum

/-- The part of a line below column `j` of the table: `formats[j].columns` characters. -/
def cell (formats : List Fmt) (j : ℕ) (line : List Char) : List Char :=
  (line.take (5 + ((formats.map Fmt.columns).take (j + 1)).sum)).drop (5 + ((formats.map Fmt.columns).take j).sum)

/-- A row of the table: its label, its width, and in every column a number, up to the precision of the column. -/
structure RowShows (formats : List Fmt) (cols : List ColumnStats) (label : String) (stat : ColumnStats → ℝ) (precision : Fmt → ℝ → ℝ) (line : List Char) : Prop where
  label : line.take 5 = label.toList
  width : line.length = totalColumns formats
  shows : ∀ (j : ℕ) (f : Fmt) (s : ColumnStats), formats[j]? = some f → cols[j]? = some s →
    (cell formats j line).length = f.columns ∧ Shows (cell formats j line) (precision f (stat s)) (stat s)

/-- The table of statistics: title, rule, names, rule, six rows of numbers, rule; all equally wide. -/
def TableShows (title : List Char) (names : List (List Char)) (formats : List Fmt) (cols : List ColumnStats) (text : List Char) : Prop :=
  ∃ top head cnt min med max avg std : List Char,
    text.splitOn '\n' = [top, List.replicate (totalColumns formats) '=', head, List.replicate (totalColumns formats) '-', cnt, min, med, max, avg, std,
      List.replicate (totalColumns formats) '=', []] ∧
    (top.length = totalColumns formats ∧ ∃ a b, top = List.replicate a ' ' ++ title ++ List.replicate b ' ' ∧ a ≤ b ∧ b ≤ a + 1) ∧
    (head.length = totalColumns formats ∧ ∀ j name, names[j]? = some name → ∃ a, cell formats j head = List.replicate a ' ' ++ name) ∧
    RowShows formats cols "cnt: " (fun s => s.cnt) (fun _ _ => 0) cnt ∧
    RowShows formats cols "min: " (·.min) Fmt.precision min ∧
    RowShows formats cols "med: " (·.med) Fmt.precision med ∧
    RowShows formats cols "max: " (·.max) Fmt.precision max ∧
    RowShows formats cols "avg: " (·.avg) Fmt.precision avg ∧
    RowShows formats cols "std: " (·.std) Fmt.precision std

/-- Six numbers in parentheses, to five significant digits. -/
def ShowsSix (s : List Char) (c : Fin 6 → ℝ) : Prop :=
  ∃ t : Fin 6 → List Char, s = "(".toList ++ ", ".toList.intercalate (List.ofFn t) ++ ")".toList ∧ ∀ i, Shows (t i) (|c i| / 2 / 10 ^ 4) (c i)

/-- A warning that a trace ended at time `t`. -/
def ShowsWarning (s : List Char) (t : XR) : Prop :=
  ∃ q, s = " trace terminated prematurely at t = ".toList ++ q ++ " < duration.".toList ∧
    match t with
    | .fin x => Shows q (1 / 200) x
    | .pinf => q = "inf".toList
    | .ninf => q = "-inf".toList
    | .nan => q = "nan".toList

/-- The message of an entry of `filter_obs`; `pr` is Python's `str` of observations and wells. -/
def ShowsFilterLine (pr : Printer) (s : List Char) : FilterLine → Prop
  | .removed o w => s = "observation removed: ".toList ++ pr.obs o ++ " is too close to ".toList ++ pr.well w
  | .duplicate o => s = "    duplicate observation: ".toList ++ pr.obs o
  | .averaged o => s = "averaged observation created: ".toList ++ pr.obs o
  | .count n => ∃ q, s = "active observations: ".toList ++ q ∧ readNat q = some n
  | .active i o => ∃ q, s = "     [".toList ++ q ++ "] ".toList ++ pr.obs o ∧ readNat q = some i ∧ 3 ≤ q.length
  | .text t => s = t.toList

/-- The messages contain these consecutive messages. -/
def Contains (messages part : List (List Char)) : Prop := ∃ pre post, messages = pre ++ part ++ post

end Oneka
