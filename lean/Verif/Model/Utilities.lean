import Mathlib.Analysis.Real.Sqrt
import Verif.Py.Basic
import Verif.Model.Aquifer

/-!
# Model of oneka/utilities.py

Coordinates, heads and standard deviations are finite Python floats. What `filter_obs` returns and what it logs are two functions.
-/

namespace Oneka

/-- `np.hypot` (oneka/utilities.py:100, 115) -/
noncomputable def hypot (x y : ℝ) : ℝ := Real.sqrt (x * x + y * y)

/-- oneka/utilities.py:98-102: is the observation retained? `wellfield` holds the first two fields of the wells. -/
noncomputable def awayFromWells (buffer : ℝ) (ob : Obs) : List (ℝ × ℝ) → Bool
  | [] => true
  | we :: wellfield =>
    if hypot (ob.x - we.1) (ob.y - we.2) ≤ buffer then false
    else awayFromWells buffer ob wellfield

/-- oneka/utilities.py:95-106: the first loop. -/
noncomputable def removeNear (buffer : ℝ) (wellfield : List (ℝ × ℝ)) : List Obs → List Obs
  | [] => []
  | ob :: observations =>
    if awayFromWells buffer ob wellfield then ob :: removeNear buffer wellfield observations
    else removeNear buffer wellfield observations

/-- oneka/utilities.py:119-124: the loop that accumulates `num` and `den`. Python floats: ZeroDivisionError for a zero standard deviation. -/
noncomputable def accumulate : List Obs → ℝ → ℝ → Except PyErr (ℝ × ℝ)
  | [], num, den => .ok (num, den)
  | o :: os, num, den =>
    if o.std ^ 2 = 0 then .error .zeroDivisionError
    else accumulate os (num + o.z / o.std ^ 2) (den + 1 / o.std ^ 2)

/-- oneka/utilities.py:118-128: the observation that replaces the group `obs[i:j]` (`o = obs[i]`, `os = obs[i+1:j]`). `den` is zero only for an empty group. -/
noncomputable def mergeGroup (o : Obs) (os : List Obs) : Except PyErr Obs :=
  if os = [] then .ok o
  else
    match accumulate (o :: os) 0 0 with
    | .error e => .error e
    | .ok (num, den) => .ok ⟨o.x, o.y, num / den, Real.sqrt (1 / den)⟩

/-- oneka/utilities.py:110-129: the loop over groups; the list is `obs[i:]`. The inner loop (lines 114-116) finds the longest run of following observations that are
closer than `TOO_CLOSE = 1.0` to `obs[i]`. Simplification: list suffixes instead of the indices `i`, `j`. -/
noncomputable def mergeRuns : List Obs → Except PyErr (List Obs)
  | [] => .ok []
  | o :: rest =>
    match mergeGroup o (rest.takeWhile fun p => decide (hypot (o.x - p.x) (o.y - p.y) < 1)) with
    | .error e => .error e
    | .ok r =>
      match mergeRuns (rest.dropWhile fun p => decide (hypot (o.x - p.x) (o.y - p.y) < 1)) with
      | .error e => .error e
      | .ok rs => .ok (r :: rs)
termination_by l => l.length
decreasing_by
  simp only [List.length_cons]
  exact Nat.lt_succ_of_le (List.dropWhile_suffix _).length_le

/-- oneka/utilities.py:34-144 `filter_obs`. -/
noncomputable def filterObs (observations : List Obs) (wellfield : List (ℝ × ℝ)) (buffer : ℝ) : Except PyErr (List Obs) :=
  mergeRuns (removeNear buffer wellfield observations)

/-! ## What `filter_obs` logs -/

/-- A log entry of `filter_obs`. (oneka/utilities.py:106, 124, 126, 131-142) -/
inductive FilterLine
  /-- `observation removed: … is too close to …` (106); of the well the coordinates -/
  | removed (ob : Obs) (we : ℝ × ℝ)
  /-- `duplicate observation: …` (124) -/
  | duplicate (ob : Obs)
  /-- `averaged observation created: …` (126) -/
  | averaged (ob : Obs)
  /-- `active observations: …` (132) -/
  | count (n : ℕ)
  /-- `[…] …` (134) -/
  | active (i : ℕ) (ob : Obs)
  /-- a fixed text (131, 136-142) -/
  | text (s : String)

/-- oneka/utilities.py:99-102: the well at which the inner loop stops, if it stops early (the value of `we` in line 106). -/
noncomputable def nearWell (buffer : ℝ) (ob : Obs) : List (ℝ × ℝ) → Option (ℝ × ℝ)
  | [] => none
  | we :: wellfield =>
    if hypot (ob.x - we.1) (ob.y - we.2) ≤ buffer then some we
    else nearWell buffer ob wellfield

/-- oneka/utilities.py:95-106: what the first loop logs. -/
noncomputable def removeLog (buffer : ℝ) (wellfield : List (ℝ × ℝ)) : List Obs → List FilterLine
  | [] => []
  | ob :: observations =>
    match nearWell buffer ob wellfield with
    | none => removeLog buffer wellfield observations
    | some we => .removed ob we :: removeLog buffer wellfield observations

/-- oneka/utilities.py:121-124: what the loop over a group logs; it ends with the first division by zero. -/
noncomputable def accumulateLog : List Obs → List FilterLine
  | [] => []
  | o :: os => if o.std ^ 2 = 0 then [] else .duplicate o :: accumulateLog os

/-- oneka/utilities.py:118-128: what is logged for the group `obs[i:j]` (`o = obs[i]`, `os = obs[i+1:j]`). -/
noncomputable def groupLog (o : Obs) (os : List Obs) : List FilterLine :=
  if os = [] then []
  else
    match mergeGroup o os with
    | .error _ => accumulateLog (o :: os)
    | .ok r => accumulateLog (o :: os) ++ [.averaged r]

/-- oneka/utilities.py:110-129: what the loop over groups logs; it ends with the first exception. -/
noncomputable def mergeLog : List Obs → List FilterLine
  | [] => []
  | o :: rest =>
    match mergeGroup o (rest.takeWhile fun p => decide (hypot (o.x - p.x) (o.y - p.y) < 1)) with
    | .error _ => groupLog o (rest.takeWhile fun p => decide (hypot (o.x - p.x) (o.y - p.y) < 1))
    | .ok _ => groupLog o (rest.takeWhile fun p => decide (hypot (o.x - p.x) (o.y - p.y) < 1)) ++
        mergeLog (rest.dropWhile fun p => decide (hypot (o.x - p.x) (o.y - p.y) < 1))
termination_by l => l.length
decreasing_by
  simp only [List.length_cons]
  exact Nat.lt_succ_of_le (List.dropWhile_suffix _).length_le

/-- oneka/utilities.py:133-134: the active observations, numbered from `i`. -/
def activeLog : ℕ → List Obs → List FilterLine
  | _, [] => []
  | i, o :: os => .active i o :: activeLog (i + 1) os

/-- oneka/utilities.py:136-142 -/
def filterNote : List FilterLine :=
  [.text "", .text "Note: the index numbers associated with these active", .text "      observations may differ from the original index",
    .text "      numbers. This is a consequence of averaging ", .text "      duplicates and deleting observations near wellfield.",
    .text "      These new index numbers are used in the subsequent", .text "      reporting. Be aware!"]

/-- oneka/utilities.py:95-142: what `filter_obs` logs, up to the exception if it raises one. -/
noncomputable def filterLog (observations : List Obs) (wellfield : List (ℝ × ℝ)) (buffer : ℝ) : List FilterLine :=
  removeLog buffer wellfield observations ++ mergeLog (removeNear buffer wellfield observations) ++
    match filterObs observations wellfield buffer with
    | .error _ => []
    | .ok out => [.text "", .count out.length] ++ activeLog 0 out ++ filterNote

/-! ## Summary statistics -/

/-- One column of the table made by `summary_statistics`. (oneka/utilities.py:183-199) -/
structure ColumnStats where
  cnt : ℕ
  min : ℝ
  med : ℝ
  max : ℝ
  avg : ℝ
  std : ℝ

/-- `np.median` of a non-empty array: the mean of the one or two middle elements of the sorted array. (oneka/utilities.py:196) -/
noncomputable def npMedian (x : List ℝ) : ℝ :=
  let s := x.mergeSort (fun a b => decide (a ≤ b))
  (s.getD ((x.length - 1) / 2) 0 + s.getD (x.length / 2) 0) / 2

/-- `np.mean` of a non-empty array (oneka/utilities.py:198) -/
noncomputable def npMean (x : List ℝ) : ℝ := x.sum / x.length

/-- `np.std` of a non-empty array (oneka/utilities.py:199) -/
noncomputable def npStd (x : List ℝ) : ℝ := Real.sqrt (npMean (x.map fun v => (v - npMean x) ^ 2))

/-- oneka/utilities.py:192-199, for one column `j`; `none` is a NaN. The values are finite or NaN. `np.min` of an empty array raises
ValueError. -/
noncomputable def columnStats (x : List (Option ℝ)) : Except PyErr ColumnStats :=
  let x := x.filterMap id
  match pyMin x, pyMax x with
  | some lo, some hi => .ok ⟨x.length, lo, npMedian x, hi, npMean x, npStd x⟩
  | _, _ => .error .valueError

/-- `[v[j] for v in values]` (oneka/utilities.py:191): IndexError if a row is too short. -/
def getColumn (j : ℕ) : List (List (Option ℝ)) → Except PyErr (List (Option ℝ))
  | [] => .ok []
  | v :: vs =>
    match v[j]? with
    | none => .error .indexError
    | some x =>
      match getColumn j vs with
      | .error e => .error e
      | .ok xs => .ok (x :: xs)

/-- oneka/utilities.py:190-199: the loop over the columns `j, …, j+n-1`. -/
noncomputable def statsLoop (values : List (List (Option ℝ))) : ℕ → ℕ → Except PyErr (List ColumnStats)
  | 0, _ => .ok []
  | n + 1, j =>
    match getColumn j values with
    | .error e => .error e
    | .ok x =>
      match columnStats x with
      | .error e => .error e
      | .ok s =>
        match statsLoop values n (j + 1) with
        | .error e => .error e
        | .ok ss => .ok (s :: ss)

/-- oneka/utilities.py:179, 184-199: the statistics that `summary_statistics` writes into its table, column by column. (The table: `summaryText` in
Model/Text.lean.) -/
noncomputable def summaryStatistics (values : List (List (Option ℝ))) : Except PyErr (List ColumnStats) :=
  match values[0]? with
  | none => .error .indexError
  | some v => statsLoop values v.length 0

end Oneka
