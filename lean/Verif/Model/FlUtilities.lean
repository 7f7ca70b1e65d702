import Verif.Py.Round
import Verif.Model.Utilities
import Verif.Model.FlVariate

/-!
# Model of `filter_obs` in floating-point arithmetic (oneka/utilities.py:34-144)

As `Utilities.lean`, with every operation rounded. `np.hypot` and `**2` come from the C library and are arbitrary functions here.
-/

namespace Oneka

/-- The functions of the C library that `filter_obs` uses. (oneka/utilities.py:100, 115, 122-123) -/
class LibObs where
  /-- `np.hypot` -/
  hypot : Fl → Fl → Fl
  /-- `x**2` of a Python float -/
  square : Fl → Fl

/-- An observation (oneka/utilities.py:43-57) whose entries are floats. -/
structure FlObs where
  x : Fl
  y : Fl
  z : Fl
  std : Fl

namespace FlUtil

variable [LibObs]

/-- oneka/utilities.py:98-102 -/
noncomputable def awayFromWells (buffer : Fl) (ob : FlObs) : List (Fl × Fl) → Bool
  | [] => true
  | we :: wellfield =>
    if LibObs.hypot (ob.x - we.1) (ob.y - we.2) ≤ buffer then false
    else awayFromWells buffer ob wellfield

/-- oneka/utilities.py:95-106 -/
noncomputable def removeNear (buffer : Fl) (wellfield : List (Fl × Fl)) : List FlObs → List FlObs
  | [] => []
  | ob :: observations =>
    if awayFromWells buffer ob wellfield then ob :: removeNear buffer wellfield observations
    else removeNear buffer wellfield observations

/-- oneka/utilities.py:119-124 -/
noncomputable def accumulate : List FlObs → Fl → Fl → Except PyErr (Fl × Fl)
  | [], num, den => .ok (num, den)
  | o :: os, num, den =>
    if (LibObs.square o.std).val = 0 then .error .zeroDivisionError
    else accumulate os (num + o.z / LibObs.square o.std) (den + ((1 : ℕ) : Fl) / LibObs.square o.std)

/-- oneka/utilities.py:118-128. `den` is positive, as a sum of positive numbers without underflow. -/
noncomputable def mergeGroup (o : FlObs) (os : List FlObs) : Except PyErr FlObs :=
  match os with
  | [] => .ok o
  | _ :: _ =>
    match accumulate (o :: os) ((0 : ℕ) : Fl) ((0 : ℕ) : Fl) with
    | .error e => .error e
    | .ok (num, den) => .ok ⟨o.x, o.y, num / den, flSqrt (((1 : ℕ) : Fl) / den)⟩

/-- oneka/utilities.py:110-129 -/
noncomputable def mergeRuns : List FlObs → Except PyErr (List FlObs)
  | [] => .ok []
  | o :: rest =>
    match mergeGroup o (rest.takeWhile fun p => decide (LibObs.hypot (o.x - p.x) (o.y - p.y) < ((1 : ℕ) : Fl))) with
    | .error e => .error e
    | .ok r =>
      match mergeRuns (rest.dropWhile fun p => decide (LibObs.hypot (o.x - p.x) (o.y - p.y) < ((1 : ℕ) : Fl))) with
      | .error e => .error e
      | .ok rs => .ok (r :: rs)
termination_by l => l.length
decreasing_by
  simp only [List.length_cons]
  exact Nat.lt_succ_of_le (List.dropWhile_suffix _).length_le

/-- oneka/utilities.py:34-144 `filter_obs`. -/
noncomputable def filterObs (observations : List FlObs) (wellfield : List (Fl × Fl)) (buffer : Fl) : Except PyErr (List FlObs) :=
  mergeRuns (removeNear buffer wellfield observations)

end FlUtil

end Oneka
