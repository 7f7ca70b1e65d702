import Verif.Model.Str
import Verif.Py.Binary64
import Verif.Spec.Oneka

/-!
# Vocabulary for printed forms
-/

namespace Oneka

/-- All floats in the object are binary64 numbers. -/
inductive PyVal.Machine : PyVal → Prop
  | none : Machine .none
  | bool (b : Bool) : Machine (.bool b)
  | int (n : ℤ) : Machine (.int n)
  | float (x : XR) (h : toBinary64 x = x) : Machine (.float x)
  | str (s : String) : Machine (.str s)
  | tuple (l : List PyVal) (h : ∀ v ∈ l, Machine v) : Machine (.tuple l)
  | list (l : List PyVal) (h : ∀ v ∈ l, Machine v) : Machine (.list l)
  | other (k : ℕ) : Machine (.other k)

/-- All floats in the arguments are binary64 numbers. -/
structure PyArgs.Machine (a : PyArgs) : Prop where
  cDist : a.cDist.Machine
  pDist : a.pDist.Machine
  tDist : a.tDist.Machine
  wells : a.wells.Machine
  observations : a.observations.Machine
  smooth : a.smooth.Machine

/-- What Python promises about the printed form of finite floats: different floats have different forms; a form consists of digits, points, signs and the letter `e`, and has a point or an `e`. -/
structure PyText.Faithful (p : PyText) : Prop where
  injective : ∀ x y : ℝ, toBinary64 (.fin x) = .fin x → toBinary64 (.fin y) = .fin y → p.num x = p.num y → x = y
  chars : ∀ x : ℝ, toBinary64 (.fin x) = .fin x → ∀ c ∈ p.num x, c.isDigit = true ∨ c = '.' ∨ c = 'e' ∨ c = '+' ∨ c = '-'
  mark : ∀ x : ℝ, toBinary64 (.fin x) = .fin x → '.' ∈ p.num x ∨ 'e' ∈ p.num x

/-- The object is built from None, numbers, tuples and lists. -/
inductive PyVal.Numeric : PyVal → Prop
  | none : Numeric .none
  | bool (b : Bool) : Numeric (.bool b)
  | int (n : ℤ) : Numeric (.int n)
  | float (x : XR) : Numeric (.float x)
  | tuple (l : List PyVal) (h : ∀ v ∈ l, Numeric v) : Numeric (.tuple l)
  | list (l : List PyVal) (h : ∀ v ∈ l, Numeric v) : Numeric (.list l)

/-- Two numbers are the same integer. -/
def PyVal.SameInteger (v w : PyVal) : Prop := ∃ k, v.IsInteger k ∧ w.IsInteger k

/-- Two numbers are at most `ε` apart if both are finite; otherwise they are equal. -/
def PyVal.Near (ε : ℝ) (v w : PyVal) : Prop :=
  (∃ x y : ℝ, v.num = some (.fin x) ∧ w.num = some (.fin y) ∧ |x - y| ≤ ε) ∨ ∃ x : XR, v.num = some x ∧ w.num = some x

/-- The text is a call of `name` with these arguments. -/
def IsCall (p : PyText) (name : String) (args : List PyVal) (text : List Char) : Prop :=
  text = name.toList ++ "(".toList ++ ", ".toList.intercalate (args.map p.repr) ++ ")".toList

/-- Numbers, tuples and lists as they exist on the machine. -/
def PyVal.Ordinary (v : PyVal) : Prop := v.Numeric ∧ v.Machine

/-- Two fields have the same spacing, shape, extent and total weight. -/
def PField.SameFrame (f g : PField ℝ) : Prop :=
  f.deltax = g.deltax ∧ f.deltay = g.deltay ∧ f.nrows = g.nrows ∧ f.ncols = g.ncols ∧
    ∀ b b', f.body = some b → g.body = some b' → b.xmin = b'.xmin ∧ b.xmax = b'.xmax ∧ b.ymin = b'.ymin ∧ b.ymax = b'.ymax ∧ b.totalWeight = b'.totalWeight

/-- The field's attributes are binary64 numbers. -/
structure PField.Machine (f : PField ℝ) : Prop where
  deltax : toBinary64 (.fin f.deltax) = .fin f.deltax
  deltay : toBinary64 (.fin f.deltay) = .fin f.deltay
  body : ∀ b, f.body = some b → ∀ x ∈ [b.xmin, b.xmax, b.ymin, b.ymax, b.totalWeight], toBinary64 (.fin x) = .fin x

end Oneka
