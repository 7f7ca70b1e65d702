import Verif.Py.Ext

/-!
# Python values, as far as argument validation looks at them
-/

namespace Oneka

/-- A Python object. Floats (including numpy's `float64`, a subclass of `float`) are `XR`. `other`: anything else; simplification: such an object is
neither comparable nor computable with numbers and has no `len` (TypeError). -/
inductive PyVal
  | none
  | bool (b : Bool)
  | int (n : ℤ)
  | float (x : XR)
  | str (s : String)
  | tuple (l : List PyVal)
  | list (l : List PyVal)
  | other (k : ℕ)

namespace PyVal

/-- The number denoted by a number object (`True` and `False` are the integers 1 and 0). -/
def num : PyVal → Option XR
  | bool b => some (.fin (if b then 1 else 0))
  | int n => some (.fin (n : ℝ))
  | float x => some x
  | _ => Option.none

/-- `isinstance(v, int)`; `bool` is a subclass of `int` -/
def isInt : PyVal → Bool
  | bool _ => true
  | int _ => true
  | _ => false

/-- `isinstance(v, float)` -/
def isFloat : PyVal → Bool
  | float _ => true
  | _ => false

/-- `isinstance(v, str)` -/
def isStr : PyVal → Bool
  | str _ => true
  | _ => false

/-- `isinstance(v, bool)` -/
def isBool : PyVal → Bool
  | bool _ => true
  | _ => false

/-- `isinstance(v, list)` -/
def isList : PyVal → Bool
  | list _ => true
  | _ => false

/-- `len(v)` -/
def len : PyVal → Except PyErr ℕ
  | str s => .ok s.length
  | tuple l => .ok l.length
  | list l => .ok l.length
  | _ => .error .typeError

/-- `a <= b` between objects of which at least one is a number: a TypeError unless both are. -/
noncomputable def le (a b : PyVal) : Except PyErr Bool :=
  match a.num, b.num with
  | some x, some y => .ok (decide (x ≤ y))
  | _, _ => .error .typeError

/-- `a < b`, likewise -/
noncomputable def lt (a b : PyVal) : Except PyErr Bool :=
  match a.num, b.num with
  | some x, some y => .ok (decide (x < y))
  | _, _ => .error .typeError

/-- The chained comparison `v₁ <= v₂ <= …`: evaluation stops at the first false comparison. -/
noncomputable def chainLe : List PyVal → Except PyErr Bool
  | a :: b :: l =>
    match le a b with
    | .error e => .error e
    | .ok false => .ok false
    | .ok true => chainLe (b :: l)
  | _ => .ok true

end PyVal
end Oneka
