import Verif.Model.Text
import Verif.Model.ProbabilityField

/-!
# Model of the printed forms of values and objects

What `'{0}'.format(v)` makes of numbers, tuples and lists, and `__repr__` and `__str__` of the two classes. How Python prints a finite float and a quoted string is not modelled: these are parameters
(`PyText`). Simplification: the number zero has no sign.
-/

namespace Oneka

/-- Python's `repr` of finite floats, of strings and of objects outside the model. (used by oneka/oneka.py:342-373, oneka/model.py:200, 204, oneka/probabilityfield.py:154-172) -/
structure PyText where
  num : ℝ → List Char
  quoted : String → List Char
  other : ℕ → List Char

/-- `repr` of a float (used by oneka/oneka.py:354-373) -/
def PyText.float (p : PyText) : XR → List Char
  | .fin x => p.num x
  | .pinf => "inf".toList
  | .ninf => "-inf".toList
  | .nan => "nan".toList

/-- the printed form of a tuple, given those of its elements; a tuple with one element has a comma (used by oneka/oneka.py:354-373) -/
def tupleText : List (List Char) → List Char
  | [s] => "(".toList ++ s ++ ",)".toList
  | l => "(".toList ++ commaSep l ++ ")".toList

/-- the printed form of a list, given those of its elements (used by oneka/oneka.py:354-373) -/
def listText (l : List (List Char)) : List Char := "[".toList ++ commaSep l ++ "]".toList

mutual
/-- Python's `repr` (used by oneka/oneka.py:354-373) -/
def PyText.repr (p : PyText) : PyVal → List Char
  | .none => "None".toList
  | .bool true => "True".toList
  | .bool false => "False".toList
  | .int n => intDigits n
  | .float x => p.float x
  | .str s => p.quoted s
  | .tuple l => tupleText (p.reprs l)
  | .list l => listText (p.reprs l)
  | .other k => p.other k

/-- `repr` of the elements of a tuple or list (used by oneka/oneka.py:354-373) -/
def PyText.reprs (p : PyText) : List PyVal → List (List Char)
  | [] => []
  | v :: l => p.repr v :: p.reprs l
end

/-- Python's `str`, which is what `'{0}'.format(v)` prints: a string is printed as it is, anything else like `repr`. (oneka/oneka.py:342-373) -/
def PyText.str (p : PyText) : PyVal → List Char
  | .str s => s.toList
  | v => p.repr v

/-- The attributes of a `Model` as Python objects. (oneka/model.py:131-187) -/
structure PyModel where
  base : PyVal
  conductivity : PyVal
  porosity : PyVal
  thickness : PyVal
  wells : PyVal
  xo : PyVal
  yo : PyVal
  coef : PyVal

/-- oneka/model.py:199-204: `__repr__` and `__str__` of a `Model`, which are the same. -/
def PyModel.text (p : PyText) (m : PyModel) : List Char :=
  "Model(".toList ++ p.str m.base ++ ", ".toList ++ p.str m.conductivity ++ ", ".toList ++ p.str m.porosity ++ ", ".toList ++ p.str m.thickness ++ ")".toList

/-- oneka/model.py:131-187: `Model(…)` with positional arguments: five are required, three more are optional; TypeError otherwise. The setter of `coef` is left out. -/
def makeModel : List PyVal → Except PyErr PyModel
  | [b, k, n, t, w] => .ok ⟨b, k, n, t, w, .int 0, .int 0, .list (List.replicate 6 (.float (.fin 0)))⟩
  | [b, k, n, t, w, xo] => .ok ⟨b, k, n, t, w, xo, .int 0, .list (List.replicate 6 (.float (.fin 0)))⟩
  | [b, k, n, t, w, xo, yo] => .ok ⟨b, k, n, t, w, xo, yo, .list (List.replicate 6 (.float (.fin 0)))⟩
  | [b, k, n, t, w, xo, yo, c] => .ok ⟨b, k, n, t, w, xo, yo, c⟩
  | _ => .error .typeError

/-- oneka/probabilityfield.py:154-161: `__repr__` of a `ProbabilityField` whose attributes are floats. -/
def fieldRepr (p : PyText) (f : PField ℝ) : Except PyErr (List Char) :=
  if f.nrows = 0 then .ok ("ProbabilityField(".toList ++ p.num f.deltax ++ ", ".toList ++ p.num f.deltay ++ ")".toList)
  else
    match f.body with
    | none => .error .attributeError
    | some b => .ok ("ProbabilityField(".toList ++ p.num f.deltax ++ ", ".toList ++ p.num f.deltay ++ ", ".toList ++ natDigits f.nrows ++ ", ".toList ++ natDigits f.ncols ++ ", ".toList ++
        p.num b.xmin ++ ", ".toList ++ p.num b.xmax ++ ", ".toList ++ p.num b.ymin ++ ", ".toList ++ p.num b.ymax ++ ", ".toList ++ p.num b.totalWeight ++ ")".toList)

/-- oneka/probabilityfield.py:164-172: `__str__` of a `ProbabilityField` whose attributes are floats; `pgrid` and `rgrid` are numpy's `repr` of the arrays. -/
def fieldStr (p : PyText) (pgrid : Grid ℝ → List Char) (rgrid : Grid Bool → List Char) (f : PField ℝ) : Except PyErr (List Char) :=
  if f.nrows = 0 then .ok ("ProbabilityField(".toList ++ p.num f.deltax ++ ", ".toList ++ p.num f.deltay ++ ", ".toList ++ natDigits f.nrows ++ ", ".toList ++ natDigits f.ncols ++ ")".toList)
  else
    match f.body with
    | none => .error .attributeError
    | some b => .ok ("ProbabilityField(".toList ++ p.num f.deltax ++ ", ".toList ++ p.num f.deltay ++ ", ".toList ++ natDigits f.nrows ++ ", ".toList ++ natDigits f.ncols ++ ", ".toList ++
        p.num b.xmin ++ ", ".toList ++ p.num b.xmax ++ ", ".toList ++ p.num b.ymin ++ ", ".toList ++ p.num b.ymax ++ ", ".toList ++ p.num b.totalWeight ++ ", \n".toList ++
        pgrid b.pgrid ++ ", \n".toList ++ rgrid b.rgrid ++ ")".toList)

/-- oneka/probabilityfield.py:127-151: `ProbabilityField(…)` with positional arguments: two are required, two more are optional; TypeError otherwise. Simplification: also if an argument is not a finite number. -/
noncomputable def makeField (args : List PyVal) : Except PyErr (PField ℝ) :=
  match args.map PyVal.real? with
  | [some dx, some dy] => PField.new dx dy none none
  | [some dx, some dy, some xo] => PField.new dx dy (some xo) none
  | [some dx, some dy, some xo, some yo] => PField.new dx dy (some xo) (some yo)
  | _ => .error .typeError

end Oneka
