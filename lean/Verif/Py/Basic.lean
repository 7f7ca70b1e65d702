import Mathlib.Data.Int.Notation
import Mathlib.Data.Nat.Notation

/-!
# The fragment of Python semantics used by the model

* exceptions are values (`Except PyErr α`);
* a computation that may run forever has type `Option _`, `none` meaning *never returns*;
* 2-D numpy arrays are a shape plus contents, accessed through Python's index rules.
-/

namespace Oneka

/-- The Python exceptions that the modelled code can raise.
`rangeError` : oneka/model.py:51, oneka/probabilityfield.py:47; `aquiferError` : oneka/model.py:56;
`distributionError` : oneka/stochastic.py:70; `captureZoneError` : oneka/visualize.py:61;
the rest are Python/numpy built-ins. -/
inductive PyErr
  | rangeError | aquiferError | distributionError | captureZoneError
  | assertionError | typeError | valueError | indexError | attributeError
  | zeroDivisionError | nameError | overflowError | linAlgError | keyError
  | keyboardInterrupt
  | other (n : ℕ)
deriving DecidableEq, Repr

/-- Python indexing `a[i]` into an axis of length `n`: non-negative indices count from the front, negative
ones from the back, anything else raises IndexError. -/
def pyIndex (n : ℕ) (i : ℤ) : Except PyErr ℕ :=
  if 0 ≤ i then
    if i < n then .ok i.toNat else .error .indexError
  else if -(n : ℤ) ≤ i then .ok (i + n).toNat
  else .error .indexError

/-- `np.arange(l, r)` for integers: `l, l+1, …, r-1`; empty when `r ≤ l`. -/
def intRange (l r : ℤ) : List ℤ :=
  (List.range (r - l).toNat).map (fun (k : ℕ) => l + (k : ℤ))

/-- A 2-D numpy array: a shape and contents. Simplification: the contents are a total function, but the model
reads and writes it only through the bounds-checked operations below (or elementwise on the shape). -/
structure Grid (α : Type) where
  rows : ℕ
  cols : ℕ
  val : ℕ → ℕ → α

namespace Grid
variable {α : Type}

/-- `np.zeros((r, c))` / `np.full`. -/
def full (r c : ℕ) (a : α) : Grid α := ⟨r, c, fun _ _ => a⟩

/-- `g[i, j]` (read). -/
def get (g : Grid α) (i j : ℤ) : Except PyErr α :=
  match pyIndex g.rows i, pyIndex g.cols j with
  | .ok i', .ok j' => .ok (g.val i' j')
  | .error e, _ => .error e
  | _, .error e => .error e

/-- `g[i, j] = a` (write). -/
def set (g : Grid α) (i j : ℤ) (a : α) : Except PyErr (Grid α) :=
  match pyIndex g.rows i, pyIndex g.cols j with
  | .ok i', .ok j' => .ok { g with val := fun p q => if p = i' ∧ q = j' then a else g.val p q }
  | .error e, _ => .error e
  | _, .error e => .error e

/-- `big[r0:r0+h, c0:c0+w] = small`. numpy clips the slice to the array and raises ValueError if the shapes then
differ. Simplification: numpy's broadcasting of size-1 axes is not modelled (a mismatch always raises). -/
def blit (big : Grid α) (r0 h c0 w : ℕ) (small : Grid α) : Except PyErr (Grid α) :=
  if min (r0 + h) big.rows - r0 = small.rows ∧ min (c0 + w) big.cols - c0 = small.cols then
    .ok { big with
      val := fun p q =>
        if r0 ≤ p ∧ p < r0 + small.rows ∧ c0 ≤ q ∧ q < c0 + small.cols then
          small.val (p - r0) (q - c0)
        else big.val p q }
  else .error .valueError

end Grid

/-- Python's `min(iterable)`: the first smallest element; ValueError (`none`) if empty. -/
def pyMin {F : Type} [LT F] [DecidableLT F] : List F → Option F
  | [] => none
  | a :: l => some (l.foldl (fun m b => if b < m then b else m) a)

/-- Python's `max(iterable)`: the first largest element; ValueError (`none`) if empty. -/
def pyMax {F : Type} [LT F] [DecidableLT F] : List F → Option F
  | [] => none
  | a :: l => some (l.foldl (fun m b => if m < b then b else m) a)

/-- Python's `min(a, b)`. -/
def pyMin2 {F : Type} [LT F] [DecidableLT F] (a b : F) : F := if b < a then b else a

/-- Python's `max(a, b)`. -/
def pyMax2 {F : Type} [LT F] [DecidableLT F] (a b : F) : F := if a < b then b else a

end Oneka
