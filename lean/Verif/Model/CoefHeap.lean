import Verif.Model.Aquifer

/-!
# The coefficient arrays of several models in memory

oneka/model.py:132 has a mutable default argument `coef=np.zeros((6, ))`, evaluated once; the setter (194-196) stores
`np.reshape(coef, [6, ])`, which for an array is a *view* of the same buffer. This file models which model refers to which buffer.
Addresses are numbers; address 0 is the default argument's buffer.
-/

namespace Oneka

/-- Memory: the buffers, the next free address, and for each model constructed so far the buffer behind its `coef`. (oneka/model.py:132, 187, 190-196) -/
structure Mem where
  buf : ℕ → Fin 6 → ℝ
  next : ℕ
  models : List ℕ

/-- What client code can do with coefficients. (oneka/model.py:131-196) -/
inductive MemOp
  /-- `Model(base, k, n, t, wells)` -/
  | newDefault
  /-- `Model(…, coef=c)` with a list or fresh array `c` -/
  | newWith (c : List ℝ)
  /-- `Model(…, coef=models[i].coef)` -/
  | newFrom (i : ℕ)
  /-- `models[i].coef = c` with a list or fresh array; also what `fit_regional_flow` does (oneka/model.py:492) -/
  | assign (i : ℕ) (c : List ℝ)
  /-- `models[i].coef = models[j].coef` -/
  | assignFrom (i j : ℕ)
  /-- `models[i].coef[k] = v` -/
  | setItem (i : ℕ) (k : Fin 6) (v : ℝ)

namespace Mem

/-- The state after importing oneka/model.py: line 132 has been evaluated, there are no models. (oneka/model.py:132) -/
def init : Mem := ⟨fun _ _ => 0, 1, []⟩

/-- A fresh buffer with contents `c`. (`np.zeros` or `np.reshape` of a list, oneka/model.py:132, 196) -/
def alloc (s : Mem) (c : Fin 6 → ℝ) : Mem := { s with buf := fun a => if a = s.next then c else s.buf a, next := s.next + 1 }

/-- One operation. oneka/model.py:131-186 (constructor), 190-196 (property and setter). -/
def step (s : Mem) : MemOp → Mem × Except PyErr Unit
  | .newDefault => ({ s with models := s.models ++ [0] }, .ok ())
  | .newWith c =>
    match reshape6 c with
    | .error e => (s, .error e)
    | .ok c => ({ s.alloc c with models := s.models ++ [s.next] }, .ok ())
  | .newFrom i =>
    match s.models[i]? with
    | none => (s, .error .indexError)
    | some a => ({ s with models := s.models ++ [a] }, .ok ())
  | .assign i c =>
    match s.models[i]? with
    | none => (s, .error .indexError)
    | some _ =>
      match reshape6 c with
      | .error e => (s, .error e)
      | .ok c => ({ s.alloc c with models := s.models.set i s.next }, .ok ())
  | .assignFrom i j =>
    match s.models[i]?, s.models[j]? with
    | some _, some a => ({ s with models := s.models.set i a }, .ok ())
    | _, _ => (s, .error .indexError)
  | .setItem i k v =>
    match s.models[i]? with
    | none => (s, .error .indexError)
    | some a => ({ s with buf := fun b j => if b = a ∧ j = k then v else s.buf b j }, .ok ())

/-- A history of operations (exceptions are caught by the client). (oneka/model.py:131-196) -/
def run (s : Mem) : List MemOp → Mem
  | [] => s
  | op :: ops => (s.step op).1.run ops

/-- What reading `models[i].coef` shows. (oneka/model.py:190-192) -/
def coef (s : Mem) (i : ℕ) : Option (Fin 6 → ℝ) := (s.models[i]?).map s.buf

end Mem
end Oneka
