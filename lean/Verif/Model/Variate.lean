import Verif.Py.Val

/-!
# Model of the distributions of oneka/stochastic.py:274-376

Each call of a random generator gets its own draw `u` (a double in `[0,1)`).
-/

namespace Oneka

/-- `np.random.uniform(low, high)` as numpy computes it: OverflowError if `high - low` is not finite, else `low + (high-low)*u`. Simplification:
arguments that are not numbers give a TypeError. (oneka/stochastic.py:300) -/
noncomputable def npUniform (low high : PyVal) (u : ℝ) : Except PyErr PyVal :=
  match low.num, high.num with
  | some a, some b =>
    match b - a with
    | .fin r => .ok (.float (a + .fin r * .fin u))
    | _ => .error .overflowError
  | _, _ => .error .typeError

open Classical in
/-- `np.random.triangular(left, mode, right)` as numpy computes it: ValueError if `left > mode`, `mode > right` or `left == right`, else the
inverse of the distribution function. Simplification: arguments that are not numbers give a TypeError. (oneka/stochastic.py:302) -/
noncomputable def npTriangular (left mode right : PyVal) (u : ℝ) : Except PyErr PyVal :=
  match left.num, mode.num, right.num with
  | some l, some m, some r =>
    if m < l then .error .valueError
    else if r < m then .error .valueError
    else if l ≤ r ∧ r ≤ l then .error .valueError
    else
      let base := r - l
      let leftbase := m - l
      let ratio := leftbase / base
      let leftprod := leftbase * base
      let rightprod := (r - m) * base
      if XR.fin u ≤ ratio then .ok (.float (l + PyMath.sqrt (.fin u * leftprod)))
      else .ok (.float (r - PyMath.sqrt ((.fin 1 - .fin u) * rightprod)))
  | _, _, _ => .error .typeError

/-- oneka/stochastic.py:274-306 `generate_random_variate`. -/
noncomputable def generateRandomVariate (arg : PyVal) (u : ℝ) : Except PyErr PyVal :=
  match arg with
  | .tuple [a, b] => npUniform a b u
  | .tuple [a, m, b] => npTriangular a m b u
  | .tuple _ => .error .distributionError
  | v => .ok v

/-- oneka/stochastic.py:310-342 `compute_variate_mean`. -/
noncomputable def computeVariateMean (arg : PyVal) : Except PyErr PyVal :=
  match arg with
  | .tuple [a, b] =>
    match a.num, b.num with
    | some x, some y => .ok (.float ((x + y) / .fin 2))
    | _, _ => .error .typeError
  | .tuple [a, m, b] =>
    match a.num, m.num, b.num with
    | some x, some y, some z => .ok (.float ((x + y + z) / .fin 3))
    | _, _, _ => .error .typeError
  | .tuple _ => .error .distributionError
  | v => .ok v

/-- oneka/stochastic.py:345-376 `isdistribution`, for numeric bounds. -/
noncomputable def isdistribution (arg : PyVal) (lb ub : XR) : Except PyErr Bool :=
  if arg.isInt || arg.isFloat then PyVal.chainLe [.float lb, arg, .float ub]
  else
    match arg with
    | .tuple [a, b] => PyVal.chainLe [.float lb, a, b, .float ub]
    | .tuple [a, m, b] => PyVal.chainLe [.float lb, a, m, b, .float ub]
    | .list [a, b] => PyVal.chainLe [.float lb, a, b, .float ub]
    | .list [a, m, b] => PyVal.chainLe [.float lb, a, m, b, .float ub]
    | _ => .ok false

/-- A distribution argument with finite floats: a scalar or a tuple. (oneka/stochastic.py:274-306, 310-342) -/
inductive Dist
  | const (c : ℝ)
  | tuple (l : List ℝ)

/-- the Python object (oneka/stochastic.py:274-306, 310-342) -/
def Dist.toPy : Dist → PyVal
  | .const c => .float (.fin c)
  | .tuple l => .tuple (l.map fun x => .float (.fin x))

/-- A number that is expected to be a finite float. (oneka/stochastic.py:227-236) -/
def PyVal.asReal : Except PyErr PyVal → Except PyErr ℝ
  | .ok (.float (.fin r)) => .ok r
  | .ok _ => .error .typeError
  | .error e => .error e

/-- `generate_random_variate` of such an argument (oneka/stochastic.py:274-306); the result is a finite float or an exception. -/
noncomputable def Dist.sample (d : Dist) (u : ℝ) : Except PyErr ℝ := PyVal.asReal (generateRandomVariate d.toPy u)

/-- `compute_variate_mean` of such an argument (oneka/stochastic.py:310-342). -/
noncomputable def Dist.mean (d : Dist) : Except PyErr ℝ := PyVal.asReal (computeVariateMean d.toPy)

end Oneka
