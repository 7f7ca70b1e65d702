import Verif.Py.Num
import Mathlib.Algebra.Notation.Prod

/-!
# Model of `compute_backtrace` (oneka/capturezone.py:127-253)

Vectors are pairs, added componentwise (numpy arrays of length 2).
-/

namespace Oneka

section
variable {F : Type} [Add F] [Sub F] [Mul F] [Div F] [LT F] [DecidableLT F] [PyMath F]

/-- `c*v` for a scalar and a numpy array of length 2. (oneka/capturezone.py:227-238) -/
def sc (c : F) (v : F × F) : F × F := (c * v.1, c * v.2)

/-- `c*v` for a literal constant `c`. (oneka/capturezone.py:227-238) -/
def scq (c : ℚ) (v : F × F) : F × F := sc (PyMath.q c) v

/-- `np.linalg.norm(v, np.inf)`. (oneka/capturezone.py:237) -/
def normInf (v : F × F) : F := PyMath.fmax (PyMath.abs v.1) (PyMath.abs v.2)

/-- `np.linalg.norm(v)`. (oneka/capturezone.py:239) -/
def norm2 (v : F × F) : F := PyMath.sqrt (v.1 * v.1 + v.2 * v.2)

/-- oneka/capturezone.py:199 `EPS = np.finfo(float).eps`, 2⁻⁵². -/
def EPS : F := PyMath.q (1 / 4503599627370496)

/-- oneka/capturezone.py:227-239: the six velocity evaluations of one trial step of size `dt` from `xy`, where
`k1` is the velocity at `xy`. `n` is the number of evaluations made so far: the velocity function may
depend on it, so that any stateful, failing or interrupted function is covered. Result:
`(xyt, k2, est, ds)`. The coefficient arrays (202-209) appear as exact rationals. -/
def trial (feval : ℕ → F × F → Except PyErr (F × F)) (n : ℕ) (xy k1 : F × F) (dt : F) :
    Except PyErr ((F × F) × (F × F) × F × F) := do
  let k2 ← feval n (xy + sc dt (scq (1/5) k1))
  let k3 ← feval (n+1) (xy + sc dt (scq (3/40) k1 + scq (9/40) k2))
  let k4 ← feval (n+2) (xy + sc dt (scq (44/45) k1 + scq (-56/15) k2 + scq (32/9) k3))
  let k5 ← feval (n+3) (xy + sc dt (scq (19372/6561) k1 + scq (-25360/2187) k2 + scq (64448/6561) k3
    + scq (-212/729) k4))
  let k6 ← feval (n+4) (xy + sc dt (scq (9017/3168) k1 + scq (-355/33) k2 + scq (46732/5247) k3
    + scq (49/176) k4 + scq (-5103/18656) k5))
  let xyt := xy + sc dt (scq (35/384) k1 + scq (500/1113) k3 + scq (125/192) k4 + scq (-2187/6784) k5
    + scq (11/84) k6)
  let k2' ← feval (n+5) xyt
  let est := normInf (sc dt (scq (71/57600) k1 + scq (-1/40) k2' + scq (-71/16695) k3 + scq (71/1920) k4
    + scq (-17253/339200) k5 + scq (22/525) k6))
  let ds := norm2 (xyt - xy)
  return (xyt, k2', est, ds)

/-- oneka/capturezone.py:247: the new step size. -/
def nextDt (tol maxstep est ds dt : F) : F :=
  PyMath.q (9/10) * pyMin3 (PyMath.root5 (tol / (est + EPS))) (maxstep / (ds + EPS)) (PyMath.q 10) * dt

/-- oneka/capturezone.py:222-224: do not step past `duration`. -/
def clipDt (duration t dt : F) : F :=
  if PyMath.abs duration < PyMath.abs (t + dt) then duration - t else dt

/-- Record of one accepted step (ghost: the code keeps only the vertex). (oneka/capturezone.py:242-245) -/
structure Accepted (F : Type) where
  /-- time before the step -/
  t : F
  /-- step size -/
  dt : F
  /-- error estimate -/
  est : F
  /-- the vertex appended -/
  vertex : F × F

/-- What a call of `compute_backtrace` does. (oneka/capturezone.py:218-253) -/
structure Trace (F : Type) where
  /-- the returned list -/
  vertices : List (F × F)
  /-- ghost: the accepted steps -/
  steps : List (Accepted F)
  /-- the time in the "terminated prematurely" warning, if it was logged (250) -/
  warning : Option F

/-- oneka/capturezone.py:221-253: the loop, the handler and the return. `none`: never returns. -/
def traceLoop (duration tol maxstep : F) (feval : ℕ → F × F → Except PyErr (F × F))
    (t dt : F) (xy k1 : F × F) (n : ℕ) (vs : List (F × F)) (ss : List (Accepted F)) : Option (Trace F) :=
  if PyMath.abs t < PyMath.abs duration then
    match trial feval n xy k1 (clipDt duration t dt) with
    | .error _ => some ⟨vs, ss, some t⟩
    | .ok (xyt, k2, est, ds) =>
      if est < tol ∧ ds < maxstep then
        traceLoop duration tol maxstep feval (t + clipDt duration t dt)
          (nextDt tol maxstep est ds (clipDt duration t dt)) xyt k2 (n+6) (vs ++ [xyt])
          (ss ++ [⟨t, clipDt duration t dt, est, xyt⟩])
      else
        traceLoop duration tol maxstep feval t
          (nextDt tol maxstep est ds (clipDt duration t dt)) xy k1 (n+6) vs ss
  else some ⟨vs, ss, none⟩
partial_fixpoint

/-- oneka/capturezone.py:127-253 `compute_backtrace`. -/
def computeBacktrace (xs ys duration tol maxstep : F) (feval : ℕ → F × F → Except PyErr (F × F)) :
    Option (Trace F) :=
  match feval 0 (xs, ys) with
  | .error _ => some ⟨[(xs, ys)], [], some (PyMath.q 0)⟩
  | .ok k1 =>
    traceLoop duration tol maxstep feval (PyMath.q 0) (PyMath.q (1/10) * PyMath.sign duration) (xs, ys) k1 1
      [(xs, ys)] []

end
end Oneka
