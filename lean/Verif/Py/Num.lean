import Mathlib.Analysis.SpecialFunctions.Pow.Real
import Mathlib.Analysis.SpecialFunctions.Log.Basic
import Mathlib.Analysis.SpecialFunctions.Trigonometric.Basic
import Mathlib.Data.Real.Sign
import Verif.Py.Basic

/-!
# Numbers

The numerical code is written once, over a type `F` carrying the *symbols* `+ - * / < ≤` (no laws) and the numpy
functions below. It is interpreted over ℝ (this file) and over `XR` (`Verif/Py/Ext.lean`): reals with inf and NaN.
Neither interpretation rounds.
-/

namespace Oneka

/-- The numpy functions and constants used by oneka/capturezone.py and oneka/model.py. -/
class PyMath (F : Type) where
  /-- a literal constant -/
  q : ℚ → F
  /-- `abs` -/
  abs : F → F
  /-- `np.sign` -/
  sign : F → F
  /-- `np.sqrt` -/
  sqrt : F → F
  /-- `np.log` -/
  log : F → F
  /-- `x**(1/5)` of a numpy scalar -/
  root5 : F → F
  /-- `np.maximum`: NaN if either argument is -/
  fmax : F → F → F
  /-- `np.pi` -/
  pi : F
  /-- `np.cos` -/
  cos : F → F
  /-- `np.sin` -/
  sin : F → F

/-- The interpretation over ℝ. `np.pi` is π itself. The totalised values (`log 0`, `sqrt` of a negative number, `x / 0`)
are junk; theorems over ℝ that could depend on them carry hypotheses, and `XR` has the true special values. -/
noncomputable instance : PyMath ℝ where
  q r := (r : ℝ)
  abs x := |x|
  sign x := Real.sign x
  sqrt := Real.sqrt
  log := Real.log
  root5 x := x ^ ((1 : ℝ) / 5)
  fmax := max
  pi := Real.pi
  cos := Real.cos
  sin := Real.sin

/-- Python's `min(a, b, c)`. -/
def pyMin3 {F : Type} [LT F] [DecidableLT F] (a b c : F) : F := pyMin2 (pyMin2 a b) c

@[simp] theorem PyMath.q_real (r : ℚ) : (PyMath.q r : ℝ) = (r : ℝ) := rfl
@[simp] theorem PyMath.abs_real (x : ℝ) : PyMath.abs x = |x| := rfl
@[simp] theorem PyMath.sign_real (x : ℝ) : PyMath.sign x = Real.sign x := rfl
@[simp] theorem PyMath.sqrt_real (x : ℝ) : PyMath.sqrt x = Real.sqrt x := rfl
@[simp] theorem PyMath.log_real (x : ℝ) : PyMath.log x = Real.log x := rfl
@[simp] theorem PyMath.root5_real (x : ℝ) : PyMath.root5 x = x ^ ((1 : ℝ) / 5) := rfl
@[simp] theorem PyMath.fmax_real (x y : ℝ) : PyMath.fmax x y = max x y := rfl
@[simp] theorem PyMath.pi_real : (PyMath.pi : ℝ) = Real.pi := rfl
@[simp] theorem PyMath.cos_real (x : ℝ) : PyMath.cos x = Real.cos x := rfl
@[simp] theorem PyMath.sin_real (x : ℝ) : PyMath.sin x = Real.sin x := rfl

end Oneka
