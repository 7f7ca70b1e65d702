import Verif.Py.Round
import Verif.Py.Num

/-!
# The numpy functions on floating-point numbers

IEEE 754 determines `+ - * /`, comparisons, `abs`, `sign`, `maximum` and `sqrt`; literals are the nearest floating-point numbers. Powers, logarithm, sine and cosine come from
the C library and are arbitrary functions here (no code in /repo: this is the arithmetic the code runs on).
-/

namespace Oneka

/-- The functions of the C library, which IEEE 754 does not determine. -/
class LibM where
  /-- `x**(1/5)` -/
  root5 : Fl → Fl
  log : Fl → Fl
  cos : Fl → Fl
  sin : Fl → Fl
  pi : Fl

theorem round53_abs (a : Fl) : round53 |a.val| = |a.val| := by
  rcases abs_choice a.val with h | h <;> rw [h]
  · exact a.isFloat
  · rw [round53_neg, a.isFloat]

/-- The sign is changed without rounding. -/
instance : Neg Fl := ⟨fun a => ⟨-a.val, by rw [round53_neg, a.isFloat]⟩⟩

noncomputable instance [LibM] : PyMath Fl where
  q r := Fl.of r
  abs a := ⟨|a.val|, round53_abs a⟩
  sign a := Fl.of (Real.sign a.val)
  sqrt a := Fl.of (Real.sqrt a.val)
  log := LibM.log
  root5 := LibM.root5
  fmax a b := if a < b then b else a
  pi := LibM.pi
  cos := LibM.cos
  sin := LibM.sin

end Oneka
