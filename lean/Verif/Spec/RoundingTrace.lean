import Verif.Spec.Rounding
import Verif.Py.RoundMath
import Verif.Model.Backtrace
import Verif.Spec.RK

/-! # Vocabulary for C90 and later: traces in floating-point arithmetic -/

namespace Oneka

/-- The time shown by a clock that is advanced by each of the steps in turn, in floating-point arithmetic. -/
noncomputable def clock (steps : List Fl) : Fl := steps.foldl (· + ·) 0

/-- The power function of the C library does not change signs. -/
def PowPositive [LibM] : Prop := ∀ x : Fl, 0 < x.val → 0 < (LibM.root5 x).val

/-- The power function of the C library is accurate to a thousandth. -/
def RootAccurate [LibM] : Prop := ∀ x : Fl, 0 < x.val → |(LibM.root5 x).val - x.val ^ ((1:ℝ)/5)| ≤ x.val ^ ((1:ℝ)/5) / 1000

/-- The point of the plane that a pair of floating-point numbers denotes. -/
def fv (v : Fl × Fl) : ℝ × ℝ := (v.1.val, v.2.val)

/-- On the set `U` the program `feval` answers, unless it raises, the velocity `f` up to an error `ν`. -/
def Approximates (feval : ℕ → Fl × Fl → Except PyErr (Fl × Fl)) (f : ℝ × ℝ → ℝ × ℝ) (U : Set (ℝ × ℝ)) (ν : ℝ) : Prop :=
  ∀ n q v, fv q ∈ U → feval n q = .ok v → ‖fv v - f (fv q)‖ ≤ ν

/-- On the set `U` the velocity `f` is Lipschitz with constant `L` and is bounded by `M`. -/
structure Moderate (f : ℝ × ℝ → ℝ × ℝ) (U : Set (ℝ × ℝ)) (L M : ℝ) : Prop where
  lip : ∀ a ∈ U, ∀ b ∈ U, ‖f a - f b‖ ≤ L * ‖a - b‖
  bound : ∀ a ∈ U, ‖f a‖ ≤ M

/-- From one vertex of a trace, at a time and a place, to the next: later, by at most `H`, and at a distance of at most `m` along each axis. -/
def StrideFl (H m : ℝ) (a b : ℝ × (Fl × Fl)) : Prop := a.1 < b.1 ∧ b.1 ≤ a.1 + H ∧ ‖fv b.2 - fv a.2‖ ≤ m

end Oneka
