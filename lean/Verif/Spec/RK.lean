import Mathlib.Analysis.SpecialFunctions.Pow.Real
import Mathlib.Algebra.Module.Basic
import Mathlib.Analysis.Calculus.Deriv.Basic
import Mathlib.Algebra.BigOperators.Group.List.Basic
import Verif.Model.Backtrace

/-!
# Runge–Kutta vocabulary

Explicit Runge–Kutta methods over an arbitrary real vector space, given by their tableau, and the Dormand–Prince tableau as
printed in the literature (J. R. Dormand, P. J. Prince 1980, RK5(4)7M).
-/

namespace Oneka
variable {V : Type} [AddCommGroup V] [Module ℝ V]

/-- `Σᵢ cᵢ kᵢ` -/
noncomputable def comb (cs : List ℚ) (ks : List V) : V :=
  (List.zipWith (fun (c : ℚ) k => (c : ℝ) • k) cs ks).sum

/-- The stages `kᵢ = f (y + h Σⱼ aᵢⱼ kⱼ)` of an explicit method; `A` lists the rows. -/
noncomputable def stages (f : V → V) (A : List (List ℚ)) (h : ℝ) (y : V) : List V :=
  A.foldl (fun ks row => ks ++ [f (y + h • comb row ks)]) []

/-- One step `y + h Σᵢ bᵢ kᵢ`. -/
noncomputable def rkStep (f : V → V) (A : List (List ℚ)) (b : List ℚ) (h : ℝ) (y : V) : V :=
  y + h • comb b (stages f A h y)

/-- Dormand–Prince: the seven rows. -/
def dpA : List (List ℚ) :=
  [[],
   [1/5],
   [3/40, 9/40],
   [44/45, -56/15, 32/9],
   [19372/6561, -25360/2187, 64448/6561, -212/729],
   [9017/3168, -355/33, 46732/5247, 49/176, -5103/18656],
   [35/384, 0, 500/1113, 125/192, -2187/6784, 11/84]]

/-- Dormand–Prince: the weights of order 5. -/
def dp5 : List ℚ := [35/384, 0, 500/1113, 125/192, -2187/6784, 11/84, 0]

/-- Dormand–Prince: the embedded weights of order 4. -/
def dp4 : List ℚ := [5179/57600, 0, 7571/16695, 393/640, -92097/339200, 187/2100, 1/40]

/-- The local error estimate of a step: max-norm distance between the results of order 5 and of order 4. -/
noncomputable def localError (f : ℝ × ℝ → ℝ × ℝ) (h : ℝ) (p : ℝ × ℝ) : ℝ :=
  max |(rkStep f dpA dp5 h p).1 - (rkStep f dpA dp4 h p).1| |(rkStep f dpA dp5 h p).2 - (rkStep f dpA dp4 h p).2|

/-- Euclidean distance in the plane. -/
noncomputable def euclid (p q : ℝ × ℝ) : ℝ := Real.sqrt ((q.1 - p.1) ^ 2 + (q.2 - p.2) ^ 2)

/-- `path` is a chain of Dormand–Prince steps (time step, new point) along the steady velocity `f` starting at `p`, each
with local error below `tol` and shorter than `maxstep`. -/
def DPPath (f : ℝ × ℝ → ℝ × ℝ) (tol maxstep : ℝ) : ℝ × ℝ → List (ℝ × (ℝ × ℝ)) → Prop
  | _, [] => True
  | p, (h, q) :: rest =>
    q = rkStep f dpA dp5 h p ∧ localError f h p < tol ∧ euclid p q < maxstep ∧ DPPath f tol maxstep q rest

/-- A (possibly failing, at any call and at any point) program computing the velocity `f`. -/
def Computes (feval : ℕ → ℝ × ℝ → Except PyErr (ℝ × ℝ)) (f : ℝ × ℝ → ℝ × ℝ) : Prop :=
  ∀ n p v, feval n p = .ok v → v = f p

/-- The program that computes `f` and never fails. -/
def steady (f : ℝ × ℝ → ℝ × ℝ) : ℕ → ℝ × ℝ → Except PyErr (ℝ × ℝ) := fun _ p => .ok (f p)

/-- The step size proposed after a trial step of size `h` from `p`: `h` times nine tenths of the smallest of three factors, the fifth root of (tolerance / error estimate),
(maximum length / length), and ten. (2⁻⁵² keeps the denominators positive.) -/
noncomputable def proposal (f : ℝ × ℝ → ℝ × ℝ) (tol maxstep h : ℝ) (p : ℝ × ℝ) : ℝ :=
  9/10 * min (min ((tol / (localError f h p + 2 ^ (-52 : ℤ))) ^ (1/5 : ℝ)) (maxstep / (euclid p (rkStep f dpA dp5 h p) + 2 ^ (-52 : ℤ)))) 10 * h

/-- A step size that does not lead past the duration. -/
noncomputable def shortened (duration t h : ℝ) : ℝ := if |duration| < |t + h| then duration - t else h

/-- Adaptive integration of the steady velocity `f` from time `t` and point `p`, where `h` is the step size to be tried next: the accepted steps (size, new point) until the
duration is used up. A step is accepted if its local error is below `tol` and it is shorter than `maxstep`; otherwise it is tried again with the proposed size. -/
inductive Adaptive (f : ℝ × ℝ → ℝ × ℝ) (tol maxstep duration : ℝ) : ℝ → ℝ → ℝ × ℝ → List (ℝ × (ℝ × ℝ)) → Prop
  | finish (t h : ℝ) (p : ℝ × ℝ) : |duration| ≤ |t| → Adaptive f tol maxstep duration t h p []
  | accept (t h h' : ℝ) (p q : ℝ × ℝ) (path : List (ℝ × (ℝ × ℝ))) : |t| < |duration| → h' = shortened duration t h → q = rkStep f dpA dp5 h' p →
      localError f h' p < tol → euclid p q < maxstep → Adaptive f tol maxstep duration (t + h') (proposal f tol maxstep h' p) q path →
      Adaptive f tol maxstep duration t h p ((h', q) :: path)
  | retry (t h h' : ℝ) (p : ℝ × ℝ) (path : List (ℝ × (ℝ × ℝ))) : |t| < |duration| → h' = shortened duration t h →
      ¬ (localError f h' p < tol ∧ euclid p (rkStep f dpA dp5 h' p) < maxstep) → Adaptive f tol maxstep duration t (proposal f tol maxstep h' p) p path →
      Adaptive f tol maxstep duration t h p path

/-- `X` is the exact pathline of the velocity `f` from `start`, on the times from 0 to `D`. -/
def Pathline (f : ℝ × ℝ → ℝ × ℝ) (start : ℝ × ℝ) (D : ℝ) (X : ℝ → ℝ × ℝ) : Prop :=
  X 0 = start ∧ ∀ t, 0 ≤ t → t ≤ D → HasDerivAt X (f (X t)) t

/-- From one vertex (time, place) to the next: later, by at most `H`, and elsewhere, by less than `maxstep`. -/
def Stride (H maxstep : ℝ) (a b : ℝ × (ℝ × ℝ)) : Prop := a.1 < b.1 ∧ b.1 ≤ a.1 + H ∧ a.2 ≠ b.2 ∧ euclid a.2 b.2 < maxstep

/-- The points within `ρ` of the curve `X` (in the max norm of the plane). -/
def Tube (X : ℝ → ℝ × ℝ) (D ρ : ℝ) : Set (ℝ × ℝ) := {q | ∃ t, 0 ≤ t ∧ t ≤ D ∧ ‖q - X t‖ ≤ ρ}

/-- On the set `U` the velocity `f` is Lipschitz with constant `L`, is bounded by `M`, and is what the program `feval` answers unless it raises. -/
structure Regular (feval : ℕ → ℝ × ℝ → Except PyErr (ℝ × ℝ)) (f : ℝ × ℝ → ℝ × ℝ) (U : Set (ℝ × ℝ)) (L M : ℝ) : Prop where
  lip : ∀ a ∈ U, ∀ b ∈ U, ‖f a - f b‖ ≤ L * ‖a - b‖
  bound : ∀ a ∈ U, ‖f a‖ ≤ M
  answers : ∀ n a v, a ∈ U → feval n a = .ok v → v = f a

end Oneka
