import Verif.Spec.RK
import Verif.Spec.Upstream
import Verif.Spec.Run

/-!
# Vocabulary for C95: exact capture
-/

namespace Oneka

/-- The conditions under which the traces of the model `m` from `start` follow the exact pathline `P` (cf. C82), and the resulting precision `δ`: `P` is the exact pathline upstream
from `start`; in a tube around it there are no wells, and a positive head if the aquifer is not treated as confined; the upstream direction `f` has the Lipschitz constant `L` and the
bound `M` there, and is nowhere slower than `11/10 maxstep / H`; `H` is at least 1/10 and at most `1/(100 L)`; the tube is wide enough. -/
structure Followed (m : Aquifer ℝ) (confined : Bool) (start : ℝ × ℝ) (D maxstep δ : ℝ) (P : ℝ → ℝ × ℝ) (f : ℝ × ℝ → ℝ × ℝ) (L M H ρ : ℝ) : Prop where
  physical : m.Physical
  upstream : m.Upstream confined f
  exact : Pathline f start D P
  flow : ∀ q ∈ Tube P D ρ, m.OffWells q.1 q.2 ∧ ∃ b, m.Saturated confined q.1 q.2 b
  lip : ∀ a ∈ Tube P D ρ, ∀ b ∈ Tube P D ρ, ‖f a - f b‖ ≤ L * ‖a - b‖
  bound : ∀ a ∈ Tube P D ρ, ‖f a‖ ≤ M
  L_pos : 0 < L
  M_nonneg : 0 ≤ M
  H_ge : 1/10 ≤ H
  H_le : L * H ≤ 1/100
  wide : 22 * maxstep * (Real.exp (L * D) - 1) + 25 * H * M ≤ ρ
  fast : ∀ q ∈ Tube P D ρ, 11/10 * maxstep ≤ H * ‖f q‖
  precision : 3/2 * (22 * maxstep * (Real.exp (L * D) - 1) + M * H) ≤ δ

/-- `P` is an exact pathline of the model that the traces follow up to `δ`. -/
def Follows (m : Aquifer ℝ) (confined : Bool) (start : ℝ × ℝ) (D maxstep δ : ℝ) (P : ℝ → ℝ × ℝ) : Prop :=
  ∃ f L M H ρ, Followed m confined start D maxstep δ P f L M H ρ

/-- The curve comes strictly within `d` of `(X, Y)` at some time between 0 and `D`. -/
def Passes (P : ℝ → ℝ × ℝ) (D d X Y : ℝ) : Prop := ∃ t, 0 ≤ t ∧ t ≤ D ∧ euclid (P t) (X, Y) < d

/-- The start of the `k`-th of `npaths` traces around the well. -/
noncomputable def SWell.start (t : SWell) (npaths : ℤ) (k : ℕ) : ℝ × ℝ :=
  (t.xw + (t.rw + 1) * Real.cos (2 * Real.pi * k / npaths), t.yw + (t.rw + 1) * Real.sin (2 * Real.pi * k / npaths))

end Oneka
