import Verif.Spec.Arrival

/-!
# Vocabulary for a well that is fed by recharge
-/

namespace Oneka

/-- There is just the well `w`, the recharge is `N`, and without the well the water would flow evenly away from its place. -/
structure Aquifer.Raining (m : Aquifer ℝ) (w : Well ℝ) (N : ℝ) : Prop where
  wells : m.wells = [w]
  origin : m.xo = w.xw ∧ m.yo = w.yw
  recharge : m.coef 0 = -(N / 4) ∧ m.coef 1 = -(N / 4)
  even : m.coef 2 = 0 ∧ m.coef 3 = 0 ∧ m.coef 4 = 0

/-- The place on the ray from the well through `p` whose squared distance from the well differs from `R2` by `exp (-(α s))` times as much as that of `p`. -/
noncomputable def rainSpoke (w : Well ℝ) (R2 α : ℝ) (p : ℝ × ℝ) (s : ℝ) : ℝ × ℝ :=
  (w.xw + Real.sqrt ((R2 + (w.r2 p.1 p.2 - R2) * Real.exp (-(α * s))) / w.r2 p.1 p.2) * (p.1 - w.xw),
    w.yw + Real.sqrt ((R2 + (w.r2 p.1 p.2 - R2) * Real.exp (-(α * s))) / w.r2 p.1 p.2) * (p.2 - w.yw))

end Oneka
