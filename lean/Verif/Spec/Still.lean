import Verif.Spec.Arrival

/-!
# Vocabulary for a well in an aquifer at rest
-/

namespace Oneka

/-- There is no regional flow and no recharge, and there is just the well `w`. -/
structure Aquifer.AtRest (m : Aquifer ℝ) (w : Well ℝ) : Prop where
  wells : m.wells = [w]
  coef : ∀ j : Fin 6, j ≠ 5 → m.coef j = 0

/-- The place on the ray from the well through `p` from which the water takes `s` days to `p`: the squared distance from the well grows by `2 κ` a day. -/
noncomputable def spoke (w : Well ℝ) (κ : ℝ) (p : ℝ × ℝ) (s : ℝ) : ℝ × ℝ :=
  (w.xw + Real.sqrt (1 + 2 * κ * s / w.r2 p.1 p.2) * (p.1 - w.xw), w.yw + Real.sqrt (1 + 2 * κ * s / w.r2 p.1 p.2) * (p.2 - w.yw))

end Oneka
