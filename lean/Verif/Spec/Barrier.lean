import Verif.Spec.Arrival

/-!
# Vocabulary for curves that water crosses in one direction only
-/

namespace Oneka

/-- `(gx, gy)` is the gradient of `g`, and wherever `g` is zero (except at wells) the discharge has a positive component in its direction: water crosses the curve from where `g` is negative to where it is positive. -/
structure Aquifer.CrossedOutward (m : Aquifer ℝ) (g gx gy : ℝ × ℝ → ℝ) : Prop where
  gradient : ∀ p, HasFDerivAt g (gx p • ContinuousLinearMap.fst ℝ ℝ ℝ + gy p • ContinuousLinearMap.snd ℝ ℝ ℝ) p
  outward : ∀ p, g p = 0 → m.OffWells p.1 p.2 → 0 < gx p * (m.discharge p.1 p.2).1 + gy p * (m.discharge p.1 p.2).2

end Oneka
