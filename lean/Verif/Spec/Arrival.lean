import Verif.Spec.CaptureExact

/-!
# Water on its way to a well
-/

namespace Oneka

/-- At `p` the groundwater flows with the velocity `v`: `p` is not a well, there is water, and `v` times the porosity times the saturated thickness is minus the gradient of the discharge potential. -/
def Aquifer.FlowsWith (m : Aquifer ℝ) (confined : Bool) (p v : ℝ × ℝ) : Prop :=
  m.OffWells p.1 p.2 ∧ ∃ b, m.Saturated confined p.1 p.2 b ∧ HasDerivAt (fun s => m.potential s p.2) (-(m.porosity * b * v.1)) p.1 ∧
    HasDerivAt (fun s => m.potential p.1 s) (-(m.porosity * b * v.2)) p.2

/-- `γ` is the path of a water particle between the times 0 and `τ`. -/
def Aquifer.Carries (m : Aquifer ℝ) (confined : Bool) (γ : ℝ → ℝ × ℝ) (τ : ℝ) : Prop :=
  ∀ s, 0 ≤ s → s ≤ τ → ∃ v, m.FlowsWith confined (γ s) v ∧ HasDerivAt γ v s

/-- Some water that is within `d` of `(X, Y)` is carried to the place `goal` in at most `D` days. -/
def Aquifer.Delivers (m : Aquifer ℝ) (confined : Bool) (D d X Y : ℝ) (goal : ℝ × ℝ) : Prop :=
  ∃ γ τ, 0 ≤ τ ∧ τ ≤ D ∧ m.Carries confined γ τ ∧ euclid (γ 0) (X, Y) < d ∧ γ τ = goal

/-- Some water that is within `d` of `(X, Y)` comes as near as `r` to `(xw, yw)`, sooner or later. -/
def Aquifer.Reaches (m : Aquifer ℝ) (confined : Bool) (d X Y xw yw r : ℝ) : Prop :=
  ∃ γ τ, 0 ≤ τ ∧ m.Carries confined γ τ ∧ euclid (γ 0) (X, Y) < d ∧ euclid (γ τ) (xw, yw) ≤ r

/-- Between the distances `r` and `R` from `(xw, yw)` all water flows towards it, with a radial velocity of at least `c`. -/
def Aquifer.Inward (m : Aquifer ℝ) (confined : Bool) (xw yw r R c : ℝ) : Prop :=
  ∀ p v, r ≤ euclid p (xw, yw) → euclid p (xw, yw) ≤ R → m.FlowsWith confined p v → v.1 * (p.1 - xw) + v.2 * (p.2 - yw) ≤ -(c * euclid p (xw, yw))

end Oneka
