import Verif.Spec.RoundingTrace
import Verif.Spec.Upstream
import Verif.Model.BackVelocity

/-! # Vocabulary for C93 and later: velocities in floating-point arithmetic -/

namespace Oneka

/-- A model whose parameters are floating-point numbers, read as real numbers: nothing is changed but the type of the numbers. -/
def Aquifer.exact (m : Aquifer Fl) : Aquifer ℝ :=
  ⟨m.base.val, m.conductivity.val, m.porosity.val, m.thickness.val, m.wells.map fun w => ⟨w.xw.val, w.yw.val, w.rw.val, w.qw.val⟩, m.xo.val, m.yo.val, fun i => (m.coef i).val⟩

/-- The logarithm of the C library is accurate to a unit in the last place. -/
def LogAccurate [LibM] : Prop := ∀ x : Fl, 0 < x.val → |(LibM.log x).val - Real.log x.val| ≤ 2 ^ (-52 : ℤ) * |Real.log x.val|

/-- The size of the terms that the discharge vector at `(x, y)` is the sum of (the larger of its two components): their absolute values are added up (with 6 for 2π). -/
noncomputable def Aquifer.dischargeTerms (m : Aquifer ℝ) (x y : ℝ) : ℝ :=
  max (|2 * m.coef 0 * (x - m.xo)| + |m.coef 2 * (y - m.yo)| + |m.coef 3| + (m.wells.map fun w => |w.qw / 6 * (x - w.xw) / w.r2 x y|).sum)
    (|2 * m.coef 1 * (y - m.yo)| + |m.coef 2 * (x - m.xo)| + |m.coef 4| + (m.wells.map fun w => |w.qw / 6 * (y - w.yw) / w.r2 x y|).sum)

/-- The size of the terms that the potential at `(x, y)` is the sum of: their absolute values are added up, each logarithm increased by 1 (and with 12 for 4π). -/
noncomputable def Aquifer.potentialTerms (m : Aquifer ℝ) (x y : ℝ) : ℝ :=
  |m.coef 0 * (x - m.xo) ^ 2| + |m.coef 1 * (y - m.yo) ^ 2| + |m.coef 2 * (x - m.xo) * (y - m.yo)| + |m.coef 3 * (x - m.xo)| + |m.coef 4 * (y - m.yo)| + |m.coef 5|
    + (m.wells.map fun w => |w.qw| / 12 * (1 + |Real.log (w.r2 x y)|)).sum

/-- How much an error in the terms is amplified: the size of the terms of the potential relative to the potential; 1 if the potential is not needed. -/
noncomputable def Aquifer.condition (m : Aquifer ℝ) (confined : Bool) (x y : ℝ) : ℝ :=
  if confined then 1 else m.potentialTerms x y / m.potential x y

end Oneka
