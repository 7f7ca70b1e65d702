import Verif.Spec.Still

/-!
# Vocabulary for straight pathlines
-/

namespace Oneka

/-- The vector `v` has the direction `d` or the opposite one (or is zero). -/
def Parallel (d v : ℝ × ℝ) : Prop := d.1 * v.2 = d.2 * v.1

/-- `q` is on the straight line through `p` in the direction `d`. -/
def OnLine (p d q : ℝ × ℝ) : Prop := Parallel d (q - p)

/-- Wherever there is flow on the straight line through `p` in the direction `d`, the water moves along the line. -/
def Aquifer.FlowsAlong (m : Aquifer ℝ) (confined : Bool) (p d : ℝ × ℝ) : Prop :=
  ∀ q V, OnLine p d q → m.FlowsWith confined q V → Parallel d V

/-- The distance of `q` from the straight line through the well `t` and the start of its `k`-th of `npaths` traces. -/
noncomputable def SWell.offSpoke (t : SWell) (npaths : ℤ) (k : ℕ) (q : ℝ × ℝ) : ℝ :=
  |Real.cos (2 * Real.pi * k / npaths) * (q.2 - t.yw) - Real.sin (2 * Real.pi * k / npaths) * (q.1 - t.xw)|

end Oneka
