import Verif.Spec.Aquifer
import Verif.Spec.Utilities
import Verif.Spec.Run
import Verif.Spec.Oneka
import Verif.Spec.Variate

/-!
# Vocabulary for C129: order, duplicates and precision of the observations
-/

namespace Oneka

/-- The measured level is at or above the top of the aquifer. -/
def Aquifer.Confines (m : Aquifer ℝ) (o : Obs) : Prop := m.base + m.thickness ≤ o.z

/-- No two observations (of different positions in the list) are closer than 1. -/
def Apart (obs : List Obs) : Prop := obs.Pairwise fun o p => 1 ≤ o.dist p.x p.y

/-- The same measured level, at the same place, with `c` times its standard deviation. -/
noncomputable def Obs.blur (c : ℝ) (o : Obs) : Obs := { o with std := c * o.std }

/-- The observations farther than `buffer` from every one of the wells. -/
noncomputable def farFrom (buffer : ℝ) (wells : List (ℝ × ℝ)) (obs : List Obs) : List Obs := open Classical in obs.filter fun o => ∀ w ∈ wells, buffer < o.dist w.1 w.2

/-- Whatever is drawn, conductivity and thickness are positive and the measured levels are at or above the top of the aquifer; standard deviations are positive and no observation is exactly at a well. -/
def RunArgs.Covered (a : RunArgs) (obs : List Obs) : Prop :=
  ∃ clo chi tlo thi, IsDist a.cDist.toPy clo chi ∧ 0 < clo ∧ IsDist a.tDist.toPy tlo thi ∧ 0 < tlo ∧
    ∀ o ∈ obs, a.base + thi ≤ o.z ∧ 0 < o.std ∧ ∀ w ∈ a.wells, (o.x, o.y) ≠ (w.xw, w.yw)

/-- The same realization with `c` times the standard deviations of the fitted coefficients. -/
noncomputable def RealizationLog.blur (c : ℝ) (L : RealizationLog) : RealizationLog := { L with cov := c ^ 2 • L.cov }

/-- The same call with other observations. -/
def Inputs.withObs (n : Inputs) (obs : List Obs) : Inputs := { n with run := { n.run with obs := obs } }

/-- Markers that differ at most in the order of the observations. -/
structure Markers.SameButObsOrder (m m' : Markers) : Prop where
  wells : m'.wells = m.wells
  target : m'.target = m.target
  obs : m.obs.Perm m'.obs

/-- Figures that differ at most in the order in which observations are drawn. -/
inductive Figure.SameButObsOrder : Figure → Figure → Prop
  | same (f : Figure) : Figure.SameButObsOrder f f
  | probability (x y : List ℝ) (z : Grid ℝ) (m m' : Markers) : m.SameButObsOrder m' → Figure.SameButObsOrder (.probability ⟨x, y, z, m⟩) (.probability ⟨x, y, z, m'⟩)
  | deterministic (r : List Rect) (m m' : Markers) (a : ℝ) : m.SameButObsOrder m' → Figure.SameButObsOrder (.deterministic ⟨r, m, a⟩) (.deterministic ⟨r, m', a⟩)

end Oneka
