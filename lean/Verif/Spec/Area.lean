import Verif.Spec.Zones
import Mathlib.MeasureTheory.Measure.Lebesgue.Basic

/-!
# Vocabulary for the areas of capture zones
-/

namespace Oneka

/-- The places that at least one trace of the realization passes at a distance below `u`. -/
def RealizationLog.strip (L : RealizationLog) (u : ℝ) : Set (ℝ × ℝ) := {p | L.Captures u p.1 p.2}

open Classical in
/-- The places for which this is so in more than the fraction `θ` of the realizations. -/
def manyStrips (Ls : List RealizationLog) (u θ : ℝ) : Set (ℝ × ℝ) := {p | θ * Ls.length < (Ls.countP fun L => L.Captures u p.1 p.2 : ℕ)}

/-- The area of a set of places. -/
noncomputable def area (Z : Set (ℝ × ℝ)) : ENNReal := MeasureTheory.volume Z

end Oneka
