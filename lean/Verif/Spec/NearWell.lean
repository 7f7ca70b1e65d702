import Verif.Spec.Run

/-!
# Realizations that move

Vocabulary for C133.
-/

namespace Oneka

/-- One of the traces of the realization leaves its starting point: it has two different vertices. -/
def RealizationLog.Moves (L : RealizationLog) : Prop := ∃ tr ∈ L.traces, ∃ a ∈ tr.path, ∃ b ∈ tr.path, a ≠ b

/-- The aquifer is dry at `(x, y)`: the potential is not positive there. -/
def Aquifer.Dry (m : Aquifer ℝ) (x y : ℝ) : Prop := m.potential x y ≤ 0

end Oneka
