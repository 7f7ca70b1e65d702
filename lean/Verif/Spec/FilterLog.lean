import Verif.Model.Utilities
import Verif.Spec.Utilities

/-!
# Vocabulary for what `filter_obs` logs
-/

namespace Oneka

/-- The observations reported as removed, each with the well named. -/
def removedEntries (l : List FilterLine) : List (Obs × (ℝ × ℝ)) :=
  l.filterMap fun | .removed o w => some (o, w) | _ => none

/-- The entries about duplicates (`Sum.inl`: a duplicate observation; `Sum.inr`: an averaged one). -/
def duplicateEntries (l : List FilterLine) : List (Obs ⊕ Obs) :=
  l.filterMap fun | .duplicate o => some (.inl o) | .averaged o => some (.inr o) | _ => none

/-- The observations reported as active, each with its number. -/
def activeEntries (l : List FilterLine) : List (ℕ × Obs) :=
  l.filterMap fun | .active i o => some (i, o) | _ => none

/-- The numbers of active observations reported. -/
def countEntries (l : List FilterLine) : List ℕ :=
  l.filterMap fun | .count n => some n | _ => none

/-- What there is to report about the groups of duplicates `gs` and the observations `rs` that stand for them: for each group with several members, the members and their average. -/
def groupEntries (rs : List Obs) (gs : List (List Obs)) : List (Obs ⊕ Obs) :=
  ((rs.zip gs).filter fun p => decide (1 < p.2.length)).flatMap fun p => p.2.map .inl ++ [.inr p.1]

end Oneka
