import Verif.Spec.Reach
import Verif.Spec.Run

/-!
# Which realization of a run is recorded where, whatever the umbra
-/

namespace Oneka

/-- The tracks of a realization, in the order in which they are traced. -/
def RealizationLog.paths (L : RealizationLog) : List (List (ℝ × ℝ)) := L.traces.map Trace.path

/-- The vertices of all tracks of the realizations in `log`. -/
def allVertices (log : List RealizationLog) : List (ℝ × ℝ) := log.flatMap fun L => L.paths.flatten

/-- Realization number `i` of `log` is recorded at `(X, Y)` on the grid with spacing `d` through `(xo, yo)`: one of its tracks passes within `u`, at a time
when `(X, Y)` is at most one spacing outside the vertices traced so far. -/
def RecordedBy (xo yo d u : ℝ) (log : List RealizationLog) (X Y : ℝ) (i : ℕ) : Prop :=
  ∃ L, log[i]? = some L ∧ RecordsInOrder xo yo d d (allVertices (log.take i)) u L.paths X Y

end Oneka
