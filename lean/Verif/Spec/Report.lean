import Verif.Spec.Utilities
import Verif.Model.Utilities

/-!
# Retained observations and summary tables
-/

namespace Oneka

/-- the observations farther than `buffer` from all wells -/
def IsKept (obs : List Obs) (wells : List (ℝ × ℝ)) (buffer : ℝ) (kept : List Obs) : Prop :=
  kept.Sublist obs ∧ ∃ f : Obs → Bool, kept = obs.filter f ∧ ∀ o, f o = true ↔ ∀ w ∈ wells, buffer < o.dist w.1 w.2

/-- `r` is the best average of the group `g` of independent observations. -/
structure BestAverage (r : Obs) (g : List Obs) : Prop where
  not_below : ∃ a ∈ g, a.z ≤ r.z
  not_above : ∃ b ∈ g, r.z ≤ b.z
  pos : 0 < r.std
  std_le : ∀ o ∈ g, r.std ≤ o.std
  /-- head and variance are those of a weighted average -/
  average : ∃ ws : List ℝ, ws.length = g.length ∧ ws.sum = 1 ∧ r.z = (List.zipWith (fun w o => w * o.z) ws g).sum ∧
    r.std ^ 2 = (List.zipWith (fun w o => w ^ 2 * o.std ^ 2) ws g).sum
  /-- no weights give a smaller variance -/
  minimal : ∀ ws : List ℝ, ws.length = g.length → ws.sum = 1 → r.std ^ 2 ≤ (List.zipWith (fun w o => w ^ 2 * o.std ^ 2) ws g).sum

/-- What a column of the table must satisfy for the (finite) values `x`. -/
structure ColumnOK (x : List ℝ) (s : ColumnStats) : Prop where
  cnt : s.cnt = x.length
  min_mem : s.min ∈ x
  min_le : ∀ v ∈ x, s.min ≤ v
  max_mem : s.max ∈ x
  le_max : ∀ v ∈ x, v ≤ s.max
  /-- at least half of the values are on each side of the median -/
  med_low : x.length ≤ 2 * x.countP (fun v => v ≤ s.med)
  med_high : x.length ≤ 2 * x.countP (fun v => s.med ≤ v)
  med_range : s.min ≤ s.med ∧ s.med ≤ s.max
  avg : s.avg * x.length = x.sum
  avg_range : s.min ≤ s.avg ∧ s.avg ≤ s.max
  std : s.std ^ 2 * x.length = (x.map fun v => (v - s.avg) ^ 2).sum
  std_range : 0 ≤ s.std ∧ 2 * s.std ≤ s.max - s.min

/-- The columns of a table of observations. -/
def obsColumn (obs : List Obs) : ℕ → List ℝ
  | 0 => obs.map (·.x)
  | 1 => obs.map (·.y)
  | 2 => obs.map (·.z)
  | _ => obs.map (·.std)

/-- The summary table of a list of observations: for each of x, y, head and standard deviation the statistics of C52. -/
def SummaryOf (obs : List Obs) (cols : List ColumnStats) : Prop :=
  cols.length = 4 ∧ ∀ (j : ℕ) (s : ColumnStats), cols[j]? = some s → ColumnOK (obsColumn obs j) s

end Oneka
