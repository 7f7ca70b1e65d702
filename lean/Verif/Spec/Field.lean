import Verif.Model.ProbabilityField

/-!
# Vocabulary for the properties of `ProbabilityField`

Everything here is about world coordinates; none of it mentions array indices shifts, loops or sub-grid limits.
-/

namespace Oneka
variable {K : Type} [Field K] [LinearOrder K]

/-- `(X, Y)` is at distance strictly less than `u` from some point `a + t(b-a)`, `0 ≤ t ≤ 1`, of the closed segment
`[a, b]` (for `u ≥ 0`; distances are compared through their squares). -/
def NearSegment (ax ay bx «by» u X Y : K) : Prop :=
  ∃ t : K, 0 ≤ t ∧ t ≤ 1 ∧
    (X - (ax + t * (bx - ax))) ^ 2 + (Y - (ay + t * («by» - ay))) ^ 2 < u ^ 2

/-- The squared distances from `c` to the points of the segment `[a, b]`. -/
def segDists (ax ay bx «by» cx cy : K) : Set K :=
  { s | ∃ t : K, 0 ≤ t ∧ t ≤ 1 ∧
      s = (cx - (ax + t * (bx - ax))) ^ 2 + (cy - (ay + t * («by» - ay))) ^ 2 }

/-- A track is the list of its vertices. `(X, Y)` is within `u` of some non-degenerate segment joining two consecutive
vertices. -/
def NearTrack (track : List (K × K)) (u X Y : K) : Prop :=
  ∃ a b : K × K, [a, b] <:+: track ∧ a ≠ b ∧ NearSegment a.1 a.2 b.1 b.2 u X Y

/-- `(X, Y)` belongs to the lattice through `(ox, oy)` with spacings `dx`, `dy`. -/
def OnLattice (ox oy dx dy X Y : K) : Prop :=
  ∃ p q : ℤ, X = ox + p * dx ∧ Y = oy + q * dy

namespace PField

/-- `(X, Y)` is the position of a node of the field's current grid. -/
def IsNode (f : PField K) (X Y : K) : Prop :=
  ∃ b, f.body = some b ∧ ∃ i j : ℕ, i < f.nrows ∧ j < f.ncols ∧
    X = b.xmin + j * f.deltax ∧ Y = b.ymin + i * f.deltay

open Classical in
/-- What a table lookup by world position sees: the entry of `g` at the node at `(X, Y)`, or `dflt`
when no node is there. -/
noncomputable def lookAt {α : Type} (f : PField K) (g : Body K → Grid α) (dflt : α) (X Y : K) : α :=
  if h : ∃ v : α, ∃ (b : Body K) (i j : ℕ), f.body = some b ∧ i < f.nrows ∧ j < f.ncols ∧
      X = b.xmin + j * f.deltax ∧ Y = b.ymin + i * f.deltay ∧ v = (g b).val i j
  then h.choose
  else dflt

/-- The accumulated weight at world position `(X, Y)`; 0 where there is no node. -/
noncomputable def weightAt (f : PField K) (X Y : K) : K := f.lookAt Body.pgrid 0 X Y

/-- Is world position `(X, Y)` a node marked as visited by the current realization? -/
noncomputable def markedAt (f : PField K) (X Y : K) : Prop := f.lookAt Body.rgrid false X Y = true

/-- `total_weight` (0 while the attribute does not exist yet). -/
def total (f : PField K) : K := match f.body with | none => 0 | some b => b.totalWeight

/-- The documented consistency of the attributes. -/
structure WF (f : PField K) : Prop where
  dx_pos : 0 < f.deltax
  dy_pos : 0 < f.deltay
  /-- no grid yet: no rows and no columns -/
  empty : f.body = none → f.nrows = 0 ∧ f.ncols = 0
  /-- with a grid: at least 3×3, extents and array shapes agree -/
  grid : ∀ b, f.body = some b →
    3 ≤ f.nrows ∧ 3 ≤ f.ncols ∧
    b.xmax = b.xmin + ((f.ncols : K) - 1) * f.deltax ∧
    b.ymax = b.ymin + ((f.nrows : K) - 1) * f.deltay ∧
    b.pgrid.rows = f.nrows ∧ b.pgrid.cols = f.ncols ∧
    b.rgrid.rows = f.nrows ∧ b.rgrid.cols = f.ncols

end PField

/-- Within `u` of some point of the path (including repeated vertices). -/
def NearPath (track : List (K × K)) (u X Y : K) : Prop :=
  ∃ a b : K × K, [a, b] <:+: track ∧ NearSegment a.1 a.2 b.1 b.2 u X Y

end Oneka
