import Verif.Spec.History

/-!
# How far a grid reaches

A field laid out with spacing `d` around `o` starts with the coordinates `o - d, o, o + d` and is extended, one spacing
at a time, until every coordinate met so far lies strictly inside. This file says which positions that
gives and which tracks are therefore recorded where, whatever the umbra, without mentioning grids.
-/

namespace Oneka

/-- The world positions a call shows to the field: the vertices of a track, or two corners of a box. -/
def Event.points {K : Type} : Event K → List (K × K)
  | .track vs _ => vs
  | .expand x0 x1 y0 y1 => [(x0, y0), (x1, y1)]
  | _ => []

/-- A track, its umbra, and every position shown to the field up to and including it. -/
structure Drawn (K : Type) where
  track : List (K × K)
  umbra : K
  seen : List (K × K)

/-- The groups of tracks registered by a history, with their weights. `s` are the positions seen and `p` the
tracks not yet registered when it starts. -/
def drawnGroups {K : Type} : List (Event K) → List (K × K) → List (Drawn K) → List (List (Drawn K) × K)
  | [], _, _ => []
  | .track vs u :: es, s, p => drawnGroups es (s ++ vs) (p ++ [⟨vs, u, s ++ vs⟩])
  | .register w :: es, s, p => (p, w) :: drawnGroups es s []
  | .reset :: es, s, _ => drawnGroups es s []
  | .expand x0 x1 y0 y1 :: es, s, p => drawnGroups es (s ++ [(x0, y0), (x1, y1)]) p

/-- The tracks not yet registered (nor discarded) at the end of a history. -/
def drawnPending {K : Type} : List (Event K) → List (K × K) → List (Drawn K) → List (Drawn K)
  | [], _, p => p
  | .track vs u :: es, s, p => drawnPending es (s ++ vs) (p ++ [⟨vs, u, s ++ vs⟩])
  | .register _ :: es, s, _ => drawnPending es s []
  | .reset :: es, s, _ => drawnPending es s []
  | .expand x0 x1 y0 y1 :: es, s, p => drawnPending es (s ++ [(x0, y0), (x1, y1)]) p

variable {K : Type} [Field K] [LinearOrder K]

/-- `X` lies within one spacing of the interval spanned by `o` and the coordinates in `seen`
(closed on both sides). -/
def InReach (o d : K) (seen : List K) (X : K) : Prop :=
  (o ≤ X + d ∨ ∃ x ∈ seen, x ≤ X + d) ∧ (X - d ≤ o ∨ ∃ x ∈ seen, X - d ≤ x)

/-- Both coordinates of `(X, Y)` lie within one spacing of what has been seen. -/
def Reached (xo yo dx dy : K) (seen : List (K × K)) (X Y : K) : Prop :=
  InReach xo dx (seen.map Prod.fst) X ∧ InReach yo dy (seen.map Prod.snd) Y

/-- One of the tracks passes within its umbra of `(X, Y)`, at a time when `(X, Y)` is already within reach. -/
def Records (xo yo dx dy : K) (ts : List (Drawn K)) (X Y : K) : Prop :=
  ∃ t ∈ ts, NearTrack t.track t.umbra X Y ∧ Reached xo yo dx dy t.seen X Y

open Classical in
/-- The total weight of the groups that record `(X, Y)`, each counted once. -/
noncomputable def recordedWeight (xo yo dx dy : K) (gs : List (List (Drawn K) × K)) (X Y : K) : K :=
  (gs.map fun g => if Records xo yo dx dy g.1 X Y then g.2 else 0).sum

/-- One of the tracks, drawn one after the other when the positions `s` had already been seen, passes within `u` of `(X, Y)` at a time
when `(X, Y)` is within reach. -/
def RecordsInOrder (xo yo dx dy : K) (s : List (K × K)) (u : K) (tracks : List (List (K × K))) (X Y : K) : Prop :=
  ∃ before track after, tracks = before ++ track :: after ∧ NearTrack track u X Y ∧
    Reached xo yo dx dy (s ++ before.flatten ++ track) X Y

end Oneka
