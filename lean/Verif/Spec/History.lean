import Verif.Spec.Field
import Mathlib.Algebra.BigOperators.Group.List.Basic

/-!
# Histories of calls and the realizations they record

A *realization* is a group of particle tracks followed by one `register(weight)`. This file says, without
mentioning grids, which realizations a history of calls has recorded.
-/

namespace Oneka

/-- `f` can be obtained from the constructor by some finite history of method calls (any arguments; exceptions are caught
by the caller). -/
def PField.Reachable {K : Type} [Field K] [LinearOrder K] [FloorRing K] (f : PField K) : Prop :=
  ∃ (dx dy : K) (xo yo : Option K) (f0 : PField K) (cs : List (PField.Call K)),
    PField.new dx dy xo yo = .ok f0 ∧ f0.run cs = some f

/-- `f` can be obtained from a field constructed with origin `(xo, yo)`. -/
def PField.ReachableFrom {K : Type} [Field K] [LinearOrder K] [FloorRing K] (xo yo : K) (f : PField K) : Prop :=
  ∃ (dx dy : K) (f0 : PField K) (cs : List (PField.Call K)),
    PField.new dx dy (some xo) (some yo) = .ok f0 ∧ f0.run cs = some f

/-- What a user does with a field. -/
inductive Event (K : Type)
  | track (vs : List (K × K)) (umbra : K)
  | register (weight : K)
  | reset
  | expand (xmin xmax ymin ymax : K)

/-- The method call of an event; a track is passed as its list of abscissae and its list of ordinates. -/
def Event.call {K : Type} : Event K → PField.Call K
  | .track vs u => .rasterize (vs.map Prod.fst) (vs.map Prod.snd) u
  | .register w => .register w
  | .reset => .reset
  | .expand a b c d => .expand a b c d

/-- A registered group of tracks (each with its umbra) and its weight. -/
structure Realization (K : Type) where
  tracks : List (List (K × K) × K)
  weight : K

/-- The realizations registered by a history; `p` are the tracks not yet registered when it starts. -/
def registered {K : Type} : List (Event K) → List (List (K × K) × K) → List (Realization K)
  | [], _ => []
  | .track vs u :: es, p => registered es (p ++ [(vs, u)])
  | .register w :: es, p => ⟨p, w⟩ :: registered es []
  | .reset :: es, _ => registered es []
  | .expand _ _ _ _ :: es, p => registered es p

/-- The tracks not yet registered (nor discarded) at the end of a history. -/
def pending {K : Type} : List (Event K) → List (List (K × K) × K) → List (List (K × K) × K)
  | [], p => p
  | .track vs u :: es, p => pending es (p ++ [(vs, u)])
  | .register _ :: es, _ => pending es []
  | .reset :: es, _ => pending es []
  | .expand _ _ _ _ :: es, p => pending es p

variable {K : Type} [Field K] [LinearOrder K]

/-- Some track passes within its umbra of `(X, Y)`. -/
def Visits (tracks : List (List (K × K) × K)) (X Y : K) : Prop :=
  ∃ t ∈ tracks, NearTrack t.1 t.2 X Y

open Classical in
/-- The total weight of those realizations that visited `(X, Y)`, each counted once. -/
noncomputable def visitWeight (rs : List (Realization K)) (X Y : K) : K :=
  (rs.map fun r => if Visits r.tracks X Y then r.weight else 0).sum

/-- Tracks are not empty, umbras are not negative, boxes are ordered. -/
def Event.Valid : Event K → Prop
  | .track vs u => vs ≠ [] ∧ 0 ≤ u
  | .expand x0 x1 y0 y1 => x0 ≤ x1 ∧ y0 ≤ y1
  | _ => True

/-- The umbra does not exceed the spacing. -/
def Event.Narrow (dx dy : K) : Event K → Prop
  | .track _ u => u ≤ dx ∧ u ≤ dy
  | _ => True

/-- The events of a list of realizations, one after the other. -/
def Realization.events {K : Type} (r : Realization K) : List (Event K) :=
  (r.tracks.map fun t => Event.track t.1 t.2) ++ [Event.register r.weight]

/-- Same weight and same tracks in some order. -/
def Realization.Same {K : Type} (r s : Realization K) : Prop := r.weight = s.weight ∧ r.tracks.Perm s.tracks

/-- The same realizations up to the order of the realizations and the order of the tracks inside each. -/
def SameUpToOrder {K : Type} (rs ss : List (Realization K)) : Prop :=
  ∃ ts, rs.Perm ts ∧ List.Forall₂ Realization.Same ts ss

/-- A call that only draws: it neither registers nor resets. -/
def Drawing : PField.Call K → Prop
  | .expand .. => True
  | .insert .. => True
  | .rasterize .. => True
  | .register _ => False
  | .reset => False

end Oneka
