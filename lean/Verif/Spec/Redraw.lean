import Verif.Spec.History

/-!
# Different descriptions of the same track

A track is passed as a list of vertices. The same curve can be written down in many ways: from the other end, with a vertex
repeated, or with additional vertices on its segments.
-/

namespace Oneka

variable {K : Type} [Field K] [LinearOrder K]

/-- The two lists of vertices describe the same curve: one is obtained from the other by reversing, by repeating vertices, by
adding vertices on the segments, and by undoing these. -/
inductive Redrawn : List (K × K) → List (K × K) → Prop
  | refl (vs) : Redrawn vs vs
  | reverse (vs) : Redrawn vs vs.reverse
  | repeated (pre a post) : Redrawn (pre ++ a :: post) (pre ++ a :: a :: post)
  | refined (pre) (a b : K × K) (post) (t : K) (h0 : 0 ≤ t) (h1 : t ≤ 1) :
      Redrawn (pre ++ a :: b :: post) (pre ++ a :: (a.1 + t * (b.1 - a.1), a.2 + t * (b.2 - a.2)) :: b :: post)
  | symm {vs ws} : Redrawn vs ws → Redrawn ws vs
  | trans {us vs ws} : Redrawn us vs → Redrawn vs ws → Redrawn us ws

/-- The same call, except that a track may be described differently. -/
inductive Event.SameCurve : Event K → Event K → Prop
  | refl (e) : Event.SameCurve e e
  | track {vs ws} (u) : Redrawn vs ws → Event.SameCurve (.track vs u) (.track ws u)

/-- Nothing observable tells the two fields apart: the nodes, the weight and the mark at every position, and the total weight. -/
def PField.Alike (f g : PField K) : Prop :=
  f.deltax = g.deltax ∧ f.deltay = g.deltay ∧ f.total = g.total ∧
    ∀ X Y, (f.IsNode X Y ↔ g.IsNode X Y) ∧ f.weightAt X Y = g.weightAt X Y ∧ (f.markedAt X Y ↔ g.markedAt X Y)

end Oneka
