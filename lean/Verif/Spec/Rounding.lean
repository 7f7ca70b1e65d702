import Verif.Py.Round
import Verif.Spec.Reach

/-!
# Vocabulary for computing with rounded numbers

Half a unit in the last place of 1 is `eps = 2^-53`, about 1.1e-16.
-/

namespace Oneka

/-- half a unit in the last of the 53 binary digits of 1 -/
noncomputable def eps : ℝ := 2 ^ (-53 : ℤ)

/-- An integer multiple of `2^k`. -/
def MultipleOf (k : ℤ) (x : ℝ) : Prop := ∃ n : ℤ, x = n * 2 ^ k

/-- The contents of a field computed with rounding, read as real numbers. -/
noncomputable def Body.exact (b : Body Fl) : Body ℝ :=
  ⟨b.xmin.val, b.xmax.val, b.ymin.val, b.ymax.val, b.totalWeight.val,
    ⟨b.pgrid.rows, b.pgrid.cols, fun i j => (b.pgrid.val i j).val⟩, b.rgrid⟩

/-- A field computed with rounding, read as a field of real numbers: nothing is changed but the type of the numbers. -/
noncomputable def PField.exact (f : PField Fl) : PField ℝ := ⟨f.deltax.val, f.deltay.val, f.nrows, f.ncols, f.body.map Body.exact⟩

/-- An event read over the real numbers, its umbra changed by `δ`. -/
noncomputable def Event.exact (δ : ℝ) : Event Fl → Event ℝ
  | .track vs u => .track (vs.map fun v => (v.1.val, v.2.val)) (u.val + δ)
  | .register w => .register w.val
  | .reset => .reset
  | .expand a b c d => .expand a.val b.val c.val d.val

/-- The weights registered by a history. -/
def registeredWeights {F : Type} (es : List (Event F)) : List F :=
  es.filterMap fun | .register w => some w | _ => none

/-- One coordinate axis: coordinates are multiples of `2^unit` and at most `reach`, spacings are multiples of `2^spacingUnit`. -/
structure Axis where
  unit : ℤ
  spacingUnit : ℤ
  reach : ℝ

/-- Origin `o` and spacing `d` fit the axis: they are such multiples, and coordinates up to the reach and one spacing, and differences of two of them, have
at most 53 binary digits. -/
structure Axis.Fits (A : Axis) (o d : ℝ) : Prop where
  o_mul : MultipleOf A.unit o
  d_mul : MultipleOf A.spacingUnit d
  units : A.unit ≤ A.spacingUnit
  o_le : |o| ≤ A.reach
  position : A.reach + d ≤ 2 ^ 53 * 2 ^ A.unit
  width : 2 * (A.reach + d) ≤ 2 ^ 53 * 2 ^ A.spacingUnit

/-- Coordinates are within reach, segments and umbras at most `S` long, and `η` is at least 2000 roundings of `S²/umbra`; no weight
is negative. -/
def Event.Moderate (A B : Axis) (S η : ℝ) : Event Fl → Prop
  | .track vs u => vs ≠ [] ∧ (∀ p ∈ vs, |p.1.val| ≤ A.reach ∧ |p.2.val| ≤ B.reach) ∧
      (∀ a b, [a, b] <:+: vs → (b.1.val - a.1.val) ^ 2 + (b.2.val - a.2.val) ^ 2 ≤ S ^ 2) ∧
      η ≤ u.val ∧ u.val ≤ S ∧ 2000 * (eps * S ^ 2) ≤ u.val * η
  | .register x => 0 ≤ x.val
  | .reset => True
  | .expand x0 x1 y0 y1 => x0.val ≤ x1.val ∧ y0.val ≤ y1.val ∧ |x0.val| ≤ A.reach ∧ |x1.val| ≤ A.reach ∧ |y0.val| ≤ B.reach ∧ |y1.val| ≤ B.reach

/-- The coordinates handed to a call are at most `Qx`, `Qy`. -/
def PField.Call.Within (Qx Qy : ℝ) : Call Fl → Prop
  | .expand x0 x1 y0 y1 => |x0.val| ≤ Qx ∧ |x1.val| ≤ Qx ∧ |y0.val| ≤ Qy ∧ |y1.val| ≤ Qy
  | .rasterize x y _ => (∀ z ∈ x, |z.val| ≤ Qx) ∧ ∀ z ∈ y, |z.val| ≤ Qy
  | _ => True

/-- The exceptions that a call on the field may raise: `expand` with reversed limits, `insert`, `register` and `reset` before there is a grid,
`rasterize` with an empty list or with fewer y than x. -/
def PField.MayRaise (f : PField Fl) : Call Fl → PyErr → Prop
  | .expand x0 x1 y0 y1, e => e = .rangeError ∧ (x1.val < x0.val ∨ y1.val < y0.val)
  | .insert .., e => e = .attributeError ∧ f.body = none
  | .rasterize x y _, e => (e = .valueError ∧ (x = [] ∨ y = [])) ∨ (e = .indexError ∧ y.length < x.length)
  | .register _, e => e = .attributeError ∧ f.body = none
  | .reset, e => e = .attributeError ∧ f.body = none

end Oneka
