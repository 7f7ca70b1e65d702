import Verif.Py.Binary64
import Verif.Model.Aquifer
import Verif.Model.ProbabilityField
import Verif.Spec.RoundingAquifer
import Verif.Model.Backtrace
import Verif.Model.AnyCapturezone
import Verif.Spec.RoundingZone

/-! # Vocabulary for C116 and later: binary64 numbers, which can overflow and underflow -/

namespace Oneka

/-- The binary64 number `b` is finite and is the number `x`. -/
def Is64 (b : B64) (x : Fl) : Prop := b.v = .fin x.val

/-- The binary64 number nearest to `x`. -/
noncomputable def Fl.to64 (x : Fl) : B64 := B64.of (.fin x.val)

/-- The same model with binary64 parameters. -/
noncomputable def Aquifer.to64 (m : Aquifer Fl) : Aquifer B64 :=
  ⟨m.base.to64, m.conductivity.to64, m.porosity.to64, m.thickness.to64, m.wells.map fun w => ⟨w.xw.to64, w.yw.to64, w.rw.to64, w.qw.to64⟩, m.xo.to64, m.yo.to64, fun i => (m.coef i).to64⟩

/-- Zero, or of a size between `2^-40` and `2^40` (about `10^-12` and `10^12`). -/
def Fl.Ordinary (x : Fl) : Prop := x.val = 0 ∨ (2 ^ (-40 : ℤ) ≤ |x.val| ∧ |x.val| ≤ 2 ^ (40 : ℤ))

/-- All parameters have ordinary sizes, aquifer properties are positive, and there are not absurdly many wells. -/
structure Aquifer.Ordinary (m : Aquifer Fl) : Prop where
  conductivity : m.conductivity.Ordinary ∧ 0 < m.conductivity.val
  porosity : m.porosity.Ordinary ∧ 0 < m.porosity.val
  thickness : m.thickness.Ordinary ∧ 0 < m.thickness.val
  xo : m.xo.Ordinary
  yo : m.yo.Ordinary
  coef : ∀ i, (m.coef i).Ordinary
  wells : ∀ w ∈ m.wells, w.xw.Ordinary ∧ w.yw.Ordinary ∧ w.qw.Ordinary
  number : m.wells.length ≤ 2 ^ 40

/-- Both computations return, with results in the relation `R`, or both raise the same exception. -/
def Alike {α β : Type} (R : α → β → Prop) : Except PyErr α → Except PyErr β → Prop
  | .ok a, .ok b => R a b
  | .error e, .error e' => e = e'
  | _, _ => False

/-- Two binary64 numbers are finite and are the numbers of a pair. -/
def Is64Pair (b : B64 × B64) (x : Fl × Fl) : Prop := Is64 b.1 x.1 ∧ Is64 b.2 x.2

/-- Both computations never return, or both return, with results in the relation `R`. -/
def OptAlike {α β : Type} (R : α → β → Prop) : Option α → Option β → Prop
  | some a, some b => R a b
  | none, none => True
  | _, _ => False

/-- The same call with binary64 arguments. -/
noncomputable def PField.Call.to64 : PField.Call Fl → PField.Call B64
  | .expand a b c d => .expand a.to64 b.to64 c.to64 d.to64
  | .insert ax ay bx by' u => .insert ax.to64 ay.to64 bx.to64 by'.to64 u.to64
  | .rasterize x y u => .rasterize (x.map Fl.to64) (y.map Fl.to64) u.to64
  | .register w => .register w.to64
  | .reset => .reset

/-- All arguments of a call have ordinary sizes. -/
def PField.Call.Ordinary : PField.Call Fl → Prop
  | .expand a b c d => a.Ordinary ∧ b.Ordinary ∧ c.Ordinary ∧ d.Ordinary
  | .insert ax ay bx by' u => ax.Ordinary ∧ ay.Ordinary ∧ bx.Ordinary ∧ by'.Ordinary ∧ u.Ordinary
  | .rasterize x y u => (∀ a ∈ x, a.Ordinary) ∧ (∀ a ∈ y, a.Ordinary) ∧ u.Ordinary
  | .register w => w.Ordinary
  | .reset => True

/-- The field `c` of binary64 numbers holds finite numbers, which are those of `f`: spacings, shape, corners, weights and marks. -/
structure PField.Is64 (c : PField B64) (f : PField Fl) : Prop where
  spacing : Oneka.Is64 c.deltax f.deltax ∧ Oneka.Is64 c.deltay f.deltay
  shape : c.nrows = f.nrows ∧ c.ncols = f.ncols
  body : OptAlike (fun s b => (Oneka.Is64 s.xmin b.xmin ∧ Oneka.Is64 s.xmax b.xmax ∧ Oneka.Is64 s.ymin b.ymin ∧ Oneka.Is64 s.ymax b.ymax) ∧ Oneka.Is64 s.totalWeight b.totalWeight ∧
    (s.pgrid.rows = b.pgrid.rows ∧ s.pgrid.cols = b.pgrid.cols ∧ ∀ i j, Oneka.Is64 (s.pgrid.val i j) (b.pgrid.val i j)) ∧ s.rgrid = b.rgrid) c.body f.body

/-- The two accepted steps have the same time, step size, error estimate and vertex. -/
def Is64Step (a : Accepted B64) (b : Accepted Fl) : Prop := Is64 a.t b.t ∧ Is64 a.dt b.dt ∧ Is64 a.est b.est ∧ Is64Pair a.vertex b.vertex

/-- The two traces are the same: vertices, accepted steps and warning. -/
structure Is64Trace (a : Trace B64) (b : Trace Fl) : Prop where
  vertices : List.Forall₂ Is64Pair a.vertices b.vertices
  steps : List.Forall₂ Is64Step a.steps b.steps
  warning : OptAlike Is64 a.warning b.warning

open Classical in
/-- A function that raises an exception outside `Q`: a computation that uses it and does not fail has called it in `Q` only. -/
noncomputable def within (Q : Fl × Fl → Prop) (f : Fl × Fl → Except PyErr (Fl × Fl)) (q : Fl × Fl) : Except PyErr (Fl × Fl) := if Q q then f q else .error .valueError

/-- The trace from `start`, with 53 digits and unlimited exponents, asks for velocities in `Q` only, and gets them without exception. `Q` is a region of points with ordinary coordinates, off the wells, with velocities up to `M`, which
is not large compared with `tol` and `maxstep`. -/
structure StaysIn [LibM] (m : Aquifer Fl) (confined : Bool) (start : Fl × Fl) (D tol maxstep : Fl) (Q : Fl × Fl → Prop) (M : ℝ) : Prop where
  region : ∀ q, Q q → q.1.Ordinary ∧ q.2.Ordinary ∧ m.exact.OffWells q.1.val q.2.val ∧ ∀ v, m.reverseVelocity confined q = .ok v → ‖fv v‖ ≤ M
  nonneg : 0 ≤ M
  small : M ≤ 2 ^ 40
  tol_way : M * D.val ≤ 2 ^ 37 * tol.val
  maxstep_way : M * D.val ≤ 2 ^ 37 * maxstep.val
  near : ‖fv start‖ ≤ 2 ^ 47 * maxstep.val
  run : ∃ r, computeBacktrace start.1 start.2 D tol maxstep (fun _ => within Q (m.reverseVelocity confined)) = some r ∧ r.warning = none

/-- The cosines and sines of the angles of `n` starting points are not tiny: zero, or of a size from `2^-100` to 2. (The ones that should be zero are about `10^-16` = `2^-53`.) -/
def TrigRange [LibM] (n : ℕ) : Prop :=
  ∀ θ ∈ flAngles n, ((LibM.cos θ).val = 0 ∨ (2 ^ (-100 : ℤ) ≤ |(LibM.cos θ).val| ∧ |(LibM.cos θ).val| ≤ 2)) ∧ ((LibM.sin θ).val = 0 ∨ (2 ^ (-100 : ℤ) ≤ |(LibM.sin θ).val| ∧ |(LibM.sin θ).val| ≤ 2))

/-- `P` is an exact pathline of the model that traces computed with rounding follow up to `δ` (C105), and in the tube around it all coordinates have ordinary sizes, and velocities are up to `2^40`. -/
def OrdinaryFollows [LibM] (m : Aquifer Fl) (confined : Bool) (start : Fl × Fl) (D tol maxstep : Fl) (Qx Qy δ : ℝ) (P : ℝ → ℝ × ℝ) : Prop :=
  ∃ f L M H ρ R ν η μ mm T E N, RoundedFollowed m confined start D tol maxstep Qx Qy δ P f L M H ρ R ν η μ mm T E N ∧
    (∀ q ∈ Tube P T ρ, (2 ^ (-40 : ℤ) ≤ |q.1| ∧ |q.1| ≤ 2 ^ (40 : ℤ)) ∧ (2 ^ (-40 : ℤ) ≤ |q.2| ∧ |q.2| ≤ 2 ^ (40 : ℤ))) ∧ M + ν ≤ 2 ^ 40

end Oneka
