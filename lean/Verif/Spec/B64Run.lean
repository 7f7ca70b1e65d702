import Verif.Model.B64Run
import Verif.Spec.Binary64
import Verif.Spec.FlRun

/-! # Vocabulary for C126: whole runs in binary64 arithmetic -/

namespace Oneka

/-- The same observation in binary64. -/
noncomputable def FlObs.to64 (o : FlObs) : B64Obs := ⟨o.x.to64, o.y.to64, o.z.to64, o.std.to64⟩

/-- The same distribution in binary64. -/
noncomputable def FlDist.to64 : FlDist → B64Dist
  | .const c => .const c.to64
  | .pair a b => .pair a.to64 b.to64
  | .triple a m b => .triple a.to64 m.to64 b.to64

/-- The same well in binary64. -/
noncomputable def FlSWell.to64 (w : FlSWell) : B64SWell := ⟨w.xw.to64, w.yw.to64, w.rw.to64, w.q.to64⟩

/-- The same arguments in binary64. -/
noncomputable def FlRunArgs.to64 (a : FlRunArgs) : B64RunArgs :=
  ⟨a.target, a.npaths, a.duration.to64, a.base.to64, a.cDist.to64, a.pDist.to64, a.tDist.to64, a.wells.map FlSWell.to64, a.obs.map FlObs.to64, a.spacing.to64, a.umbra.to64, a.confined, a.tol.to64, a.maxstep.to64⟩

/-- The entries of a binary64 observation are finite and are those of `o`. -/
def IsObs64 (b : B64Obs) (o : FlObs) : Prop := Is64 b.x o.x ∧ Is64 b.y o.y ∧ Is64 b.z o.z ∧ Is64 b.std o.std

/-- All entries of a vector are finite and the same. -/
def IsVec64 (b : Fin 6 → B64) (c : Fin 6 → Fl) : Prop := ∀ i, Is64 (b i) (c i)

/-- All entries of a row of the weighted system are finite and the same. -/
def IsRow64 (b : (Fin 6 → B64) × B64) (c : (Fin 6 → Fl) × Fl) : Prop := IsVec64 b.1 c.1 ∧ Is64 b.2 c.2

/-- All entries of a matrix are finite and the same. -/
def IsMat64 (b : Matrix (Fin 6) (Fin 6) B64) (c : Matrix (Fin 6) (Fin 6) Fl) : Prop := ∀ i j, Is64 (b i j) (c i j)

/-- An observation with entries of ordinary sizes and a positive standard deviation. -/
structure FlObs.Ordinary (o : FlObs) : Prop where
  x : o.x.Ordinary
  y : o.y.Ordinary
  z : o.z.Ordinary
  std : o.std.Ordinary ∧ 0 < o.std.val

/-- A distribution with entries of ordinary sizes. -/
def FlDist.Ordinary : FlDist → Prop
  | .const c => c.Ordinary
  | .pair a b => a.Ordinary ∧ b.Ordinary
  | .triple a m b => a.Ordinary ∧ m.Ordinary ∧ b.Ordinary

/-- A draw from [0, 1] that is zero or not tiny. (numpy's draws are multiples of `2^-53`.) -/
def Fl.IsDraw (u : Fl) : Prop := u.val = 0 ∨ (2 ^ (-60 : ℤ) ≤ u.val ∧ u.val ≤ 1)

/-- All arguments of a run have ordinary sizes, times and steps are positive, and no observation is at a well. -/
structure FlRunArgs.Ordinary (a : FlRunArgs) : Prop where
  npaths : a.npaths ≤ 2 ^ 40
  duration : a.duration.Ordinary ∧ 0 < a.duration.val
  tol : a.tol.Ordinary ∧ 0 < a.tol.val
  maxstep : a.maxstep.Ordinary ∧ 0 < a.maxstep.val
  base : a.base.Ordinary
  spacing : a.spacing.Ordinary
  umbra : a.umbra.Ordinary
  properties : a.cDist.Ordinary ∧ a.pDist.Ordinary ∧ a.tDist.Ordinary
  wells : ∀ w ∈ a.wells, w.xw.Ordinary ∧ w.yw.Ordinary ∧ w.rw.Ordinary ∧ w.q.Ordinary
  number : a.wells.length ≤ 2 ^ 40
  obs : ∀ o ∈ a.obs, o.Ordinary
  away : ∀ o ∈ a.obs, ∀ w ∈ a.wells, (o.x.val, o.y.val) ≠ (w.xw.val, w.yw.val)

/-- The aquifer properties `c`, `p`, `t` and discharges `qs` that the draws `u 0, u 1, …` give. -/
structure FlRunArgs.Drawn (a : FlRunArgs) (u : ℕ → Fl) (c p t : Fl) (qs : List Fl) : Prop where
  count : qs.length = a.wells.length
  wells : ∀ (j : ℕ) (s : FlSWell) (v : Fl), a.wells[j]? = some s → qs[j]? = some v → s.q.sample (u j) = .ok v
  conductivity : a.cDist.sample (u a.wells.length) = .ok c
  porosity : a.pDist.sample (u (a.wells.length + 1)) = .ok p
  thickness : a.tDist.sample (u (a.wells.length + 2)) = .ok t

/-- Aquifer properties and discharges of ordinary sizes; the aquifer properties are positive. -/
def OrdinaryDraw (c p t : Fl) (qs : List Fl) : Prop :=
  (c.Ordinary ∧ 0 < c.val) ∧ (p.Ordinary ∧ 0 < p.val) ∧ (t.Ordinary ∧ 0 < t.val) ∧ ∀ q ∈ qs, q.Ordinary

/-- On finite numbers, numpy's linear algebra in binary64 does what `la` does. (Since `la` is arbitrary, this says that results for finite numbers are finite.) -/
structure B64LinAlg.Extends (la64 : B64LinAlg) (la : FlLinAlg) : Prop where
  lstsq : ∀ rows64 rows, List.Forall₂ IsRow64 rows64 rows → Alike IsVec64 (la64.lstsq rows64) (la.lstsq rows)
  inverse : ∀ A64 A, List.Forall₂ IsVec64 A64 A → Alike IsMat64 (la64.inv (la64.normal A64)) (la.inv (la.normal A))

/-- On finite numbers, the draw of a normal vector in binary64 is the draw `mvn`. -/
def NormalExtends (mvn64 : (Fin 6 → B64) → Matrix (Fin 6) (Fin 6) B64 → Except PyErr (Fin 6 → B64)) (mvn : (Fin 6 → Fl) → Matrix (Fin 6) (Fin 6) Fl → Except PyErr (Fin 6 → Fl)) : Prop :=
  ∀ ev64 ev cov64 cov, IsVec64 ev64 ev → IsMat64 cov64 cov → Alike IsVec64 (mvn64 ev64 cov64) (mvn ev cov)

/-- The traces of the model `m` from all starting points around the target `w` stay in regions with ordinary coordinates, and its coefficients have ordinary sizes. -/
def FlRunArgs.Stays [LibM] (a : FlRunArgs) (w : FlSWell) (m : Aquifer Fl) : Prop :=
  (∀ i, (m.coef i).Ordinary) ∧ ∀ θ ∈ flAngles a.npaths, ∃ Q M, StaysIn m a.confined (flStart w.xw w.yw w.rw θ) a.duration a.tol a.maxstep Q M

/-- The curve of the report in binary64 is finite and is the curve `im`. -/
structure B64Impact.Is64 (c : B64Impact) (im : FlImpact) : Prop where
  pr : List.Forall₂ Oneka.Is64 c.pr im.pr
  area : List.Forall₂ Oneka.Is64 c.area im.area
  drawn : c.lo = im.lo ∧ c.hi = im.hi

end Oneka
