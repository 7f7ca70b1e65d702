import Verif.Model.Oneka

/-!
# Vocabulary for the properties of the entry point: which arguments are acceptable
-/

namespace Oneka

/-- A number (bool, int or float) with a property. -/
def PyVal.NumberWith (v : PyVal) (p : XR → Prop) : Prop := ∃ x, v.num = some x ∧ p x

/-- A number, a pair or a triple of numbers, in ascending order between `lb` and `ub`. -/
def PyVal.DistIn (v : PyVal) (lb ub : XR) : Prop :=
  v.NumberWith (fun x => lb ≤ x ∧ x ≤ ub) ∨
  (∃ a b x y, (v = .tuple [a, b] ∨ v = .list [a, b]) ∧ a.num = some x ∧ b.num = some y ∧ lb ≤ x ∧ x ≤ y ∧ y ≤ ub) ∨
  (∃ a m b x c y, (v = .tuple [a, m, b] ∨ v = .list [a, m, b]) ∧ a.num = some x ∧ m.num = some c ∧ b.num = some y ∧
    lb ≤ x ∧ x ≤ c ∧ c ≤ y ∧ y ≤ ub)

/-- A stochastic well `(xw, yw, rw, q_dist)` with positive radius. -/
def PyVal.IsWell (v : PyVal) : Prop :=
  ∃ x y r q, (v = .tuple [x, y, r, q] ∨ v = .list [x, y, r, q]) ∧ x.NumberWith (fun _ => True) ∧ y.NumberWith (fun _ => True) ∧
    r.NumberWith (fun r => .fin 0 < r) ∧ q.DistIn .ninf .pinf

/-- An observation `(x, y, z_ev, z_std)` with non-negative standard deviation. -/
def PyVal.IsObs (v : PyVal) : Prop :=
  ∃ x y z s, (v = .tuple [x, y, z, s] ∨ v = .list [x, y, z, s]) ∧ x.NumberWith (fun _ => True) ∧ y.NumberWith (fun _ => True) ∧
    z.NumberWith (fun _ => True) ∧ s.NumberWith (fun s => .fin 0 ≤ s)

/-- Arguments that `oneka` should accept. The number of realizations is not mentioned. -/
structure Acceptable (a : PyArgs) : Prop where
  projectname : ∃ s, a.projectname = .str s
  runtime : ∃ s, a.runtime = .str s
  wells : ∃ ws, a.wells = .list ws ∧ (∀ w ∈ ws, w.IsWell) ∧ ∃ k : ℤ, (a.target = .int k ∨ ∃ b : Bool, a.target = .bool b ∧ k = b.toInt) ∧ 0 ≤ k ∧ k < ws.length
  npaths : (∃ n : ℤ, a.npaths = .int n ∧ 0 < n) ∨ a.npaths = .bool true
  duration : a.duration.NumberWith (fun x => x ≠ .fin 0)
  base : a.base.NumberWith (fun _ => True)
  cDist : a.cDist.DistIn (.fin 0) .pinf
  pDist : a.pDist.DistIn (.fin 0) (.fin 1)
  tDist : a.tDist.DistIn (.fin 0) .pinf
  observations : ∃ os, a.observations = .list os ∧ 7 ≤ os.length ∧ ∀ o ∈ os, o.IsObs
  buffer : a.buffer.NumberWith (fun x => .fin 0 < x)
  spacing : a.spacing.NumberWith (fun x => .fin 0 < x)
  umbra : a.umbra.NumberWith (fun x => .fin 0 < x)
  smooth : a.smooth.NumberWith (fun x => .fin 0 < x)
  confined : ∃ b, a.confined = .bool b
  tol : a.tol.NumberWith (fun x => .fin 0 < x)
  maxstep : a.maxstep.NumberWith (fun x => .fin 0 < x)

/-! ## The numbers that arguments stand for -/

/-- The object is the finite number `x`. -/
def PyVal.IsReal (v : PyVal) (x : ℝ) : Prop := v.num = some (.fin x)

/-- The object is the integer `n`. -/
def PyVal.IsInteger (v : PyVal) (n : ℤ) : Prop := v = .int n ∨ ∃ b : Bool, v = .bool b ∧ n = b.toInt

/-- The object is the distribution `d`. -/
def PyVal.Means (v : PyVal) : Dist → Prop
  | .const c => v.IsReal c
  | .tuple l => ∃ vs, v = .tuple vs ∧ List.Forall₂ PyVal.IsReal vs l

/-- The object is the stochastic well `w`. -/
def PyVal.MeansWell (v : PyVal) (w : SWell) : Prop :=
  ∃ x y r q, (v = .tuple [x, y, r, q] ∨ v = .list [x, y, r, q]) ∧ x.IsReal w.xw ∧ y.IsReal w.yw ∧ r.IsReal w.rw ∧ q.Means w.q

/-- The object is the observation `o`. -/
def PyVal.MeansObs (v : PyVal) (o : Obs) : Prop :=
  ∃ x y z s, (v = .tuple [x, y, z, s] ∨ v = .list [x, y, z, s]) ∧ x.IsReal o.x ∧ y.IsReal o.y ∧ z.IsReal o.z ∧ s.IsReal o.std

/-- The arguments `a` are the numbers `n`. -/
structure PyArgs.Denotes (a : PyArgs) (n : Inputs) : Prop where
  target : a.target.IsInteger n.run.target
  npaths : a.npaths.IsInteger n.run.npaths
  duration : a.duration.num = some n.run.duration
  nrealizations : a.nrealizations.IsInteger n.nrealizations
  base : a.base.IsReal n.run.base
  cDist : a.cDist.Means n.run.cDist
  pDist : a.pDist.Means n.run.pDist
  tDist : a.tDist.Means n.run.tDist
  wells : ∃ l, a.wells = .list l ∧ List.Forall₂ PyVal.MeansWell l n.run.wells
  observations : ∃ l, a.observations = .list l ∧ List.Forall₂ PyVal.MeansObs l n.run.obs
  buffer : a.buffer.IsReal n.buffer
  spacing : a.spacing.IsReal n.run.spacing
  umbra : a.umbra.IsReal n.run.umbra
  smooth : a.smooth.IsReal n.smooth
  confined : a.confined = .bool n.run.confined
  tol : a.tol.num = some n.run.tol
  maxstep : a.maxstep.num = some n.run.maxstep

/-- All parameters are positive. -/
def Dist.Pos : Dist → Prop
  | .const c => 0 < c
  | .tuple l => ∀ x ∈ l, 0 < x

/-- The parameters of the conductivity and thickness distributions and all standard deviations are positive. -/
def Inputs.Regular (n : Inputs) : Prop := n.run.cDist.Pos ∧ n.run.tDist.Pos ∧ ∀ o ∈ n.run.obs, 0 < o.std

/-- The dictionary holds the arguments. -/
structure Dict.Records (d : Dict) (a : PyArgs) : Prop where
  projectname : d.get "projectname" = some (.val a.projectname)
  runtime : d.get "runtime" = some (.val a.runtime)
  target : d.get "target" = some (.val a.target)
  npaths : d.get "npaths" = some (.val a.npaths)
  duration : d.get "duration" = some (.val a.duration)
  nrealizations : d.get "nrealizations" = some (.val a.nrealizations)
  base : d.get "base" = some (.val a.base)
  cDist : d.get "c_dist" = some (.val a.cDist)
  pDist : d.get "p_dist" = some (.val a.pDist)
  tDist : d.get "t_dist" = some (.val a.tDist)
  wells : d.get "stochastic_wells" = some (.val a.wells)
  observations : d.get "observations" = some (.val a.observations)
  buffer : d.get "buffer" = some (.val a.buffer)
  spacing : d.get "spacing" = some (.val a.spacing)
  umbra : d.get "umbra" = some (.val a.umbra)
  smooth : d.get "smooth" = some (.val a.smooth)
  confined : d.get "confined" = some (.val a.confined)
  tol : d.get "tol" = some (.val a.tol)
  maxstep : d.get "maxstep" = some (.val a.maxstep)

/-- The realizations recorded in the log, in order. -/
def realizations (es : List Effect) : List RealizationLog :=
  es.filterMap fun | .log (.realization l) => some l | _ => none

/-- The figures, in order. -/
def figures (es : List Effect) : List Figure :=
  es.filterMap fun | .figure f => some f | _ => none

/-- The lines of the decile table, in order. -/
def decileLines (es : List Effect) : List (ℝ × ℝ) :=
  es.filterMap fun | .log (.decile p a) => some (p, a) | _ => none

/-- The summary tables, in order. -/
def summaries (es : List Effect) : List (List ColumnStats) :=
  es.filterMap fun | .log (.summary c) => some c | _ => none

/-- The areas in square metres in the log, in order. -/
def areas (es : List Effect) : List ℝ :=
  es.filterMap fun | .log (.area a) => some a | _ => none

/-- The areas in acres in the log, in order. -/
def acreages (es : List Effect) : List ℝ :=
  es.filterMap fun | .log (.acres a) => some a | _ => none

/-- What `filter_obs` logged, in order. -/
def filterLines (es : List Effect) : List FilterLine :=
  es.filterMap fun | .log (.filter l) => some l | _ => none

/-- The arguments in the log: label and value, in order. -/
def logged (es : List Effect) : List (String × PyVal) :=
  es.filterMap fun | .log (.value s v) => some (s, v) | _ => none

/-! ## Files -/

/-- The effect touches a file. -/
def Effect.OnFiles : Effect → Prop
  | .opened _ => True
  | .wrote _ _ => True
  | _ => False

/-- A point in time: the fields are in their ranges. -/
structure DateTime.Valid (t : DateTime) : Prop where
  year : t.year < 10000
  month : t.month ≤ 12
  day : t.day ≤ 31
  hour : t.hour < 24
  minute : t.minute < 60
  second : t.second < 62

end Oneka

namespace Oneka

/-- A triangular distribution whose minimum is its maximum. -/
def Dist.Pointlike (d : Dist) : Prop := ∃ x m, d = .tuple [x, m, x]

/-- No distribution is a triangular one with equal ends. -/
def Inputs.Spread (n : Inputs) : Prop :=
  ¬ n.run.cDist.Pointlike ∧ ¬ n.run.pDist.Pointlike ∧ ¬ n.run.tDist.Pointlike ∧ ∀ w ∈ n.run.wells, ¬ w.q.Pointlike

/-- What is logged about the arguments (label and value). -/
def PyArgs.report (a : PyArgs) (stochastic : Bool) (wells obs : List PyVal) : List (String × PyVal) :=
  [("project name", a.projectname), ("run time", a.runtime), ("target", a.target), ("npaths", a.npaths), ("duration", a.duration),
    (if stochastic then "nrealizations STOCHASTIC" else "nrealizations DETERMINISTIC", a.nrealizations),
    ("base", a.base), ("c_dist", a.cDist), ("p_dist", a.pDist), ("t_dist", a.tDist), ("buffer", a.buffer), ("spacing", a.spacing),
    ("umbra", a.umbra), ("smooth", a.smooth), ("confined", a.confined), ("tol", a.tol), ("maxstep", a.maxstep),
    ("stochastic_wells", .int wells.length)] ++ wells.map (fun w => ("    ", w)) ++ [("observations", .int obs.length)] ++ obs.map (fun o => ("    ", o))

end Oneka
