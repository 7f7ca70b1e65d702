import Verif.Py.Binary64
import Verif.Model.FlRun
import Verif.Model.FlReport
import Verif.Model.AnyCapturezone

/-!
# Model of the filter, of a whole run and of the report in binary64 arithmetic

As `FlUtilities.lean`, `FlVariate.lean`, `FlFit.lean`, `FlRun.lean` and `FlReport.lean`, with numbers that can overflow and underflow (oneka/utilities.py:34-144, oneka/stochastic.py:76-342, oneka/deterministic.py:65-235,
oneka/model.py:430-606, oneka/visualize.py:354-397, oneka/oneka.py:284-287). The same simplifications; in addition, a square that overflows is infinite here, while `**` of Python floats raises OverflowError, and a
quotient of Python floats by zero follows `XR`, while Python raises ZeroDivisionError. C126 shows that neither happens when the numbers have ordinary sizes.
-/

namespace Oneka

/-- `np.hypot` (oneka/utilities.py:100, 115), given by what it does on numbers with 53 digits, the result brought into the range. -/
noncomputable def b64Hypot [LibObs] (a b : B64) : B64 :=
  match a.v, b.v with
  | .fin x, .fin y => B64.of (.fin (LibObs.hypot (Fl.of x) (Fl.of y)).val)
  | _, _ => B64.of .pinf

/-- `x**2` (oneka/utilities.py:122-123, oneka/model.py:555, 563), as `b64Hypot`. -/
noncomputable def b64Square [LibObs] (a : B64) : B64 :=
  match a.v with
  | .fin x => B64.of (.fin (LibObs.square (Fl.of x)).val)
  | .nan => B64.of .nan
  | _ => B64.of .pinf

/-! ## The filter -/

/-- An observation (oneka/utilities.py:43-57). -/
structure B64Obs where
  x : B64
  y : B64
  z : B64
  std : B64

namespace B64Util

variable [LibM] [LibObs]

/-- oneka/utilities.py:98-102 -/
noncomputable def awayFromWells (buffer : B64) (ob : B64Obs) : List (B64 × B64) → Bool
  | [] => true
  | we :: wellfield =>
    if b64Hypot (ob.x - we.1) (ob.y - we.2) ≤ buffer then false
    else awayFromWells buffer ob wellfield

/-- oneka/utilities.py:95-106 -/
noncomputable def removeNear (buffer : B64) (wellfield : List (B64 × B64)) : List B64Obs → List B64Obs
  | [] => []
  | ob :: observations =>
    if awayFromWells buffer ob wellfield then ob :: removeNear buffer wellfield observations
    else removeNear buffer wellfield observations

/-- oneka/utilities.py:119-124 -/
noncomputable def accumulate : List B64Obs → B64 → B64 → Except PyErr (B64 × B64)
  | [], num, den => .ok (num, den)
  | o :: os, num, den =>
    if b64Square o.std = 0 then .error .zeroDivisionError
    else accumulate os (num + o.z / b64Square o.std) (den + ((1 : ℕ) : B64) / b64Square o.std)

/-- oneka/utilities.py:118-128 -/
noncomputable def mergeGroup (o : B64Obs) (os : List B64Obs) : Except PyErr B64Obs :=
  match os with
  | [] => .ok o
  | _ :: _ =>
    match accumulate (o :: os) ((0 : ℕ) : B64) ((0 : ℕ) : B64) with
    | .error e => .error e
    | .ok (num, den) => .ok ⟨o.x, o.y, num / den, PyMath.sqrt (((1 : ℕ) : B64) / den)⟩

/-- oneka/utilities.py:110-129 -/
noncomputable def mergeRuns : List B64Obs → Except PyErr (List B64Obs)
  | [] => .ok []
  | o :: rest =>
    match mergeGroup o (rest.takeWhile fun p => decide (b64Hypot (o.x - p.x) (o.y - p.y) < ((1 : ℕ) : B64))) with
    | .error e => .error e
    | .ok r =>
      match mergeRuns (rest.dropWhile fun p => decide (b64Hypot (o.x - p.x) (o.y - p.y) < ((1 : ℕ) : B64))) with
      | .error e => .error e
      | .ok rs => .ok (r :: rs)
termination_by l => l.length
decreasing_by
  simp only [List.length_cons]
  exact Nat.lt_succ_of_le (List.dropWhile_suffix _).length_le

/-- oneka/utilities.py:34-144 `filter_obs`. -/
noncomputable def filterObs (observations : List B64Obs) (wellfield : List (B64 × B64)) (buffer : B64) : Except PyErr (List B64Obs) :=
  mergeRuns (removeNear buffer wellfield observations)

end B64Util

/-! ## The random parameters -/

/-- A distribution argument (oneka/stochastic.py:296-304). -/
inductive B64Dist
  | const (c : B64)
  | pair (a b : B64)
  | triple (a m b : B64)

section
variable [LibM]

/-- `np.random.uniform(low, high)` as numpy computes it. (oneka/stochastic.py:300) -/
noncomputable def b64Uniform (low high u : B64) : B64 := low + (high - low) * u

/-- `np.random.triangular(left, mode, right)` as numpy computes it. (oneka/stochastic.py:302) -/
noncomputable def b64Triangular (left mode right u : B64) : Except PyErr B64 :=
  if mode < left then .error .valueError
  else if right < mode then .error .valueError
  else if left = right then .error .valueError
  else
    let base := right - left
    let leftbase := mode - left
    let ratio := leftbase / base
    let leftprod := leftbase * base
    let rightprod := (right - mode) * base
    if u ≤ ratio then .ok (left + PyMath.sqrt (u * leftprod))
    else .ok (right - PyMath.sqrt ((((1 : ℕ) : B64) - u) * rightprod))

/-- oneka/stochastic.py:274-306 `generate_random_variate`. -/
noncomputable def B64Dist.sample (d : B64Dist) (u : B64) : Except PyErr B64 :=
  match d with
  | .const c => .ok c
  | .pair a b => .ok (b64Uniform a b u)
  | .triple a m b => b64Triangular a m b u

omit [LibM] in
/-- oneka/stochastic.py:310-342 `compute_variate_mean`. -/
noncomputable def B64Dist.mean : B64Dist → B64
  | .const c => c
  | .pair a b => (a + b) / ((2 : ℕ) : B64)
  | .triple a m b => (a + m + b) / ((3 : ℕ) : B64)

end

/-! ## The fit -/

/-- numpy's linear algebra on matrices of binary64 numbers (oneka/model.py:598-604): `lstsq` takes the rows of the weighted system, `normal` is `matmul(WA.T, WA)`. -/
structure B64LinAlg where
  lstsq : List ((Fin 6 → B64) × B64) → Except PyErr (Fin 6 → B64)
  normal : List (Fin 6 → B64) → Matrix (Fin 6) (Fin 6) B64
  inv : Matrix (Fin 6) (Fin 6) B64 → Except PyErr (Matrix (Fin 6) (Fin 6) B64)

namespace Aquifer

variable [LibM] [LibObs]

/-- oneka/model.py:551-559: expected value and standard deviation of the potential at an observation. -/
noncomputable def b64Fosm (m : Aquifer B64) (o : B64Obs) : Except PyErr (B64 × B64) :=
  let head := o.z - m.base
  if m.thickness ≤ head then
    .ok (m.conductivity * m.thickness * (head - PyMath.q (1/2) * m.thickness), m.conductivity * m.thickness * o.std)
  else if 0 < head then
    .ok (PyMath.q (1/2) * m.conductivity * (b64Square head + b64Square o.std), m.conductivity * head * o.std)
  else .error .rangeError

/-- oneka/model.py:546-565: one row of the weighted system. A zero standard deviation raises ZeroDivisionError without wells. -/
noncomputable def b64FitRow (m : Aquifer B64) (xo yo : B64) (o : B64Obs) : Except PyErr ((Fin 6 → B64) × B64) :=
  match m.b64Fosm o with
  | .error e => .error e
  | .ok (potEv, potStd) =>
    let dx := o.x - xo
    let dy := o.y - yo
    if m.wells.isEmpty && decide (potStd = 0) then .error .zeroDivisionError
    else .ok (fun i => (![b64Square dx, b64Square dy, dx * dy, dx, dy, ((1 : ℕ) : B64)] : Fin 6 → B64) i / potStd, (potEv - m.potentialWells o.x o.y) / potStd)

/-- oneka/model.py:497-567 `construct_fit`. -/
noncomputable def b64ConstructFit (m : Aquifer B64) (xo yo : B64) : List B64Obs → Except PyErr (List ((Fin 6 → B64) × B64))
  | [] => .ok []
  | o :: os =>
    match m.b64FitRow xo yo o with
    | .error e => .error e
    | .ok r =>
      match m.b64ConstructFit xo yo os with
      | .error e => .error e
      | .ok rs => .ok (r :: rs)

/-- oneka/model.py:430-494 `fit_regional_flow` with `compute_fit` (571-606): the model afterwards, and the returned pair or the exception. -/
noncomputable def b64FitRegionalFlow (la : B64LinAlg) (m : Aquifer B64) (obs : List B64Obs) (xo yo : B64) : Aquifer B64 × Except PyErr ((Fin 6 → B64) × Matrix (Fin 6) (Fin 6) B64) :=
  match m.b64ConstructFit xo yo obs with
  | .error e => (m, .error e)
  | .ok rows =>
    match la.lstsq rows with
    | .error e => (m, .error e)
    | .ok ev =>
      match la.inv (la.normal (rows.map Prod.fst)) with
      | .error e => (m, .error e)
      | .ok cov => ({ m with xo := xo, yo := yo, coef := ev }, .ok (ev, cov))

end Aquifer

/-! ## The runs -/

/-- A stochastic well `(xw, yw, rw, q_dist)`, oneka/stochastic.py:126-140. -/
structure B64SWell where
  xw : B64
  yw : B64
  rw : B64
  q : B64Dist

/-- The arguments common to both kinds of run (oneka/stochastic.py:76-81, oneka/deterministic.py:65-70). -/
structure B64RunArgs where
  target : ℤ
  npaths : ℕ
  duration : B64
  base : B64
  cDist : B64Dist
  pDist : B64Dist
  tDist : B64Dist
  wells : List B64SWell
  obs : List B64Obs
  spacing : B64
  umbra : B64
  confined : Bool
  tol : B64
  maxstep : B64

/-- `stochastic_wells[target]` (oneka/stochastic.py:211, oneka/deterministic.py:177): Python indexing. -/
def b64GetWell (wells : List B64SWell) (target : ℤ) : Except PyErr B64SWell :=
  let i := if target < 0 then target + wells.length else target
  if i < 0 then .error .indexError
  else
    match wells[i.toNat]? with
    | none => .error .indexError
    | some w => .ok w

/-- oneka/stochastic.py:224-228 and oneka/deterministic.py:182-186: the wells with discharges `q w j` (`j`: the number of the call). -/
def b64DrawWells (q : B64Dist → ℕ → Except PyErr B64) : List B64SWell → ℕ → Except PyErr (List (Well B64))
  | [], _ => .ok []
  | w :: ws, j =>
    match q w.q j with
    | .error e => .error e
    | .ok v =>
      match b64DrawWells q ws (j + 1) with
      | .error e => .error e
      | .ok r => .ok (⟨w.xw, w.yw, w.rw, v⟩ :: r)

/-- oneka/stochastic.py:222-236 and oneka/deterministic.py:180-194: wells, aquifer properties, model. -/
noncomputable def b64DrawModel (a : B64RunArgs) (q : B64Dist → ℕ → Except PyErr B64) : Except PyErr (Aquifer B64) :=
  match b64DrawWells q a.wells 0 with
  | .error e => .error e
  | .ok ws =>
    match q a.cDist a.wells.length with
    | .error e => .error e
    | .ok c =>
      match q a.pDist (a.wells.length + 1) with
      | .error e => .error e
      | .ok p =>
        match q a.tDist (a.wells.length + 2) with
        | .error e => .error e
        | .ok t => .ok ⟨a.base, c, p, t, ws, 0, 0, fun _ => 0⟩

section
variable [LibM] [LibObs]

/-- oneka/stochastic.py:222-241 and oneka/deterministic.py:180-199: the model that is traced. `q` draws a variate, `coefs` turns the fitted expected values and covariances into coefficients. -/
noncomputable def b64Realization (a : B64RunArgs) (la : B64LinAlg) (target : B64SWell) (q : B64Dist → ℕ → Except PyErr B64)
    (coefs : (Fin 6 → B64) → Matrix (Fin 6) (Fin 6) B64 → Except PyErr (Fin 6 → B64)) : Except PyErr (Aquifer B64) :=
  match b64DrawModel a q with
  | .error e => .error e
  | .ok mo =>
    match mo.b64FitRegionalFlow la a.obs target.xw target.yw with
    | (_, .error e) => .error e
    | (mo', .ok (ev, cov)) =>
      match coefs ev cov with
      | .error e => .error e
      | .ok c => .ok { mo' with coef := c }

/-- oneka/stochastic.py:222-265 and oneka/deterministic.py:180-233: one realization: the field afterwards, and whether it raised. `none`: never ends. -/
noncomputable def b64Realize (a : B64RunArgs) (la : B64LinAlg) (target : B64SWell) (q : B64Dist → ℕ → Except PyErr B64)
    (coefs : (Fin 6 → B64) → Matrix (Fin 6) (Fin 6) B64 → Except PyErr (Fin 6 → B64)) (f : PField B64) : Option (PField B64 × Except PyErr Unit) :=
  match b64Realization a la target q coefs with
  | .error e => some (f, .error e)
  | .ok m => zone target.xw target.yw target.rw a.npaths a.duration f a.umbra ((1 : ℕ) : B64) a.tol a.maxstep (m.backVelocity a.confined)

/-- oneka/stochastic.py:220-268: the loop over `k` more realizations, starting with number `i`. `u i j`: the draw used by the `j`-th call of `generate_random_variate` in realization `i`; `mvn i`: its draw of
`multivariate_normal`. -/
noncomputable def b64StochasticLoop (a : B64RunArgs) (la : B64LinAlg) (u : ℕ → ℕ → B64) (mvn : ℕ → (Fin 6 → B64) → Matrix (Fin 6) (Fin 6) B64 → Except PyErr (Fin 6 → B64)) (target : B64SWell) :
    ℕ → ℕ → PField B64 → Option (Except PyErr (PField B64))
  | 0, _, f => some (.ok f)
  | k + 1, i, f =>
    match b64Realize a la target (fun d j => d.sample (u i j)) (mvn i) f with
    | none => none
    | some (_, .error e) => some (.error e)
    | some (f', .ok ()) => b64StochasticLoop a la u mvn target k (i + 1) f'

/-- oneka/stochastic.py:76-270 `create_stochastic_capturezone`. -/
noncomputable def b64CreateStochastic (a : B64RunArgs) (nrealizations : ℤ) (la : B64LinAlg) (u : ℕ → ℕ → B64) (mvn : ℕ → (Fin 6 → B64) → Matrix (Fin 6) (Fin 6) B64 → Except PyErr (Fin 6 → B64)) :
    Option (Except PyErr (PField B64)) :=
  match b64GetWell a.wells a.target with
  | .error e => some (.error e)
  | .ok target =>
    match PField.new a.spacing a.spacing (some target.xw) (some target.yw) with
    | .error e => some (.error e)
    | .ok f => b64StochasticLoop a la u mvn target nrealizations.toNat 0 f

/-- oneka/deterministic.py:65-235 `create_deterministic_capturezone`: the means, the fitted coefficients, and one capture zone. -/
noncomputable def b64CreateDeterministic (a : B64RunArgs) (la : B64LinAlg) : Option (Except PyErr (PField B64)) :=
  match b64GetWell a.wells a.target with
  | .error e => some (.error e)
  | .ok target =>
    match PField.new a.spacing a.spacing (some target.xw) (some target.yw) with
    | .error e => some (.error e)
    | .ok f =>
      match b64Realize a la target (fun d _ => .ok d.mean) (fun ev _ => .ok ev) f with
      | none => none
      | some (_, .error e) => some (.error e)
      | some (f', .ok ()) => some (.ok f')

end

/-! ## The report -/

/-- `np.linspace(a, b, n)`: `step = (b - a)/(n - 1)`; `arange(n)*step + a`; the last element is replaced by `b`. (oneka/oneka.py:284; the function of numpy) -/
noncomputable def b64Linspace (a b : B64) (n : ℕ) : List B64 :=
  (List.range n).map fun (k : ℕ) => if k + 1 = n ∧ 1 < n then b else (k : B64) * ((b - a) / ((n - 1 : ℕ) : B64)) + a

/-- `pf.pgrid/pf.total_weight` (oneka/visualize.py:382), for a positive total weight. -/
noncomputable def b64Normalized (b : Body B64) : Grid B64 := { b.pgrid with val := fun i j => b.pgrid.val i j / b.totalWeight }

/-- What `create_impact_plot` returns, and the range `[lo:hi]` of the points it draws. (oneka/visualize.py:382-390) -/
structure B64Impact where
  pr : List B64
  area : List B64
  lo : ℕ
  hi : ℕ

/-- oneka/visualize.py:354-397 `create_impact_plot`. `sq` is `spacing**2`. -/
noncomputable def b64ImpactPlot (sq : B64) (f : PField B64) : Except PyErr B64Impact :=
  match f.body with
  | none => .error .attributeError
  | some b =>
    if b.totalWeight ≤ 0 then .error .captureZoneError
    else
      let pr := ((b64Normalized b).flat.mergeSort fun u v => decide (u ≤ v)).reverse
      let n := pr.length
      let area := (List.range n).map fun (k : ℕ) => ((k + 1 : ℕ) : B64) * sq
      .ok ⟨pr, area, argmax (pr.map fun v => decide (v < ((1 : ℕ) : B64))) - 1, min n (argmax (pr.map fun v => decide (v = 0)) + 1)⟩

/-- oneka/oneka.py:285-287: the line of the table for the threshold `p`, `(pr[i], area[i])`. -/
noncomputable def b64Decile (im : B64Impact) (p : B64) : Except PyErr (B64 × B64) :=
  let i := argmax (im.pr.map fun v => decide (v ≤ p))
  match im.pr[i]?, im.area[i]? with
  | some v, some a => .ok (v, a)
  | _, _ => .error .indexError

/-- oneka/oneka.py:284-287: the lines for the remaining thresholds. -/
noncomputable def b64DecileLoop (im : B64Impact) : List B64 → Except PyErr (List (B64 × B64))
  | [] => .ok []
  | p :: ps =>
    match b64Decile im p with
    | .error e => .error e
    | .ok r =>
      match b64DecileLoop im ps with
      | .error e => .error e
      | .ok rs => .ok (r :: rs)

/-- oneka/oneka.py:284-287 `for p in np.linspace(0.05, 0.95, 19)`. -/
noncomputable def b64DecileTable (im : B64Impact) : Except PyErr (List (B64 × B64)) := b64DecileLoop im (b64Linspace (B64.of (.fin (5/100))) (B64.of (.fin (95/100))) 19)

end Oneka
