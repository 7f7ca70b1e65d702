import Verif.Model.Visualize
import Verif.Model.Utilities
import Verif.Py.Format

/-!
# Model of oneka/oneka.py and oneka/archive.py

A call is a sequence of effects (log entries, figures, file operations) and an ending: it returns, raises or runs forever. Everything that is not
determined by the arguments (clock, random draws, linear algebra, interrupts, failing file operations) is in `CallEnv` and arbitrary.
Simplifications: Python is run without `-O` (assertions are executed); log entries are recorded as label and value (their text: Model/Text.lean); logging and
plotting never raise, except for formatting a value that does not fit the format.
-/

namespace Oneka

/-! ## Arguments -/

/-- The arguments of a call of `oneka`, after defaults have been filled in (oneka/oneka.py:73-79). -/
structure PyArgs where
  projectname : PyVal
  runtime : PyVal
  target : PyVal
  npaths : PyVal
  duration : PyVal
  nrealizations : PyVal
  base : PyVal
  cDist : PyVal
  pDist : PyVal
  tDist : PyVal
  wells : PyVal
  observations : PyVal
  buffer : PyVal
  spacing : PyVal
  umbra : PyVal
  smooth : PyVal
  confined : PyVal
  tol : PyVal
  maxstep : PyVal

/-- The optional arguments of a call; `none`: omitted. (oneka/oneka.py:78-79) -/
structure OptArgs where
  buffer : Option PyVal
  spacing : Option PyVal
  umbra : Option PyVal
  smooth : Option PyVal
  confined : Option PyVal
  tol : Option PyVal
  maxstep : Option PyVal

/-- oneka/oneka.py:78-79: `buffer=100, spacing=10, umbra=10, smooth=0, confined=True, tol=1, maxstep=10`. (The optional fields of `req` are ignored.) -/
def PyArgs.withDefaults (req : PyArgs) (o : OptArgs) : PyArgs :=
  { req with
    buffer := o.buffer.getD (.int 100)
    spacing := o.spacing.getD (.int 10)
    umbra := o.umbra.getD (.int 10)
    smooth := o.smooth.getD (.int 0)
    confined := o.confined.getD (.bool true)
    tol := o.tol.getD (.int 1)
    maxstep := o.maxstep.getD (.int 10) }

/-! ## Argument checks -/

/-- `assert(c)` (oneka/oneka.py:207-242) -/
def pyAssert : Except PyErr Bool → Except PyErr Unit
  | .ok true => .ok ()
  | .ok false => .error .assertionError
  | .error e => .error e

/-- `a and b` of booleans: `b` is evaluated only if `a` is true. (oneka/oneka.py:207-242) -/
def pyAnd (a b : Except PyErr Bool) : Except PyErr Bool :=
  match a with
  | .ok true => b
  | .ok false => .ok false
  | .error e => .error e

/-- `isinstance(v, int) or isinstance(v, float)` (oneka/oneka.py:212-242) -/
def PyVal.isNumber (v : PyVal) : Bool := v.isInt || v.isFloat

/-- `v[i]`, for a non-negative `i` (oneka/oneka.py:220-233) -/
def PyVal.item (v : PyVal) (i : ℕ) : Except PyErr PyVal :=
  match v with
  | .tuple l => (l[i]?).elim (.error .indexError) .ok
  | .list l => (l[i]?).elim (.error .indexError) .ok
  | .str s => (s.toList[i]?).elim (.error .indexError) fun c => .ok (.str (String.singleton c))
  | _ => .error .typeError

/-- a condition on `v[i]` (oneka/oneka.py:220-233) -/
def PyVal.itemIs (v : PyVal) (i : ℕ) (c : PyVal → Except PyErr Bool) : Except PyErr Bool :=
  match v.item i with
  | .error e => .error e
  | .ok x => c x

/-- oneka/oneka.py:210 `isinstance(target, int) and 0 <= target < len(stochastic_wells)` -/
noncomputable def targetCheck (target wells : PyVal) : Except PyErr Bool :=
  pyAnd (.ok target.isInt) (pyAnd (PyVal.le (.int 0) target)
    (match wells.len with
    | .error e => .error e
    | .ok n => PyVal.lt target (.int n)))

/-- oneka/oneka.py:235-238, 241-242 `(isinstance(v, int) or isinstance(v, float)) and 0 < v` -/
noncomputable def positiveCheck (v : PyVal) : Except PyErr Bool :=
  pyAnd (.ok v.isNumber) (PyVal.lt (.int 0) v)

/-- `0 != v` for a number `v` (oneka/oneka.py:212): true for NaN. -/
noncomputable def pyNeZero (v : PyVal) : Except PyErr Bool :=
  match v.num with
  | some x => .ok (!(decide (XR.fin 0 ≤ x) && decide (x ≤ XR.fin 0)))
  | none => .ok true

/-- oneka/oneka.py:212 -/
noncomputable def durationCheck (v : PyVal) : Except PyErr Bool :=
  pyAnd (.ok v.isNumber) (pyNeZero v)

/-- oneka/oneka.py:221-225 -/
noncomputable def wellCheck (we : PyVal) : Except PyErr Bool :=
  pyAnd (match we.len with
    | .error e => .error e
    | .ok n => .ok (n == 4)) <|
  pyAnd (we.itemIs 0 fun v => .ok v.isNumber) <|
  pyAnd (we.itemIs 1 fun v => .ok v.isNumber) <|
  pyAnd (we.itemIs 2 fun v => .ok v.isNumber) <|
  pyAnd (we.itemIs 2 fun v => PyVal.lt (.int 0) v) <|
  we.itemIs 3 fun v => isdistribution v .ninf .pinf

/-- oneka/oneka.py:229-233 -/
noncomputable def obsCheck (ob : PyVal) : Except PyErr Bool :=
  pyAnd (match ob.len with
    | .error e => .error e
    | .ok n => .ok (n == 4)) <|
  pyAnd (ob.itemIs 0 fun v => .ok v.isNumber) <|
  pyAnd (ob.itemIs 1 fun v => .ok v.isNumber) <|
  pyAnd (ob.itemIs 2 fun v => .ok v.isNumber) <|
  pyAnd (ob.itemIs 3 fun v => .ok v.isNumber) <|
  ob.itemIs 3 fun v => PyVal.le (.int 0) v

/-- `for x in l: assert(c(x))` (oneka/oneka.py:219-233) -/
def assertAll (c : PyVal → Except PyErr Bool) : List PyVal → Except PyErr Unit
  | [] => .ok ()
  | x :: l =>
    match pyAssert (c x) with
    | .error e => .error e
    | .ok () => assertAll c l

/-- oneka/oneka.py:219-225 (`min = 1`) and 227-233 (`min = 7`): a list with at least `min` elements, all of which pass the check. -/
def listCheck (v : PyVal) (min : ℕ) (c : PyVal → Except PyErr Bool) : Except PyErr Unit :=
  match v with
  | .list l => if min ≤ l.length then assertAll c l else .error .assertionError
  | _ => .error .assertionError

/-- oneka/oneka.py:207-242: the argument checks, in order. -/
noncomputable def validate (a : PyArgs) : Except PyErr Unit := do
  pyAssert (.ok a.projectname.isStr)
  pyAssert (.ok a.runtime.isStr)
  pyAssert (targetCheck a.target a.wells)
  pyAssert (pyAnd (.ok a.npaths.isInt) (PyVal.lt (.int 0) a.npaths))
  pyAssert (durationCheck a.duration)
  pyAssert (.ok a.base.isNumber)
  pyAssert (isdistribution a.cDist (.fin 0) .pinf)
  pyAssert (isdistribution a.pDist (.fin 0) (.fin 1))
  pyAssert (isdistribution a.tDist (.fin 0) .pinf)
  listCheck a.wells 1 wellCheck
  listCheck a.observations 7 obsCheck
  pyAssert (positiveCheck a.buffer)
  pyAssert (positiveCheck a.spacing)
  pyAssert (positiveCheck a.umbra)
  pyAssert (positiveCheck a.smooth)
  pyAssert (.ok a.confined.isBool)
  pyAssert (positiveCheck a.tol)
  pyAssert (positiveCheck a.maxstep)

/-! ## Effects -/

/-- A log entry. (oneka/oneka.py:257-303, 341-375, oneka/utilities.py:106-142, oneka/stochastic.py:245-250, oneka/deterministic.py:202-218) -/
inductive LogLine
  /-- a fixed text -/
  | text (s : String)
  /-- a label and a value -/
  | value (label : String) (v : PyVal)
  /-- what `filter_obs` logs -/
  | filter (l : FilterLine)
  /-- the table of summary statistics -/
  | summary (cols : List ColumnStats)
  /-- what one realization logs (oneka/stochastic.py:238-251, oneka/deterministic.py:196-218) -/
  | realization (l : RealizationLog)
  /-- a line of the decile table: probability and area -/
  | decile (p area : ℝ)
  /-- an area in square metres -/
  | area (a : ℝ)
  /-- an area in acres -/
  | acres (a : ℝ)
  /-- anything else -/
  | other (k : ℕ)

/-- A figure. (oneka/oneka.py:264-305) -/
inductive Figure
  | probability (p : ProbabilityPlot)
  | impact (points : List (ℝ × ℝ))
  | deterministic (p : DeterministicPlot)
  | other (k : ℕ)

/-- The object returned by `create_stochastic_capturezone` or `create_deterministic_capturezone`. `other`: a field with numbers outside the model (inf, NaN). (oneka/oneka.py:264-305) -/
inductive FieldVal
  | field (f : PField ℝ)
  | other (k : ℕ)

/-- A value in the archive. (oneka/archive.py:59-79) -/
inductive Obj
  | val (v : PyVal)
  | field (f : FieldVal)

/-- A Python dictionary: its items in insertion order. (oneka/archive.py:59-79) -/
abbrev Dict := List (String × Obj)

/-- An effect of a call. (oneka/oneka.py:244-317, oneka/archive.py:81-82) -/
inductive Effect
  | log (l : LogLine)
  | figure (f : Figure)
  /-- a file was opened for writing: it exists and is empty -/
  | opened (name : String)
  /-- a dictionary was completely written to a file -/
  | wrote (name : String) (d : Dict)
  /-- `plt.show()` -/
  | shown

/-- How a computation ends. (oneka/oneka.py:73-317) -/
inductive Ending (α : Type)
  | returns (a : α)
  | raises (e : PyErr)
  | diverges

/-- A computation: its effects and how it ends. (oneka/oneka.py:73-317) -/
structure Prog (α : Type) where
  events : List Effect
  ending : Ending α

namespace Prog

/-- one statement after another (oneka/oneka.py:73-317) -/
def andThen {α β : Type} (p : Prog α) (f : α → Prog β) : Prog β :=
  match p.ending with
  | .returns a => ⟨p.events ++ (f a).events, (f a).ending⟩
  | .raises e => ⟨p.events, .raises e⟩
  | .diverges => ⟨p.events, .diverges⟩

/-- statements in sequence; no code (oneka/oneka.py:73-317) -/
instance : Monad Prog where
  pure a := ⟨[], .returns a⟩
  bind := andThen

/-- a computation without effects (oneka/oneka.py:207-242) -/
def lift {α : Type} : Except PyErr α → Prog α
  | .ok a => ⟨[], .returns a⟩
  | .error e => ⟨[], .raises e⟩

/-- a single effect (oneka/oneka.py:317) -/
def emit (e : Effect) : Prog Unit := ⟨[e], .returns ()⟩

/-- `log.info(…)` (oneka/oneka.py:257-303, 341-375) -/
def info (l : LogLine) : Prog Unit := emit (.log l)

/-- several `log.info(…)` (oneka/utilities.py:131-142) -/
def infos (l : List LogLine) : Prog Unit := ⟨l.map .log, .returns ()⟩

end Prog

/-! ## Logging the arguments -/

/-- `'{0:d}'.format(v)`: ValueError for floats and strings, TypeError for other objects that are not integers. (oneka/oneka.py:344-345, 349, 351) -/
def formatD (v : PyVal) : Except PyErr Unit :=
  match v with
  | .bool _ => .ok ()
  | .int _ => .ok ()
  | .float _ => .error .valueError
  | .str _ => .error .valueError
  | _ => .error .typeError

/-- `'{0:.2f}'.format(v)`: ValueError for strings, TypeError for other objects that are not numbers. (oneka/oneka.py:346, 353, 357-359, 362-363) -/
def formatF (v : PyVal) : Except PyErr Unit :=
  match v with
  | .bool _ => .ok ()
  | .int _ => .ok ()
  | .float _ => .ok ()
  | .str _ => .error .valueError
  | _ => .error .typeError

/-- `log.info('… {0:d}'.format(v))` (oneka/oneka.py:344-345, 349, 351) -/
def logD (label : String) (v : PyVal) : Prog Unit := do
  Prog.lift (formatD v)
  Prog.info (.value label v)

/-- `log.info('… {0:.2f}'.format(v))` (oneka/oneka.py:346, 353, 357-359, 362-363) -/
def logF (label : String) (v : PyVal) : Prog Unit := do
  Prog.lift (formatF v)
  Prog.info (.value label v)

/-- `log.info('… {0}'.format(v))` (oneka/oneka.py:342-343, 354-356, 360-361, 366-373) -/
def logV (label : String) (v : PyVal) : Prog Unit := Prog.info (.value label v)

/-- oneka/oneka.py:366-368 and 371-373: the length and the elements; TypeError for an object that is not a sequence. -/
def logSeq (label : String) (v : PyVal) : Prog Unit :=
  match v with
  | .list l => Prog.infos (.value label (.int l.length) :: l.map (.value "    "))
  | .tuple l => Prog.infos (.value label (.int l.length) :: l.map (.value "    "))
  | .str s => Prog.infos (.value label (.int s.length) :: s.toList.map fun c => .value "    " (.str (String.singleton c)))
  | _ => Prog.lift (.error .typeError)

/-- oneka/oneka.py:331-340: the banner. -/
def banner : List LogLine :=
  [.text "", .text "========================================", .text " OOOOOO  NN   N  EEEEEE  K   KK  AAAAAA ",
    .text " O    O  N N  N  E       K KK    A    A ", .text " O    O  N  N N  EEEEE   KK      AAAAAA ",
    .text " O    O  N   NN  E       K KK    A    A ", .text " OOOOOO  N    N  EEEEEE  K   KK  A    A ",
    .text "========================================", .text "Version: 25 July 2020", .text ""]

/-- oneka/oneka.py:320-375 `log_the_run`. -/
noncomputable def logTheRun (a : PyArgs) : Prog Unit := do
  Prog.infos banner
  logV "project name" a.projectname
  logV "run time" a.runtime
  logD "target" a.target
  logD "npaths" a.npaths
  logF "duration" a.duration
  let stochastic ← Prog.lift (PyVal.lt (.int 1) a.nrealizations)
  logD (if stochastic then "nrealizations STOCHASTIC" else "nrealizations DETERMINISTIC") a.nrealizations
  logF "base" a.base
  logV "c_dist" a.cDist
  logV "p_dist" a.pDist
  logV "t_dist" a.tDist
  logF "buffer" a.buffer
  logF "spacing" a.spacing
  logF "umbra" a.umbra
  logV "smooth" a.smooth
  logV "confined" a.confined
  logF "tol" a.tol
  logF "maxstep" a.maxstep
  Prog.info (.text "\n")
  logSeq "stochastic_wells" a.wells
  Prog.info (.text "\n")
  logSeq "observations" a.observations
  Prog.info (.text "\n")

/-! ## Computing -/

/-- A finite number. (the arguments of oneka/oneka.py:73-79) -/
def PyVal.real? (v : PyVal) : Option ℝ :=
  match v.num with
  | some (.fin r) => some r
  | _ => Option.none

/-- the elements, if they all convert (lists among the arguments of oneka/oneka.py:73-79) -/
def mapOpt {α β : Type} (f : α → Option β) : List α → Option (List β)
  | [] => some []
  | x :: l =>
    match f x, mapOpt f l with
    | some y, some r => some (y :: r)
    | _, _ => Option.none

/-- A distribution with finite numbers. (An integer scalar becomes the float of the same value.) (the arguments c_dist, p_dist, t_dist of oneka/oneka.py:73-79) -/
def PyVal.dist? (v : PyVal) : Option Dist :=
  match v with
  | .tuple l => (mapOpt PyVal.real? l).map .tuple
  | v => v.real?.map .const

/-- A well with finite numbers. (the elements of stochastic_wells, oneka/oneka.py:219-225) -/
def PyVal.swell? (v : PyVal) : Option SWell :=
  match v with
  | .tuple [x, y, r, q] | .list [x, y, r, q] =>
    match x.real?, y.real?, r.real?, q.dist? with
    | some x, some y, some r, some q => some ⟨x, y, r, q⟩
    | _, _, _, _ => Option.none
  | _ => Option.none

/-- An observation with finite numbers. (the elements of observations, oneka/oneka.py:227-233) -/
def PyVal.obs? (v : PyVal) : Option Obs :=
  match v with
  | .tuple [x, y, z, s] | .list [x, y, z, s] =>
    match x.real?, y.real?, z.real?, s.real? with
    | some x, some y, some z, some s => some ⟨x, y, z, s⟩
    | _, _, _, _ => Option.none
  | _ => Option.none

/-- the elements of a list (oneka/oneka.py:219-233) -/
def PyVal.elems? : PyVal → Option (List PyVal)
  | .list l => some l
  | _ => Option.none

/-- the value of an integer (the arguments of oneka/oneka.py:73-79) -/
def PyVal.int? : PyVal → Option ℤ
  | .int n => some n
  | .bool b => some (if b then 1 else 0)
  | _ => Option.none

/-- the value of a boolean (the arguments of oneka/oneka.py:73-79) -/
def PyVal.bool? : PyVal → Option Bool
  | .bool b => some b
  | _ => Option.none

/-- The numbers of a call. (oneka/oneka.py:73-79) -/
structure Inputs where
  /-- the arguments of the run, with all observations -/
  run : RunArgs
  nrealizations : ℤ
  buffer : ℝ
  smooth : ℝ

/-- The part of the argument space in which the computations are modelled: finite numbers (duration, tolerance and maximum step may be infinite or NaN), and
distributions that are not lists. No code: the conversion is implicit in Python. (oneka/oneka.py:73-79) -/
noncomputable def PyArgs.inputs (a : PyArgs) : Option Inputs := do
  let target ← a.target.int?
  let npaths ← a.npaths.int?
  let duration ← a.duration.num
  let nrealizations ← a.nrealizations.int?
  let base ← a.base.real?
  let c ← a.cDist.dist?
  let p ← a.pDist.dist?
  let t ← a.tDist.dist?
  let wl ← a.wells.elems?
  let wells ← mapOpt PyVal.swell? wl
  let ol ← a.observations.elems?
  let obs ← mapOpt PyVal.obs? ol
  let buffer ← a.buffer.real?
  let spacing ← a.spacing.real?
  let umbra ← a.umbra.real?
  let smooth ← a.smooth.real?
  let confined ← a.confined.bool?
  let tol ← a.tol.num
  let maxstep ← a.maxstep.num
  some ⟨⟨target, npaths, duration, base, c, p, t, wells, obs, spacing, umbra, confined, tol, maxstep⟩, nrealizations, buffer, smooth⟩

/-- A point in time as `datetime.now()` gives it, to the second. (oneka/archive.py:56, runme.py:50) -/
structure DateTime where
  year : ℕ
  month : ℕ
  day : ℕ
  hour : ℕ
  minute : ℕ
  second : ℕ

/-- What a call depends on besides its arguments. (oneka/oneka.py:254-317) -/
structure CallEnv where
  run : Env
  /-- `scipy.ndimage.gaussian_filter` -/
  gaussian : Grid ℝ → ℝ → Grid ℝ
  /-- the computations outside `PyArgs.inputs`: log entries and figures, then a field, an exception or no end -/
  unmodelled : PyArgs → List (LogLine ⊕ Figure) × Ending FieldVal
  /-- the clock when the archive is written -/
  now : DateTime
  /-- opening the archive for writing may fail -/
  openError : Option PyErr
  /-- writing the archive may fail -/
  writeError : Option PyErr

/-- The call of `create_stochastic_capturezone` or `create_deterministic_capturezone`: what it logged, and its result. `endless`: what it logged if it never
returns. (oneka/oneka.py:265-271, 291-297) -/
def runProg (endless : List RealizationLog) : Option RunResult → Prog (PField ℝ)
  | none => ⟨endless.map fun l => .log (.realization l), .diverges⟩
  | some r => ⟨r.log.map fun l => .log (.realization l),
    match r.outcome with
    | .ok f => .returns f
    | .error e => .raises e⟩

/-- the table header (oneka/oneka.py:279-283) -/
def decileHeader : List LogLine :=
  [.text "\n", .text "===========================================", .text " Pr(capture)         Area             Area ",
    .text " Exceeds            [m^2]          [acres] ", .text "-------------------------------------------"]

/-- oneka/oneka.py:253-305: everything between logging the arguments and writing the archive, for finite numbers. -/
noncomputable def compute (n : Inputs) (env : CallEnv) : Prog FieldVal := do
  Prog.infos ((filterLog n.run.obs (n.run.wells.map fun w => (w.xw, w.yw)) n.buffer).map .filter)
  let obs ← Prog.lift (filterObs n.run.obs (n.run.wells.map fun w => (w.xw, w.yw)) n.buffer)
  Prog.lift (pyAssert (.ok (decide (6 < obs.length))))
  let cols ← Prog.lift (summaryStatistics (obs.map fun o => [some o.x, some o.y, some o.z, some o.std]))
  Prog.info (.text "\n")
  Prog.info (.summary cols)
  if 1 < n.nrealizations then
    let f ← runProg (endlessStochastic { n.run with obs := obs } n.nrealizations env.run) (createStochastic { n.run with obs := obs } n.nrealizations env.run)
    let plot ← Prog.lift (createProbabilityPlot env.gaussian n.run.target n.run.wells obs f n.smooth)
    Prog.emit (.figure (.probability plot))
    let im ← Prog.lift (createImpactPlot n.run.spacing f)
    Prog.emit (.figure (.impact im.drawn))
    Prog.infos decileHeader
    let lines ← Prog.lift (decileTable im)
    Prog.infos (lines.map fun l => .decile l.1 l.2)
    Prog.info (.text "===========================================")
    pure (.field f)
  else
    let f ← runProg (endlessDeterministic { n.run with obs := obs } env.run) (createDeterministic { n.run with obs := obs } env.run)
    let plot ← Prog.lift (createDeterministicPlot n.run.target n.run.wells obs f)
    Prog.emit (.figure (.deterministic plot))
    Prog.info (.text "\n")
    Prog.info (.text "Capture Zone Area:")
    Prog.info (.area plot.area)
    Prog.info (.acres (plot.area / acre))
    pure (.field f)

/-! ## The archive -/

/-- `strftime('%Y%m%dT%H%M%S')` (oneka/archive.py:56), for years with at most four digits. Simplification: `%Y` is padded to four digits (some platforms do not pad). -/
def DateTime.stamp (t : DateTime) : List Char :=
  padded 4 t.year ++ padded 2 t.month ++ padded 2 t.day ++ ['T'] ++ padded 2 t.hour ++ padded 2 t.minute ++ padded 2 t.second

/-- oneka/archive.py:56: the file name. -/
def DateTime.archiveName (t : DateTime) : String := String.ofList ("logs\\Oneka".toList ++ t.stamp ++ ".bz2".toList)

/-- oneka/archive.py:59-79: the dictionary. -/
def archiveDict (a : PyArgs) (pfield : FieldVal) : Dict :=
  [("projectname", .val a.projectname), ("runtime", .val a.runtime), ("target", .val a.target), ("npaths", .val a.npaths),
    ("duration", .val a.duration), ("nrealizations", .val a.nrealizations), ("base", .val a.base), ("c_dist", .val a.cDist),
    ("p_dist", .val a.pDist), ("t_dist", .val a.tDist), ("stochastic_wells", .val a.wells), ("observations", .val a.observations),
    ("buffer", .val a.buffer), ("spacing", .val a.spacing), ("umbra", .val a.umbra), ("smooth", .val a.smooth),
    ("confined", .val a.confined), ("tol", .val a.tol), ("maxstep", .val a.maxstep), ("pfield", .field pfield)]

/-- oneka/archive.py:46-82 `dump_oneka`. -/
def dumpOneka (a : PyArgs) (pfield : FieldVal) (env : CallEnv) : Prog Unit :=
  let name := env.now.archiveName
  match env.openError with
  | some e => ⟨[], .raises e⟩
  | none =>
    match env.writeError with
    | some e => ⟨[.opened name], .raises e⟩
    | none => ⟨[.opened name, .wrote name (archiveDict a pfield)], .returns ()⟩

/-! ## The entry point -/

/-- a log entry or a figure (oneka/oneka.py:244-317) -/
def effect : LogLine ⊕ Figure → Effect
  | .inl l => .log l
  | .inr f => .figure f

/-- oneka/oneka.py:73-317 `oneka`. -/
noncomputable def oneka (a : PyArgs) (env : CallEnv) : Prog PyVal := do
  Prog.lift (validate a)
  logTheRun a
  let pfield ← (match a.inputs with
    | some n => compute n env
    | none => ⟨(env.unmodelled a).1.map effect, (env.unmodelled a).2⟩ : Prog FieldVal)
  dumpOneka a pfield env
  Prog.emit .shown
  pure .none

/-! ## Files -/

/-- The contents of a file. (oneka/archive.py:81-82) -/
inductive FileContent
  /-- not a complete archive -/
  | broken
  | archive (d : Dict)

/-- The file system. (oneka/archive.py:81-82) -/
abbrev Files := String → Option FileContent

/-- What an effect does to the files (oneka/archive.py:81: opening truncates). -/
def Effect.apply (fs : Files) : Effect → Files
  | .opened name => fun n => if n = name then some .broken else fs n
  | .wrote name d => fun n => if n = name then some (.archive d) else fs n
  | _ => fs

/-- oneka/archive.py:85-89 `load_oneka`. `other 0`: FileNotFoundError; `other 1`: whatever bz2 or pickle raise for an incomplete file. -/
def loadOneka (fs : Files) (name : String) : Except PyErr Dict :=
  match fs name with
  | none => .error (.other 0)
  | some .broken => .error (.other 1)
  | some (.archive d) => .ok d

/-- `d[key]` (on the result of oneka/archive.py:85-89) -/
def Dict.get (d : Dict) (key : String) : Option Obj := List.lookup key d

/-- The files after a sequence of calls (in one or several processes). (each call: oneka/oneka.py:73-317) -/
noncomputable def filesAfter (fs : Files) : List (PyArgs × CallEnv) → Files
  | [] => fs
  | (a, env) :: calls => filesAfter ((oneka a env).events.foldl Effect.apply fs) calls

end Oneka
