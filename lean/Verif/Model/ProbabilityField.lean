import Mathlib.Algebra.Order.Floor.Ring
import Verif.Py.Basic

/-!
# Model of oneka/probabilityfield.py

Written over any type `F` of numbers carrying the *symbols* `+ - * / < ≤`, conversions from integers and `math.floor`, `math.ceil`
(no laws). It is interpreted over every linearly ordered field with floor (ℝ, or ℚ to execute; exact arithmetic) and over
rounded numbers (`Verif/Py/Round.lean`). inf and NaN are not modelled here, except that a NaN origin (the constructor's
default) is `none`, and that `distancesquared` of a zero-length segment is handled explicitly.
-/

namespace Oneka

/-- The attributes of a `ProbabilityField` which exist only once it has a grid
(oneka/probabilityfield.py:140-151 and 206-218). -/
structure Body (F : Type) where
  xmin : F
  xmax : F
  ymin : F
  ymax : F
  totalWeight : F
  pgrid : Grid F
  rgrid : Grid Bool

/-- oneka/probabilityfield.py:53-151 `class ProbabilityField`. `body = none` means that the attributes
`xmin … rgrid, total_weight` do not exist (accessing them raises AttributeError). -/
structure PField (F : Type) where
  deltax : F
  deltay : F
  nrows : ℕ
  ncols : ℕ
  body : Option (Body F)

/-- `math.floor` and `math.ceil` of a finite number. (oneka/probabilityfield.py:209-210, 298-301) -/
class PyFloor (F : Type) where
  floor : F → ℤ
  ceil : F → ℤ

/-- exact arithmetic (oneka/probabilityfield.py:209-210, 298-301) -/
instance {K : Type} [Field K] [LinearOrder K] [FloorRing K] : PyFloor K := ⟨fun x => ⌊x⌋, fun x => ⌈x⌉⟩

section loops
variable {F : Type} [Add F] [Sub F] [LE F] [DecidableLE F]

/-- oneka/probabilityfield.py:229-232 and 238-241, the loop
`while x <= g: g -= d; n += 1; s += 1`. Result `(g, n, s)`; `none` if it never ends. -/
def growLow (x d : F) (g : F) (n s : ℕ) : Option (F × ℕ × ℕ) :=
  if x ≤ g then growLow x d (g - d) (n + 1) (s + 1) else some (g, n, s)
partial_fixpoint

/-- oneka/probabilityfield.py:234-236 and 243-245, the loop
`while x >= g: g += d; n += 1`. Result `(g, n)`; `none` if it never ends. -/
def growHigh (x d : F) (g : F) (n : ℕ) : Option (F × ℕ) :=
  if g ≤ x then growHigh x d (g + d) (n + 1) else some (g, n)
partial_fixpoint

end loops

variable {F : Type} [Zero F] [Add F] [Sub F] [Mul F] [Div F] [NatCast F] [IntCast F] [LT F] [LE F] [DecidableLT F] [DecidableLE F] [DecidableEq F]

/-- oneka/probabilityfield.py:380-427 `distancesquared`. `np = true`: the numerators are numpy scalars, so that
`0/0` is NaN (here `none`), both comparisons with it are false and the result is NaN; `np = false`: all
arguments are Python numbers and `/ 0` raises ZeroDivisionError. (`length2 = 0` forces `perpdot = dot = 0`.) -/
def distancesquared (np : Bool) (ax ay bx «by» cx cy : F) : Except PyErr (Option F) :=
  let bax := bx - ax
  let bay := «by» - ay
  let cax := cx - ax
  let cay := cy - ay
  let perpdot := bax*cay - bay*cax
  let dot := bax*cax + bay*cay
  let length2 := bax*bax + bay*bay
  if length2 = 0 then
    if np then .ok none else .error .zeroDivisionError
  else
    let alpha2 := perpdot*perpdot / length2
    let beta2 := dot*dot / length2
    if dot < 0 then .ok (some (alpha2 + beta2))
    else if length2 < beta2 then .ok (some (alpha2 + beta2 - 2*dot + length2))
    else .ok (some alpha2)

namespace PField

/-- oneka/probabilityfield.py:125-151 `__init__`. `none` for `xo`/`yo` is NaN, the default. -/
def new (deltax deltay : F) (xo yo : Option F) : Except PyErr (PField F) :=
  if deltax ≤ 0 then .error .rangeError
  else if deltay ≤ 0 then .error .rangeError
  else match xo, yo with
    | some xo, some yo =>
      .ok { deltax := deltax, deltay := deltay, nrows := 3, ncols := 3,
            body := some { xmin := xo - deltax, xmax := xo + deltax,
                           ymin := yo - deltay, ymax := yo + deltay,
                           totalWeight := 0,
                           pgrid := Grid.full 3 3 0, rgrid := Grid.full 3 3 false } }
    | _, _ => .ok { deltax := deltax, deltay := deltay, nrows := 0, ncols := 0, body := none }

variable [PyFloor F]

/-- oneka/probabilityfield.py:175-261 `expand`. Outer `none`: a growth loop never ends. All exceptions
are raised before anything is assigned. -/
def expand (f : PField F) (xmin xmax ymin ymax : F) : Option (Except PyErr (PField F)) :=
  if xmax < xmin then some (.error .rangeError)                                     -- 197
  else if ymax < ymin then some (.error .rangeError)                                -- 200
  else if f.ncols = 0 ∨ f.nrows = 0 then                                            -- 205
    let bxmin := xmin - f.deltax
    let bymin := ymin - f.deltay
    let ncols := (max 3 (PyFloor.ceil ((xmax - bxmin) / f.deltax) + 2)).toNat
    let nrows := (max 3 (PyFloor.ceil ((ymax - bymin) / f.deltay) + 2)).toNat
    some (.ok { f with
      nrows := nrows, ncols := ncols,
      body := some { xmin := bxmin, xmax := bxmin + (((ncols : ℤ) - 1 : ℤ) : F) * f.deltax,
                     ymin := bymin, ymax := bymin + (((nrows : ℤ) - 1 : ℤ) : F) * f.deltay,
                     totalWeight := 0,
                     pgrid := Grid.full nrows ncols 0, rgrid := Grid.full nrows ncols false } })
  else match f.body with
    | none => some (.error .attributeError)
    | some b =>
      match growLow xmin f.deltax b.xmin f.ncols 0 with                             -- 229
      | none => none
      | some (bxmin, ncols, cshift) =>
      match growHigh xmax f.deltax b.xmax ncols with                                -- 234
      | none => none
      | some (bxmax, ncols) =>
      match growLow ymin f.deltay b.ymin f.nrows 0 with                             -- 238
      | none => none
      | some (bymin, nrows, rshift) =>
      match growHigh ymax f.deltay b.ymax nrows with                                -- 243
      | none => none
      | some (bymax, nrows) =>
      if nrows ≠ f.nrows ∨ ncols ≠ f.ncols then                                     -- 248
        match (Grid.full nrows ncols false).blit rshift f.nrows cshift f.ncols b.rgrid,
              (Grid.full nrows ncols (0 : F)).blit rshift f.nrows cshift f.ncols b.pgrid with
        | .ok rgrid, .ok pgrid =>
          some (.ok { f with
            nrows := nrows, ncols := ncols,
            body := some { b with xmin := bxmin, xmax := bxmax, ymin := bymin, ymax := bymax,
                                  pgrid := pgrid, rgrid := rgrid } })
        | .error e, _ => some (.error e)
        | _, .error e => some (.error e)
      else
        some (.ok { f with
          body := some { b with xmin := bxmin, xmax := bxmax, ymin := bymin, ymax := bymax } })

/-- oneka/probabilityfield.py:305-310: the body of the double loop of `insert`, for one cell `[i, j]`. The node
coordinates are numpy scalars (`j*self.deltax` with `j` from `np.arange`), hence `np = true`; a NaN distance
is not `< umbra_squared`. -/
def insertCell (f : PField F) (b : Body F) (ax ay bx «by» umbra2 : F) (g : Grid Bool) (i j : ℤ) :
    Except PyErr (Grid Bool) :=
  match g.get i j with
  | .error e => .error e
  | .ok true => .ok g
  | .ok false =>
    match distancesquared true ax ay bx «by» (b.xmin + j * f.deltax) (b.ymin + i * f.deltay) with
    | .error e => .error e
    | .ok none => .ok g
    | .ok (some d2) => if d2 < umbra2 then g.set i j true else .ok g

/-- oneka/probabilityfield.py:264-310 `insert`. -/
def insert (f : PField F) (ax ay bx «by» umbra : F) : Except PyErr (PField F) :=
  match f.body with
  | none => .error .attributeError
  | some b =>
    let umbra2 := umbra * umbra
    let left := max 0 (PyFloor.floor ((pyMin2 ax bx - umbra - b.xmin) / f.deltax))
    let right := min (f.ncols : ℤ) (PyFloor.floor ((pyMax2 ax bx + umbra - b.xmin) / f.deltax) + 1)
    let bottom := max 0 (PyFloor.floor ((pyMin2 ay «by» - umbra - b.ymin) / f.deltay))
    let top := min (f.nrows : ℤ) (PyFloor.floor ((pyMax2 ay «by» + umbra - b.ymin) / f.deltay) + 1)
    match (intRange left right).foldlM
        (fun g j => (intRange bottom top).foldlM
          (fun g i => f.insertCell b ax ay bx «by» umbra2 g i j) g) b.rgrid with
    | .error e => .error e
    | .ok g => .ok { f with body := some { b with rgrid := g } }

/-- oneka/probabilityfield.py:338-339: `for i in …: self.insert(x[i], y[i], x[i+1], y[i+1], umbra)`, over the remaining
indices. The field keeps the segments inserted before an exception. -/
def rasterLoop (x y : List F) (umbra : F) : List ℕ → PField F → PField F × Except PyErr Unit
  | [], f => (f, .ok ())
  | i :: is, f =>
    match x[i]?, y[i]?, x[i+1]?, y[i+1]? with
    | some ax, some ay, some bx, some by' =>
      match f.insert ax ay bx by' umbra with
      | .error e => (f, .error e)
      | .ok f' => rasterLoop x y umbra is f'
    | _, _, _, _ => (f, .error .indexError)

/-- oneka/probabilityfield.py:313-339 `rasterize`. -/
def rasterize (f : PField F) (x y : List F) (umbra : F) : Option (PField F × Except PyErr Unit) :=
  match pyMin x, pyMax x, pyMin y, pyMax y with
  | some x0, some x1, some y0, some y1 =>
    match f.expand x0 x1 y0 y1 with
    | none => none
    | some (.error e) => some (f, .error e)
    | some (.ok f1) => some (rasterLoop x y umbra (List.range (x.length - 1)) f1)
  | _, _, _, _ => some (f, .error .valueError)

/-- oneka/probabilityfield.py:342-359 `register`. `self.pgrid[self.rgrid] += weight` needs equal shapes
(IndexError otherwise). -/
def register (f : PField F) (weight : F) : Except PyErr (PField F) :=
  match f.body with
  | none => .error .attributeError
  | some b =>
    if b.rgrid.rows = b.pgrid.rows ∧ b.rgrid.cols = b.pgrid.cols then
      .ok { f with body := some { b with
        totalWeight := b.totalWeight + weight,
        pgrid := { b.pgrid with
          val := fun i j => if b.rgrid.val i j then b.pgrid.val i j + weight else b.pgrid.val i j },
        rgrid := { b.rgrid with val := fun _ _ => false } } }
    else .error .indexError

/-- oneka/probabilityfield.py:362-376 `reset`. -/
def reset (f : PField F) : Except PyErr (PField F) :=
  match f.body with
  | none => .error .attributeError
  | some b => .ok { f with body := some { b with rgrid := { b.rgrid with val := fun _ _ => false } } }

/-- One public method call on a `ProbabilityField`. (oneka/probabilityfield.py:175-376) -/
inductive Call (F : Type)
  | expand (xmin xmax ymin ymax : F)
  | insert (ax ay bx «by» umbra : F)
  | rasterize (x y : List F) (umbra : F)
  | register (weight : F)
  | reset

/-- A method that either raises without effect or returns the new state. (oneka/probabilityfield.py:175-376) -/
def lift (f : PField F) : Except PyErr (PField F) → PField F × Except PyErr Unit
  | .error e => (f, .error e)
  | .ok f' => (f', .ok ())

/-- Execute one call: the new state and whether it raised. `none`: the call never returns. (oneka/probabilityfield.py:175-376) -/
def step (f : PField F) : Call F → Option (PField F × Except PyErr Unit)
  | .expand a b c d => (f.expand a b c d).map f.lift
  | .insert ax ay bx by' u => some (f.lift (f.insert ax ay bx by' u))
  | .rasterize x y u => f.rasterize x y u
  | .register w => some (f.lift (f.register w))
  | .reset => some (f.lift f.reset)

/-- A history of calls; the caller catches exceptions and carries on. (oneka/probabilityfield.py:175-376) -/
def run (f : PField F) : List (Call F) → Option (PField F)
  | [] => some f
  | c :: cs =>
    match f.step c with
    | none => none
    | some (f', _) => run f' cs

end PField
end Oneka
