import Verif.Model.Stochastic
import Mathlib.Data.List.Sort

/-!
# Model of oneka/visualize.py and of the decile table of oneka/oneka.py

matplotlib draws what it is given and does nothing else; what it is given is part of the result here. Simplification: it never raises (it would for
contour maps with fewer than two rows or columns). A figure that was opened before an exception stays open; not modelled.
-/

namespace Oneka

/-- `np.linspace(a, b, n)`. Exact arithmetic (numpy also stores `b` itself as the last element). (oneka/visualize.py:100-101, 150-151, 228-229, 316-317; oneka/oneka.py:284) -/
noncomputable def linspace (a b : ℝ) (n : ℕ) : List ℝ :=
  (List.range n).map fun (k : ℕ) => a + (k : ℝ) * ((b - a) / ((n : ℝ) - 1))

/-- oneka/visualize.py:106-110 and 156-160: the loop `for j in range(ncols): grid[i, j] = …` over the remaining columns of row `i`. -/
def fillRow (cell : ℕ → ℕ → Except PyErr XR) (i : ℕ) : List ℕ → Grid XR → Except PyErr (Grid XR)
  | [], g => .ok g
  | j :: js, g =>
    match cell i j with
    | .error e => .error e
    | .ok v =>
      match g.set i j v with
      | .error e => .error e
      | .ok g' => fillRow cell i js g'

/-- oneka/visualize.py:105-110 and 155-160: the loop over the remaining rows. -/
def fillRows (cell : ℕ → ℕ → Except PyErr XR) (ncols : ℕ) : List ℕ → Grid XR → Except PyErr (Grid XR)
  | [], g => .ok g
  | i :: is, g =>
    match fillRow cell i (List.range ncols) g with
    | .error e => .error e
    | .ok g' => fillRows cell ncols is g'

/-- What a contour map shows. (oneka/visualize.py:112, 162) -/
structure ContourMap where
  x : List ℝ
  y : List ℝ
  grid : Grid XR

/-- oneka/visualize.py:107-110: `grid[i, j] = mo.compute_head(x[j], y[i])`. Any exception leads to the evaluation of `onekapy.model.AquiferError` in
the `except` clause, and `onekapy` is not defined: NameError. -/
noncomputable def headCell (mo : Aquifer XR) (x y : List ℝ) (i j : ℕ) : Except PyErr XR :=
  match x[j]?, y[i]? with
  | some X, some Y =>
    match mo.head (.fin X) (.fin Y) with
    | .ok h => .ok h
    | .error _ => .error .nameError
  | _, _ => .error .nameError

/-- oneka/visualize.py:157-160: `grid[i, j] = mo.compute_potential(x[j], y[i])`, which raises nothing. -/
noncomputable def potentialCell (mo : Aquifer XR) (x y : List ℝ) (i j : ℕ) : Except PyErr XR :=
  match x[j]?, y[i]? with
  | some X, some Y => .ok (mo.potential (.fin X) (.fin Y))
  | _, _ => .error .indexError

/-- oneka/visualize.py:67-113 `contour_head`: what is shown, or the exception. -/
noncomputable def contourHead (mo : Aquifer XR) (xmin xmax ymin ymax : ℝ) (nrows ncols : ℕ) : Except PyErr ContourMap :=
  let x := linspace xmin xmax ncols
  let y := linspace ymin ymax nrows
  match fillRows (headCell mo x y) ncols (List.range nrows) (Grid.full nrows ncols (.fin 0)) with
  | .error e => .error e
  | .ok g => .ok ⟨x, y, g⟩

/-- oneka/visualize.py:117-163 `contour_potential`: what is shown, or the exception. -/
noncomputable def contourPotential (mo : Aquifer XR) (xmin xmax ymin ymax : ℝ) (nrows ncols : ℕ) : Except PyErr ContourMap :=
  let x := linspace xmin xmax ncols
  let y := linspace ymin ymax nrows
  match fillRows (potentialCell mo x y) ncols (List.range nrows) (Grid.full nrows ncols (.fin 0)) with
  | .error e => .error e
  | .ok g => .ok ⟨x, y, g⟩

/-- `pf.pgrid/pf.total_weight` (oneka/visualize.py:230, 318, 382), for a positive total weight. -/
noncomputable def normalized (b : Body ℝ) : Grid ℝ := { b.pgrid with val := fun i j => b.pgrid.val i j / b.totalWeight }

/-- What a capture zone plot shows besides the zone: the wells, the target, the observations. (oneka/visualize.py:243-255, 337-349) -/
structure Markers where
  wells : List (ℝ × ℝ)
  target : ℝ × ℝ
  obs : List (ℝ × ℝ)

/-- oneka/visualize.py:243-255 and 337-349. -/
def markers (target : ℤ) (wells : List SWell) (obs : List Obs) : Except PyErr Markers :=
  match getWell wells target with
  | .error e => .error e
  | .ok t => .ok ⟨wells.map fun w => (w.xw, w.yw), (t.xw, t.yw), obs.map fun o => (o.x, o.y)⟩

/-- What `create_probability_plot` shows. (oneka/visualize.py:220-255) -/
structure ProbabilityPlot where
  x : List ℝ
  y : List ℝ
  z : Grid ℝ
  marks : Markers

/-- oneka/visualize.py:167-255 `create_probability_plot`; `gaussian` is `scipy.ndimage.gaussian_filter(…, mode='constant', cval=0.0)`. -/
noncomputable def createProbabilityPlot (gaussian : Grid ℝ → ℝ → Grid ℝ) (target : ℤ) (wells : List SWell) (obs : List Obs) (f : PField ℝ)
    (smooth : ℝ) : Except PyErr ProbabilityPlot :=
  match f.body with
  | none => .error .attributeError
  | some b =>
    if b.totalWeight ≤ 0 then .error .captureZoneError
    else
      let z := if 0 < smooth then gaussian (normalized b) smooth else normalized b
      match markers target wells obs with
      | .error e => .error e
      | .ok m => .ok ⟨linspace b.xmin b.xmax f.ncols, linspace b.ymin b.ymax f.nrows, z, m⟩

/-- A filled rectangle `[x0, x1] × [y0, y1]`. (oneka/visualize.py:326-330) -/
structure Rect where
  x0 : ℝ
  x1 : ℝ
  y0 : ℝ
  y1 : ℝ

/-- oneka/visualize.py:327-331: the loop over the remaining `(j, x)`; `acc`: the filled rectangles and the area. -/
noncomputable def areaRow (z : Grid ℝ) (dx dy : ℝ) (i : ℕ) (y : ℝ) : List (ℕ × ℝ) → List Rect × ℝ → Except PyErr (List Rect × ℝ)
  | [], acc => .ok acc
  | (j, x) :: js, acc =>
    match z.get i j with
    | .error e => .error e
    | .ok v =>
      if 0 < v then areaRow z dx dy i y js (acc.1 ++ [⟨x - dx / 2, x + dx / 2, y - dy / 2, y + dy / 2⟩], acc.2 + dx * dy)
      else areaRow z dx dy i y js acc

/-- oneka/visualize.py:325-331: the loop over the remaining `(i, y)`. -/
noncomputable def areaRows (z : Grid ℝ) (dx dy : ℝ) (xs : List (ℕ × ℝ)) : List (ℕ × ℝ) → List Rect × ℝ → Except PyErr (List Rect × ℝ)
  | [], acc => .ok acc
  | (i, y) :: is, acc =>
    match areaRow z dx dy i y xs acc with
    | .error e => .error e
    | .ok acc' => areaRows z dx dy xs is acc'

/-- `enumerate(l)` (oneka/visualize.py:325-327) -/
def enumerate (l : List ℝ) : List (ℕ × ℝ) := (List.range l.length).zip l

/-- What `create_deterministic_plot` shows, and the area it returns. (oneka/visualize.py:308-351) -/
structure DeterministicPlot where
  filled : List Rect
  marks : Markers
  area : ℝ

/-- oneka/visualize.py:259-351 `create_deterministic_plot`. -/
noncomputable def createDeterministicPlot (target : ℤ) (wells : List SWell) (obs : List Obs) (f : PField ℝ) : Except PyErr DeterministicPlot :=
  match f.body with
  | none => .error .attributeError
  | some b =>
    if b.totalWeight ≤ 0 then .error .captureZoneError
    else
      let X := linspace b.xmin b.xmax f.ncols
      let Y := linspace b.ymin b.ymax f.nrows
      match X[1]?, X[0]?, Y[1]?, Y[0]? with
      | some x1, some x0, some y1, some y0 =>
        match areaRows (normalized b) (x1 - x0) (y1 - y0) (enumerate X) (enumerate Y) ([], 0) with
        | .error e => .error e
        | .ok (filled, area) =>
          match markers target wells obs with
          | .error e => .error e
          | .ok m => .ok ⟨filled, m, area⟩
      | _, _, _, _ => .error .indexError

/-- the elements of a 2-D array, row by row (oneka/visualize.py:382) -/
def Grid.flat {α : Type} (g : Grid α) : List α :=
  (List.range g.rows).flatMap fun i => (List.range g.cols).map fun j => g.val i j

/-- `np.argmax` of a boolean array, given as the list of its elements: the first True, or 0 if there is none. ValueError (not modelled) if empty. (oneka/visualize.py:385-386) -/
def argmax (l : List Bool) : ℕ := if l.any id then l.idxOf true else 0

/-- What `create_impact_plot` returns, and the points it draws. (oneka/visualize.py:382-397) -/
structure Impact where
  pr : List ℝ
  area : List ℝ
  drawn : List (ℝ × ℝ)

/-- square metres in an acre, as the code has it (oneka/visualize.py:389, oneka/oneka.py:287, 305) -/
noncomputable def acre : ℝ := 4046.86

/-- The points of the curve, as they are passed to `semilogy` (oneka/visualize.py:389): the ordinate is `area//4046.86`, whole acres. -/
noncomputable def inAcres (p : ℝ × ℝ) : ℝ × ℝ := (p.1, (⌊p.2 / acre⌋ : ℝ))

/-- oneka/visualize.py:354-397 `create_impact_plot`. -/
noncomputable def createImpactPlot (spacing : ℝ) (f : PField ℝ) : Except PyErr Impact :=
  match f.body with
  | none => .error .attributeError
  | some b =>
    if b.totalWeight ≤ 0 then .error .captureZoneError
    else
      let pr := ((normalized b).flat.mergeSort fun u v => decide (u ≤ v)).reverse
      let n := pr.length
      let area := (List.range n).map fun (k : ℕ) => ((k : ℝ) + 1) * spacing ^ 2
      let i := argmax (pr.map fun v => decide (v < 1)) - 1
      let j := min n (argmax (pr.map fun v => decide (v = 0)) + 1)
      .ok ⟨pr, area, (((pr.zip area).take j).drop i).map inAcres⟩

/-- oneka/oneka.py:285-287: the line of the table for the threshold `p`, `(pr[i], area[i])`. -/
noncomputable def decile (im : Impact) (p : ℝ) : Except PyErr (ℝ × ℝ) :=
  let i := argmax (im.pr.map fun v => decide (v ≤ p))
  match im.pr[i]?, im.area[i]? with
  | some v, some a => .ok (v, a)
  | _, _ => .error .indexError

/-- oneka/oneka.py:284-287: the lines for the remaining thresholds. -/
noncomputable def decileLoop (im : Impact) : List ℝ → Except PyErr (List (ℝ × ℝ))
  | [] => .ok []
  | p :: ps =>
    match decile im p with
    | .error e => .error e
    | .ok r =>
      match decileLoop im ps with
      | .error e => .error e
      | .ok rs => .ok (r :: rs)

/-- oneka/oneka.py:284 `np.linspace(0.05, 0.95, 19)`. -/
noncomputable def decileTable (im : Impact) : Except PyErr (List (ℝ × ℝ)) := decileLoop im (linspace (5/100) (95/100) 19)

/-- The methods and attributes of a `Model` (oneka/model.py:62-606, public names). -/
def modelAttributes : List String :=
  ["base", "conductivity", "porosity", "thickness", "wells", "xo", "yo", "coef", "compute_potential", "compute_potential_wells_only",
    "compute_discharge", "compute_head", "compute_velocity", "compute_velocity_confined", "fit_regional_flow", "construct_fit", "compute_fit"]

/-- oneka/visualize.py:400-450 `quick_capture_zone`: the loop over the remaining rays. `trace`: what the call `mo.compute_backtrack(…)` and the drawing
of its result would do if there were such a method. -/
def quickLoop (trace : ℝ → Except PyErr (List (ℝ × ℝ))) : List ℝ → List (List (ℝ × ℝ)) → Except PyErr (List (List (ℝ × ℝ)))
  | [], acc => .ok acc
  | θ :: θs, acc =>
    match if "compute_backtrack" ∈ modelAttributes then trace θ else .error .attributeError with
    | .ok c => quickLoop trace θs (acc ++ [c])
    | .error .aquiferError => quickLoop trace θs acc
    | .error e => .error e

/-- oneka/visualize.py:400-450 `quick_capture_zone`. -/
noncomputable def quickCaptureZone (trace : ℝ → Except PyErr (List (ℝ × ℝ))) (nrays : ℕ) : Except PyErr (List (List (ℝ × ℝ))) :=
  quickLoop trace (linspace 0 (2 * Real.pi) nrays) []

end Oneka
