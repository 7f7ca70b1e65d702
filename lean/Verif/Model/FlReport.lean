import Verif.Py.Round
import Verif.Model.Visualize

/-!
# The impact curve and the decile table in floating-point arithmetic

The same code as `createImpactPlot` and `decileTable` of `Model/Visualize.lean`, with every operation rounded to 53 binary digits. `sq` is `spacing**2` as
computed by the C library.
-/

namespace Oneka

/-- `np.linspace(a, b, n)`: `step = (b - a)/(n - 1)`; `arange(n)*step + a`; the last element is replaced by `b`. (oneka/oneka.py:284; the function of numpy) -/
noncomputable def flLinspace (a b : Fl) (n : ℕ) : List Fl :=
  (List.range n).map fun (k : ℕ) => if k + 1 = n ∧ 1 < n then b else (k : Fl) * ((b - a) / ((n - 1 : ℕ) : Fl)) + a

/-- `pf.pgrid/pf.total_weight` (oneka/visualize.py:382), for a positive total weight. -/
noncomputable def flNormalized (b : Body Fl) : Grid Fl := { b.pgrid with val := fun i j => b.pgrid.val i j / b.totalWeight }

/-- What `create_impact_plot` returns, and the range `[lo:hi]` of the points it draws. (oneka/visualize.py:382-390) -/
structure FlImpact where
  pr : List Fl
  area : List Fl
  lo : ℕ
  hi : ℕ

/-- oneka/visualize.py:354-397 `create_impact_plot`. -/
noncomputable def flImpactPlot (sq : Fl) (f : PField Fl) : Except PyErr FlImpact :=
  match f.body with
  | none => .error .attributeError
  | some b =>
    if b.totalWeight ≤ 0 then .error .captureZoneError
    else
      let pr := ((flNormalized b).flat.mergeSort fun u v => decide (u ≤ v)).reverse
      let n := pr.length
      let area := (List.range n).map fun (k : ℕ) => ((k + 1 : ℕ) : Fl) * sq
      .ok ⟨pr, area, argmax (pr.map fun v => decide (v < ((1 : ℕ) : Fl))) - 1, min n (argmax (pr.map fun v => decide (v = 0)) + 1)⟩

/-- oneka/oneka.py:285-287: the line of the table for the threshold `p`, `(pr[i], area[i])`. -/
noncomputable def flDecile (im : FlImpact) (p : Fl) : Except PyErr (Fl × Fl) :=
  let i := argmax (im.pr.map fun v => decide (v ≤ p))
  match im.pr[i]?, im.area[i]? with
  | some v, some a => .ok (v, a)
  | _, _ => .error .indexError

/-- oneka/oneka.py:284-287: the lines for the remaining thresholds. -/
noncomputable def flDecileLoop (im : FlImpact) : List Fl → Except PyErr (List (Fl × Fl))
  | [] => .ok []
  | p :: ps =>
    match flDecile im p with
    | .error e => .error e
    | .ok r =>
      match flDecileLoop im ps with
      | .error e => .error e
      | .ok rs => .ok (r :: rs)

/-- oneka/oneka.py:284-287 `for p in np.linspace(0.05, 0.95, 19)`. -/
noncomputable def flDecileTable (im : FlImpact) : Except PyErr (List (Fl × Fl)) := flDecileLoop im (flLinspace (Fl.of (5/100)) (Fl.of (95/100)) 19)

end Oneka
