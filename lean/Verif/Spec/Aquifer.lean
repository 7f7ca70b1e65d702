import Mathlib.MeasureTheory.Integral.IntervalIntegral.Basic
import Verif.Model.Aquifer
import Verif.Py.Ext

/-!
# Vocabulary for the properties of the aquifer model

Textbook formulas, independent of the loops in the code.
-/

namespace Oneka

/-- `A u² + B v² + C u v + D u + E v + F` -/
def conic (c : Fin 6 → ℝ) (u v : ℝ) : ℝ := c 0 * u ^ 2 + c 1 * v ^ 2 + c 2 * u * v + c 3 * u + c 4 * v + c 5

/-- Squared distance from the well. -/
def Well.r2 (w : Well ℝ) (x y : ℝ) : ℝ := (x - w.xw) ^ 2 + (y - w.yw) ^ 2

/-- `(x, y)` is not the location of a well. -/
def Aquifer.OffWells (m : Aquifer ℝ) (x y : ℝ) : Prop := ∀ w ∈ m.wells, (x, y) ≠ (w.xw, w.yw)

/-- The discharge potential of the textbook for a head `h` above the base: unconfined (`h < T`) or confined. -/
noncomputable def potentialOfHead (K T h : ℝ) : ℝ := if h < T then K * h ^ 2 / 2 else K * T * (h - T / 2)

/-- The flow of the vector field `Q` out of the disk of radius `R` around `(cx, cy)`: `∮ Q·n ds`. -/
noncomputable def outflow (Q : ℝ → ℝ → ℝ × ℝ) (cx cy R : ℝ) : ℝ :=
  ∫ θ in (0:ℝ)..2 * Real.pi, ((Q (cx + R * Real.cos θ) (cy + R * Real.sin θ)).1 * Real.cos θ
    + (Q (cx + R * Real.cos θ) (cy + R * Real.sin θ)).2 * Real.sin θ) * R

/-- Physical parameters. -/
structure Aquifer.Physical (m : Aquifer ℝ) : Prop where
  conductivity : 0 < m.conductivity
  porosity : 0 < m.porosity
  thickness : 0 < m.thickness

/-- The groundwater velocity reported by the library at `p` (with the saturated thickness taken as constant if `confined`), reversed. -/
def Aquifer.reverseVelocity {F : Type} [Add F] [Sub F] [Mul F] [Div F] [Neg F] [LT F] [DecidableLT F] [LE F] [DecidableLE F] [PyMath F] (m : Aquifer F) (confined : Bool)
    (p : F × F) : Except PyErr (F × F) :=
  (if confined then .ok (m.velocityConfined p.1 p.2) else m.velocity p.1 p.2).map fun v => (-v.1, -v.2)

/-- Expected potential at an observation (head `h` above the base with standard deviation `σ`): `E[K H²/2]` for an unconfined head, linear for a confined one. -/
noncomputable def expectedPotential (K T h σ : ℝ) : ℝ := potentialOfHead K T h + if h < T then K * σ ^ 2 / 2 else 0

/-- Its standard deviation to first order: `σ` times the slope `dΦ/dh = K·min(h, T)`. -/
noncomputable def potentialStd (K T h σ : ℝ) : ℝ := K * min h T * σ

/-- The weighted squared misfit of a potential `Φ` to the observations. -/
noncomputable def misfit (m : Aquifer ℝ) (obs : List Obs) (Φ : ℝ → ℝ → ℝ) : ℝ :=
  (obs.map fun o => ((Φ o.x o.y - expectedPotential m.conductivity m.thickness (o.z - m.base) o.std) /
    potentialStd m.conductivity m.thickness (o.z - m.base) o.std) ^ 2).sum

/-- All observations lie on one conic (possibly degenerate: line pairs, a point, …). -/
def OnOneConic (obs : List Obs) : Prop := ∃ c : Fin 6 → ℝ, c ≠ 0 ∧ ∀ o ∈ obs, conic c o.x o.y = 0

/-- Usable observations: above the base, with a positive standard deviation, not exactly at a well. -/
def Aquifer.Usable (m : Aquifer ℝ) (obs : List Obs) : Prop := ∀ o ∈ obs, m.base < o.z ∧ 0 < o.std ∧ m.OffWells o.x o.y

/-- A row of a weighted system with finite entries, as floats. -/
def finRow (r : (Fin 6 → ℝ) × ℝ) : (Fin 6 → XR) × XR := (fun i => .fin (r.1 i), .fin r.2)

/-- A row contains inf or NaN. -/
def NonFinite (r : (Fin 6 → XR) × XR) : Prop := (∃ i, ¬ (r.1 i).IsFin) ∨ ¬ r.2.IsFin

/-- The contract of `np.linalg.lstsq` and `np.linalg.inv` in exact arithmetic. On finite data `lstsq` returns a minimiser of the sum of
squared residuals; `inv` returns the two-sided inverse, and raises exactly for singular matrices. They raise nothing but LinAlgError. -/
structure LinAlg.Correct (la : LinAlg) : Prop where
  lstsq_min : ∀ (rows : List ((Fin 6 → ℝ) × ℝ)) (c : Fin 6 → ℝ), la.lstsq (rows.map finRow) = .ok c → ∀ c' : Fin 6 → ℝ,
    (rows.map fun r => (∑ i, r.1 i * c i - r.2) ^ 2).sum ≤ (rows.map fun r => (∑ i, r.1 i * c' i - r.2) ^ 2).sum
  lstsq_err : ∀ rows e, la.lstsq rows = .error e → e = .linAlgError
  inv_ok : ∀ (A B : Matrix (Fin 6) (Fin 6) ℝ), la.inv (fun i j => .fin (A i j)) = .ok B → A * B = 1 ∧ B * A = 1
  inv_err : ∀ A e, la.inv A = .error e → e = .linAlgError
  inv_singular : ∀ (A : Matrix (Fin 6) (Fin 6) ℝ) (e : PyErr), la.inv (fun i j => .fin (A i j)) = .error e → ¬ ∃ B : Matrix (Fin 6) (Fin 6) ℝ, A * B = 1

/-- `lstsq` converges for finite data (numpy's only failure mode on finite data is non-convergence of the SVD). -/
def LinAlg.Converges (la : LinAlg) : Prop := ∀ rows : List ((Fin 6 → ℝ) × ℝ), ∃ c, la.lstsq (rows.map finRow) = .ok c

/-- `lstsq` raises LinAlgError if there is an inf or NaN in its data (the SVD of LAPACK does not converge). -/
def LinAlg.Strict (la : LinAlg) : Prop := ∀ rows, (∃ r ∈ rows, NonFinite r) → la.lstsq rows = .error .linAlgError

/-- `(x, y)` is clear of singularities: at least `δ` away from every well and, if the aquifer is not treated as confined, with a head of at least `δ` above
the base where there is one. -/
def Aquifer.Clear (m : Aquifer ℝ) (confined : Bool) (δ x y : ℝ) : Prop :=
  (∀ w ∈ m.wells, δ ≤ Real.sqrt ((x - w.xw) ^ 2 + (y - w.yw) ^ 2)) ∧
  (confined = false → ∀ h, m.head x y = .ok h → δ ≤ h)

end Oneka
