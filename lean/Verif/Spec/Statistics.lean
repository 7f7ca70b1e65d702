import Mathlib.MeasureTheory.Constructions.BorelSpace.Real
import Mathlib.LinearAlgebra.Matrix.PosDef
import Mathlib.Probability.Distributions.Gaussian.Real
import Mathlib.Probability.Independence.Basic
import Verif.Spec.Run

/-!
# Vocabulary for the statistical properties of runs
-/

namespace Oneka

/-- Floats: a set is measurable if its finite part is. -/
instance : MeasurableSpace XR := MeasurableSpace.map XR.fin inferInstance

/-- Matrices as arrays. -/
instance : MeasurableSpace (Matrix (Fin 6) (Fin 6) ℝ) := inferInstanceAs (MeasurableSpace (Fin 6 → Fin 6 → ℝ))

/-- A partial function: its domain is measurable, and its values are those of a measurable function. -/
def PartMeasurable {D B : Type} [MeasurableSpace D] [MeasurableSpace B] (f : D → Option B) : Prop :=
  ∃ (s : Set D) (g : D → B), MeasurableSet s ∧ Measurable g ∧ ∀ d b, f d = some b ↔ d ∈ s ∧ b = g d

/-- The random numbers of one realization: the draws of the calls of `generate_random_variate`, and the six numbers from which the coefficients are made. -/
abbrev Numbers := (ℕ → ℝ) × (Fin 6 → ℝ)

/-- `multivariate_normal(ev, cov)` as a function of the numbers it consumes. -/
abbrev NormalGen := (Fin 6 → ℝ) → Matrix (Fin 6) (Fin 6) ℝ → (Fin 6 → ℝ) → Except PyErr (Fin 6 → ℝ)

/-- The environment in which realization `i` consumes the numbers `x i`, and nothing interrupts the run. -/
def envOf (la : LinAlg) (mv : NormalGen) (x : ℕ → Numbers) : Env := ⟨la, fun i => (x i).1, fun i ev cov => mv ev cov (x i).2, fun _ _ _ => none⟩

/-- With the numbers `x` a realization of the run `a` around the well `t` can be carried out: it has a model, a fit and all its traces. -/
def ReturnsWith (a : RunArgs) (la : LinAlg) (mv : NormalGen) (t : SWell) (x : Numbers) : Prop :=
  ∃ L, Realized a la t (fun d j => d.sample (x.1 j)) (fun ev cov => mv ev cov x.2) (fun _ _ => none) L

/-- … and one of the traces passes within the umbra of `(X, Y)`. -/
def CapturedWith (a : RunArgs) (la : LinAlg) (mv : NormalGen) (t : SWell) (X Y : ℝ) (x : Numbers) : Prop :=
  ∃ L, Realized a la t (fun d j => d.sample (x.1 j)) (fun ev cov => mv ev cov x.2) (fun _ _ => none) L ∧ L.Captures a.umbra X Y

/-- The generator is a (partial) measurable function of the parameters and the numbers it consumes. -/
def NormalGen.IsMeasurable (mv : NormalGen) : Prop :=
  PartMeasurable fun p : ((Fin 6 → ℝ) × Matrix (Fin 6) (Fin 6) ℝ) × (Fin 6 → ℝ) => (mv p.1.1 p.1.2 p.2).toOption

/-- `x 0, x 1, …` are independent, and each has the law `ν`. -/
structure IidNumbers {Ω : Type} [MeasurableSpace Ω] (μ : MeasureTheory.Measure Ω) (ν : MeasureTheory.Measure Numbers) (x : ℕ → Ω → Numbers) : Prop where
  measurable : ∀ i, Measurable (x i)
  law : ∀ i, μ.map (x i) = ν
  indep : ProbabilityTheory.iIndepFun x μ

/-- How `multivariate_normal` makes its answer, for a covariance matrix that is one: a factor of the matrix times the numbers, plus the mean. -/
def NormalGen.Factors (mv : NormalGen) : Prop :=
  ∀ (ev : Fin 6 → ℝ) (cov : Matrix (Fin 6) (Fin 6) ℝ), cov.PosSemidef → ∃ B : Matrix (Fin 6) (Fin 6) ℝ, B * B.transpose = cov ∧ ∀ z, mv ev cov z = .ok (ev + B.mulVec z)

/-- The six numbers are independent standard normal numbers. -/
structure StandardNormals {Ω : Type} [MeasurableSpace Ω] (μ : MeasureTheory.Measure Ω) (z : Ω → Fin 6 → ℝ) : Prop where
  measurable : Measurable z
  law : μ.map z = MeasureTheory.Measure.pi fun _ => ProbabilityTheory.gaussianReal 0 1

end Oneka
