import Verif.Model.Oneka
import Verif.Spec.Oneka

/-!
# Listing the wells in another order
-/

namespace Oneka

/-- `l'` lists the elements of `l` in another order: its `j`-th element is the `σ j`-th of `l`; beyond the end `σ` does nothing. -/
structure Reorders {α : Type} (σ : Equiv.Perm ℕ) (l l' : List α) : Prop where
  at_ : ∀ j, l'[j]? = l[σ j]?
  beyond : ∀ j, l.length ≤ j → σ j = j

/-- The same draws, but the `j`-th call gets what the `σ j`-th call got. -/
def Env.reorder (σ : Equiv.Perm ℕ) (env : Env) : Env := { env with u := fun i j => env.u i (σ j) }

/-- A scalar, a pair or a triple. -/
def Dist.Proper : Dist → Prop
  | .const _ => True
  | .tuple l => l.length = 2 ∨ l.length = 3

/-- Two models that differ at most in the order of their wells. -/
structure Aquifer.SameButOrder (m m' : Aquifer ℝ) : Prop where
  base : m'.base = m.base
  conductivity : m'.conductivity = m.conductivity
  porosity : m'.porosity = m.porosity
  thickness : m'.thickness = m.thickness
  wells : m.wells.Perm m'.wells
  xo : m'.xo = m.xo
  yo : m'.yo = m.yo
  coef : m'.coef = m.coef

/-- Two realizations that differ at most in the order of the wells of the model. -/
structure RealizationLog.SameButOrder (l l' : RealizationLog) : Prop where
  model : l.model.SameButOrder l'.model
  ev : l'.ev = l.ev
  cov : l'.cov = l.cov
  recharge : l'.recharge = l.recharge
  traces : l'.traces = l.traces

/-- Two results that differ at most in the order of the wells of the models. -/
structure RunResult.SameButOrder (r r' : RunResult) : Prop where
  outcome : r'.outcome = r.outcome
  log : List.Forall₂ RealizationLog.SameButOrder r.log r'.log

/-- Markers that differ at most in the order of the wells. -/
structure Markers.SameButOrder (m m' : Markers) : Prop where
  wells : m.wells.Perm m'.wells
  target : m'.target = m.target
  obs : m'.obs = m.obs

/-- Figures that differ at most in the order in which wells are drawn. -/
inductive Figure.SameButOrder : Figure → Figure → Prop
  | probability (x y : List ℝ) (z : Grid ℝ) (m m' : Markers) : m.SameButOrder m' → Figure.SameButOrder (.probability ⟨x, y, z, m⟩) (.probability ⟨x, y, z, m'⟩)
  | same (f : Figure) : Figure.SameButOrder f f
  | deterministic (r : List Rect) (m m' : Markers) (a : ℝ) : m.SameButOrder m' → Figure.SameButOrder (.deterministic ⟨r, m, a⟩) (.deterministic ⟨r, m', a⟩)

/-- Filtering messages that differ at most in which of the wells within the buffer is named. -/
inductive FilterLine.SameButWell : FilterLine → FilterLine → Prop
  | same (l : FilterLine) : FilterLine.SameButWell l l
  | removed (ob : Obs) (w w' : ℝ × ℝ) : FilterLine.SameButWell (.removed ob w) (.removed ob w')

/-- The same call with other wells and another target. -/
def Inputs.withWells (n : Inputs) (wells : List SWell) (target : ℤ) : Inputs := { n with run := { n.run with wells := wells, target := target } }

end Oneka
