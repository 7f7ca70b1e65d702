import Verif.Model.Aquifer

/-!
# The velocity function that the runs hand to the tracer
-/

namespace Oneka

/-- oneka/stochastic.py:253-260 and oneka/deterministic.py:221-228, the local function `feval`: the velocity reversed. -/
def Aquifer.backVelocity {F : Type} [Add F] [Sub F] [Mul F] [Div F] [Neg F] [LT F] [DecidableLT F] [LE F] [DecidableLE F]
    [PyMath F] (m : Aquifer F) (confined : Bool) (xy : F × F) : Except PyErr (F × F) :=
  if confined then
    let V := m.velocityConfined xy.1 xy.2
    .ok (-V.1, -V.2)
  else
    match m.velocity xy.1 xy.2 with
    | .error e => .error e
    | .ok V => .ok (-V.1, -V.2)

end Oneka
