import Verif.Py.Round
import Verif.Model.Variate

/-!
# Model of the random parameters in floating-point arithmetic (oneka/stochastic.py:274-342)

As `Variate.lean`, for distributions whose entries are Python floats, with every operation rounded. Simplification: products and sums are rounded one by one (a C compiler may contract them).
-/

namespace Oneka

/-- A distribution argument whose entries are floats: a scalar, a pair or a triple. Tuples of other lengths raise before anything is computed. (oneka/stochastic.py:296-304) -/
inductive FlDist
  | const (c : Fl)
  | pair (a b : Fl)
  | triple (a m b : Fl)

/-- the square root of C, which IEEE 754 determines (oneka/stochastic.py:302, inside numpy) -/
noncomputable def flSqrt (x : Fl) : Fl := Fl.of (Real.sqrt x.val)

/-- `np.random.uniform(low, high)` as numpy computes it. (oneka/stochastic.py:300) -/
noncomputable def flUniform (low high u : Fl) : Fl := low + (high - low) * u

/-- `np.random.triangular(left, mode, right)` as numpy computes it. (oneka/stochastic.py:302) -/
noncomputable def flTriangular (left mode right u : Fl) : Except PyErr Fl :=
  if mode < left then .error .valueError
  else if right < mode then .error .valueError
  else if left = right then .error .valueError
  else
    let base := right - left
    let leftbase := mode - left
    let ratio := leftbase / base
    let leftprod := leftbase * base
    let rightprod := (right - mode) * base
    if u ≤ ratio then .ok (left + flSqrt (u * leftprod))
    else .ok (right - flSqrt ((((1 : ℕ) : Fl) - u) * rightprod))

/-- oneka/stochastic.py:274-306 `generate_random_variate`. -/
noncomputable def FlDist.sample (d : FlDist) (u : Fl) : Except PyErr Fl :=
  match d with
  | .const c => .ok c
  | .pair a b => .ok (flUniform a b u)
  | .triple a m b => flTriangular a m b u

/-- oneka/stochastic.py:310-342 `compute_variate_mean`. -/
noncomputable def FlDist.mean : FlDist → Fl
  | .const c => c
  | .pair a b => (a + b) / ((2 : ℕ) : Fl)
  | .triple a m b => (a + m + b) / ((3 : ℕ) : Fl)

end Oneka
