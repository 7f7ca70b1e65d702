import Verif.Py.Basic
import Mathlib.Analysis.SpecialFunctions.Exp

/-!
# Model of the smoothing of the probability map

`scipy.ndimage.gaussian_filter(Z, smooth, mode='constant', cval=0.0)` (oneka/visualize.py:232-233), in exact arithmetic, as documented by scipy: one pass along each axis, `truncate=4.0`.
-/

namespace Oneka

/-- The radius of the kernel, `int(truncate * sd + 0.5)`. (oneka/visualize.py:233, `truncate` being 4 by default) -/
noncomputable def kernelRadius (sigma : ℝ) : ℕ := ⌊4 * sigma + 1/2⌋₊

/-- The kernel of the filter: `phi_x = exp(-0.5 / sigma2 * x ** 2)` for `x = -radius, …, radius`, divided by its sum. (oneka/visualize.py:233) -/
noncomputable def gaussKernel (sigma : ℝ) : List ℝ :=
  let phi := (List.range (2 * kernelRadius sigma + 1)).map fun (k : ℕ) => Real.exp (-(1/2) / (sigma * sigma) * ((k : ℝ) - kernelRadius sigma) ^ 2)
  phi.map fun v => v / phi.sum

/-- The input extended by `cval=0.0` beyond its borders: `mode='constant'`. (oneka/visualize.py:233) -/
def zeroPadded (g : Grid ℝ) (i j : ℤ) : ℝ := if 0 ≤ i ∧ i < g.rows ∧ 0 ≤ j ∧ j < g.cols then g.val i.toNat j.toNat else 0

/-- One pass of the filter along the first axis. (oneka/visualize.py:233) -/
def passRows (weights : List ℝ) (radius : ℕ) (g : Grid ℝ) : Grid ℝ :=
  { g with val := fun i j => (weights.zipIdx.map fun wk => wk.1 * zeroPadded g ((i : ℤ) + wk.2 - radius) j).sum }

/-- One pass of the filter along the second axis. (oneka/visualize.py:233) -/
def passCols (weights : List ℝ) (radius : ℕ) (g : Grid ℝ) : Grid ℝ :=
  { g with val := fun i j => (weights.zipIdx.map fun wk => wk.1 * zeroPadded g i ((j : ℤ) + wk.2 - radius)).sum }

/-- `scipy.ndimage.gaussian_filter(g, sigma, mode='constant', cval=0.0)` (oneka/visualize.py:233): axes with a `sigma` of at most 1e-15 are skipped, otherwise the first axis is filtered, then the second. -/
noncomputable def gaussianFilter (g : Grid ℝ) (sigma : ℝ) : Grid ℝ :=
  if 1 / 10 ^ 15 < sigma then passCols (gaussKernel sigma) (kernelRadius sigma) (passRows (gaussKernel sigma) (kernelRadius sigma) g) else g

end Oneka
