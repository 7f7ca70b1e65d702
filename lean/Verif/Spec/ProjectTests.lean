import Verif.Spec.Aquifer

/-! The data of the project's own tests (tests/test_model.py, tests/test_probabilityfield.py), whose expected values come from the author's earlier MatLab code. -/

namespace Oneka

/-- `np.isclose(a, b, rtol)` (with numpy's default `atol`); `np.allclose` is the same for all entries. -/
def IsClose (rtol a b : ℝ) : Prop := |a - b| ≤ 1 / 10 ^ 8 + rtol * |b|

/-- The fixture `my_model` of tests/test_model.py:27-43 -/
noncomputable def testModel : Except PyErr (Aquifer ℝ) :=
  Aquifer.new 500 1 0.25 100 [⟨100, 200, 1, 1000⟩, ⟨200, 100, 1, 1000⟩] 0 0 [1, 1, 1, 1, 1, 500]

/-- The observations of tests/test_model.py:92-117. -/
noncomputable def testObs : List Obs :=
  [⟨23, 11, 573.64, 0.10⟩,
   ⟨24, 85, 668.55, 0.10⟩,
   ⟨26, 80, 661.58, 0.10⟩,
   ⟨28, 65, 637.97, 0.10⟩,
   ⟨37, 50, 626.62, 0.10⟩,
   ⟨41, 21, 598.85, 0.10⟩,
   ⟨42, 53, 637.51, 0.10⟩,
   ⟨42, 74, 673.32, 0.10⟩,
   ⟨45, 70, 670.52, 0.10⟩,
   ⟨46, 15, 599.43, 0.10⟩,
   ⟨52, 76, 694.14, 0.10⟩,
   ⟨58, 90, 736.75, 0.10⟩,
   ⟨64, 22, 629.54, 0.10⟩,
   ⟨71, 19, 637.34, 0.10⟩,
   ⟨72, 36, 660.54, 0.10⟩,
   ⟨72, 55, 691.45, 0.10⟩,
   ⟨74, 50, 686.57, 0.10⟩,
   ⟨75, 18, 642.92, 0.10⟩,
   ⟨76, 43, 678.80, 0.10⟩,
   ⟨77, 79, 752.05, 0.10⟩,
   ⟨79, 66, 727.81, 0.10⟩,
   ⟨81, 81, 766.23, 0.10⟩,
   ⟨82, 77, 759.15, 0.10⟩,
   ⟨86, 26, 673.24, 0.10⟩,
   ⟨90, 57, 734.72, 0.10⟩]

/-- The expected values of the coefficients, tests/test_model.py:81. -/
noncomputable def testEv : Fin 6 → ℝ := ![0.9916, 0.9956, 0.9422, 171.85, 165.8, 9667.8]

/-- Their expected covariances, tests/test_model.py:83-89. -/
noncomputable def testCov : Matrix (Fin 6) (Fin 6) ℝ :=
  ![![(3195 / 100000000), (-2031 / 1000000000), (-2437 / 1000000000), (2176 / 10000000), (-3117 / 100000000), (-1340 / 100000)],
    ![(-2031 / 1000000000), (1917 / 100000000), (-3666 / 1000000000), (1282 / 10000000), (1297 / 10000000), (-1121 / 100000)],
    ![(-2437 / 1000000000), (-3666 / 1000000000), (1294 / 100000000), (-2745 / 100000000), (5914 / 100000000), (3349 / 1000000)],
    ![(2176 / 10000000), (1282 / 10000000), (-2745 / 100000000), (1083 / 100000), (6399 / 10000000), (-1719 / 10000)],
    ![(-3117 / 100000000), (1297 / 10000000), (5914 / 100000000), (6399 / 10000000), (7370 / 1000000), (-6047 / 100000)],
    ![(-1340 / 100000), (-1121 / 100000), (3349 / 1000000), (-1719 / 10000), (-6047 / 100000), (1715 / 100)]]

end Oneka
