import Verif.Lemmas.ProjectTests
import Verif.Props.Fit
import Verif.Model.ProbabilityField

/-!
# C115: the project's own tests

The expected values of tests/test_model.py come from the author's earlier MatLab code. That they hold of the model, in exact arithmetic and for every linear-algebra package that meets its contract, ties the model to what the
author means it to compute, and shows that what the tests see does not depend on the package.
-/

namespace Oneka
open Aquifer ProjectTest

/-- The fixture is a model. -/
theorem C115_model : ∃ m, testModel = .ok m := ⟨_, rfl⟩

/-- tests/test_model.py:46-49 `test_model_compute_potential` -/
theorem C115_potential {m : Aquifer ℝ} (hm : testModel = .ok m) : IsClose 1e-6 (m.potential 100 100) 32165.8711977589 := by
  rw [testModel_eq hm]
  refine potential_100.trans ?_
  norm_num

/-- tests/test_model.py:52-55 `test_model_compute_head` -/
theorem C115_head {m : Aquifer ℝ} (hm : testModel = .ok m) : ∃ h, m.head 100 100 = .ok h ∧ IsClose 1e-6 h 371.658711977589 := by
  rw [testModel_eq hm]
  have h := abs_le.mp potential_100
  refine ⟨_, model_head (by linarith), ?_⟩
  unfold IsClose
  rw [abs_le]
  norm_num at h ⊢
  constructor <;> linarith

/-- tests/test_model.py:58-63 `test_model_compute_discharge` -/
theorem C115_discharge {m : Aquifer ℝ} (hm : testModel = .ok m) :
    IsClose 1e-6 (m.discharge 120 160).1 (-401.318309886184) ∧ IsClose 1e-6 (m.discharge 120 160).2 (-438.771830796713) := by
  rw [testModel_eq hm, discharge_120]
  unfold IsClose twoPiInv
  constructor <;> · rw [abs_le]; norm_num

/-- tests/test_model.py:66-77 `test_model_compute_velocity` -/
theorem C115_velocity {m : Aquifer ℝ} (hm : testModel = .ok m) :
    (∃ V, m.velocity 100 100 = .ok V ∧ IsClose 1e-6 V.1 (-11.976338022763) ∧ IsClose 1e-6 V.2 (-11.976338022763)) ∧
    ∃ V, m.velocity 120 160 = .ok V ∧ IsClose 1e-6 V.1 (-16.052732395447) ∧ IsClose 1e-6 V.2 (-17.550873231869) := by
  rw [testModel_eq hm]
  have h := abs_le.mp potential_100
  refine ⟨⟨_, model_velocity (by linarith), ?_⟩, ⟨_, model_velocity potential_120, ?_⟩⟩
  · rw [discharge_100]
    unfold IsClose twoPiInv
    constructor <;> · rw [abs_le]; norm_num
  · rw [discharge_120]
    unfold IsClose twoPiInv
    constructor <;> · rw [abs_le]; norm_num

/-- tests/test_model.py:80-122 `test_model_compute_fit`: the fit returns, and coefficients and covariances are within 0.1 % of the expected values, whatever package is used. -/
theorem C115_fit {m : Aquifer ℝ} (hm : testModel = .ok m) (la : LinAlg) (hla : la.Correct) (hc : la.Converges) :
    ∃ ev cov, (m.fitRegionalFlow la testObs 58.52 52.76).2 = .ok (ev, cov) ∧ (∀ i, IsClose 0.001 (ev i) (testEv i)) ∧ ∀ i j, IsClose 0.001 (cov i j) (testCov i j) := by
  rw [testModel_eq hm]
  have hK : 0 < ProjectTest.model.conductivity := by show (0 : ℝ) < 1; norm_num
  have hT : 0 < ProjectTest.model.thickness := by show (0 : ℝ) < 100; norm_num
  have e3 : (0.001 : ℝ) = 1 / 1000 := by norm_num
  rw [fit_usable hK hT _ _ usable, e3]
  obtain ⟨ev, hl⟩ := hc (testObs.map (ProjectTest.model.rowOf 58.52 52.76))
  simp only [hl]
  cases hi : la.inv (fun i j => .fin (gram ((testObs.map (ProjectTest.model.rowOf 58.52 52.76)).map Prod.fst) i j)) with
  | error e => exact absurd ⟨_, gram_inv⟩ (hla.inv_singular _ e hi)
  | ok cov =>
    refine ⟨ev, cov, rfl, ?_, ?_⟩
    · have hd : (gram ((testObs.map (ProjectTest.model.rowOf 58.52 52.76)).map Prod.fst)).det ≠ 0 := by
        have := congrArg Matrix.det gram_inv
        rw [Matrix.det_mul, Matrix.det_one] at this
        exact left_ne_zero_of_mul_eq_one this
      have h := minimiser_eq hd (hla.lstsq_min _ _ hl)
      rw [Matrix.inv_eq_right_inv gram_inv] at h
      exact ev_near h
    · have h : cov = Matrix.of (fun i j => ((invQ i j : ℚ) : ℝ)) := by
        have h2 := (hla.inv_ok _ _ hi).2
        calc cov = cov * (gram ((testObs.map (ProjectTest.model.rowOf 58.52 52.76)).map Prod.fst) * Matrix.of (fun i j => ((invQ i j : ℚ) : ℝ))) := by rw [gram_inv, mul_one]
          _ = _ := by rw [← mul_assoc, h2, one_mul]
      intro i j
      rw [h]
      exact cov_near i j

/-- tests/test_probabilityfield.py:24-30 `test_probabilityfield_constructor` -/
theorem C115_constructor : PField.new (0 : ℝ) 0 none none = .error .rangeError ∧ ∃ f, PField.new (1 : ℝ) 1 none none = .ok f ∧ f.deltax = 1 ∧ f.deltay = 1 := by
  refine ⟨by simp [PField.new], ⟨1, 1, 0, 0, none⟩, ?_, rfl, rfl⟩
  unfold PField.new
  rw [if_neg (by norm_num), if_neg (by norm_num)]

/-- tests/test_probabilityfield.py:33-49 `test_probabilityfield_expand` -/
theorem C115_expand {f : PField ℝ} (hf : PField.new (1 : ℝ) 1 none none = .ok f) :
    f.expand 1 0 1 0 = some (.error .rangeError) ∧
    ∃ g, f.expand 100 200 50 100 = some (.ok g) ∧ g.nrows = 53 ∧ g.ncols = 103 ∧
      (∃ b, g.body = some b ∧ b.xmin = 99 ∧ b.xmax = 201 ∧ b.ymin = 49 ∧ b.ymax = 101) ∧
      ∃ h, g.expand 150 175 75 100 = some (.ok h) ∧ h.nrows = 53 ∧ h.ncols = 103 := by
  have e : f = ⟨1, 1, 0, 0, none⟩ := by
    unfold PField.new at hf
    rw [if_neg (by norm_num), if_neg (by norm_num)] at hf
    exact (Except.ok.inj hf).symm
  subst e
  have c1 : PyFloor.ceil (((200 : ℝ) - (100 - 1)) / 1) = 101 := by
    show ⌈((200 : ℝ) - (100 - 1)) / 1⌉ = 101
    norm_num
  have c2 : PyFloor.ceil (((100 : ℝ) - (50 - 1)) / 1) = 51 := by
    show ⌈((100 : ℝ) - (50 - 1)) / 1⌉ = 51
    norm_num
  refine ⟨by simp [PField.expand], ?_⟩
  have hx : (PField.mk (1 : ℝ) 1 0 0 none).expand 100 200 50 100 = some (.ok ⟨1, 1, 53, 103, some ⟨99, 201, 49, 101, 0, Grid.full 53 103 0, Grid.full 53 103 false⟩⟩) := by
    unfold PField.expand
    rw [if_neg (by norm_num), if_neg (by norm_num), if_pos (by simp)]
    simp only [c1, c2]
    norm_num
    exact ⟨rfl, rfl, rfl, rfl⟩
  refine ⟨_, hx, rfl, rfl, ⟨_, rfl, rfl, rfl, rfl, rfl⟩, ?_⟩
  have g1 : growLow (150 : ℝ) 1 99 103 0 = some (99, 103, 0) := by rw [growLow, if_neg (by norm_num)]
  have g2 : growHigh (175 : ℝ) 1 201 103 = some (201, 103) := by rw [growHigh, if_neg (by norm_num)]
  have g3 : growLow (75 : ℝ) 1 49 53 0 = some (49, 53, 0) := by rw [growLow, if_neg (by norm_num)]
  have g4 : growHigh (100 : ℝ) 1 101 53 = some (101, 53) := by rw [growHigh, if_neg (by norm_num)]
  have hy : (PField.mk (1 : ℝ) 1 53 103 (some ⟨99, 201, 49, 101, 0, Grid.full 53 103 0, Grid.full 53 103 false⟩)).expand 150 175 75 100 =
      some (.ok ⟨1, 1, 53, 103, some ⟨99, 201, 49, 101, 0, Grid.full 53 103 0, Grid.full 53 103 false⟩⟩) := by
    unfold PField.expand
    rw [if_neg (by norm_num), if_neg (by norm_num), if_neg (by norm_num)]
    simp only [g1, g2, g3, g4]
    rw [if_neg (by simp)]
  exact ⟨_, hy, rfl, rfl⟩

/-- tests/test_probabilityfield.py:52-53 `test_probabilityfield_distancesquared` (all arguments are Python integers) -/
theorem C115_distancesquared : distancesquared false (0 : ℝ) 1 1 0 0 0 = .ok (some 0.5) := by
  unfold distancesquared
  norm_num

/-- The contracts are met. -/
example : perfect.Correct ∧ perfect.Converges := ⟨perfect_correct, perfect_converges⟩

end Oneka
