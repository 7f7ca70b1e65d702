import Verif.Props.Rain
import Verif.Props.StraightExamples

/-!
# Examples for C151
-/

namespace Oneka

open Aquifer

/-- 4 mm of recharge a day on the aquifer of `StraightExamples.lean` -/
theorem rain_raining : rainModel.Raining ⟨0, 0, 2, 100⟩ (1/250) :=
  ⟨rfl, ⟨rfl, rfl⟩, ⟨by norm_num [rainModel], by norm_num [rainModel]⟩, ⟨by simp [rainModel], by simp [rainModel], by simp [rainModel]⟩⟩

/-- The circle that balances 100 m³ a day has a radius of some 89 m. -/
theorem rain_between {R : ℝ} (h0 : 0 < R) (h : |1/250 * (Real.pi * R ^ 2) - 100| ≤ 100 / 10 ^ 16) : 80 < R ∧ R < 90 := by
  obtain ⟨h1, h2⟩ := abs_le.mp h
  have p1 := Real.pi_gt_three
  have p2 := Real.pi_lt_d2
  have p3 := Real.pi_gt_d2
  constructor
  · by_contra hc
    push Not at hc
    have hR : R ^ 2 ≤ 6400 := by nlinarith
    nlinarith [mul_le_mul_of_nonneg_left hR Real.pi_pos.le]
  · by_contra hc
    push Not at hc
    have hR : 8100 ≤ R ^ 2 := by nlinarith
    nlinarith [mul_le_mul_of_nonneg_left hR Real.pi_pos.le]

private theorem start_three : euclid ((3:ℝ), (0:ℝ)) (0, 0) = 3 := by
  simp only [euclid]
  rw [show ((0:ℝ) - 3) ^ 2 + (0 - 0) ^ 2 = 3 ^ 2 by norm_num]
  exact Real.sqrt_sq (by norm_num)

/-- `C151_catchment`: confined or not, this well never gets the water from 100 m. -/
example (confined : Bool) (D : ℝ) : ¬ rainModel.Delivers confined D 1 100 0 (3, 0) := by
  obtain ⟨R, h0, hR, -, hall⟩ := C151_catchment rain_physical rain_raining (by norm_num) (by norm_num)
  obtain ⟨b1, b2⟩ := rain_between h0 hR
  intro hd
  have := (hall confined D 1 100 0 (3, 0) hd).1 (by show euclid ((3:ℝ), (0:ℝ)) (0, 0) < R; rw [start_three]; linarith)
  have e : euclid ((100:ℝ), (0:ℝ)) (0, 0) = 100 := by
    simp only [euclid]
    rw [show ((0:ℝ) - 100) ^ 2 + (0 - 0) ^ 2 = 100 ^ 2 by norm_num]
    exact Real.sqrt_sq (by norm_num)
  have h' : euclid ((100:ℝ), (0:ℝ)) (0, 0) < R + 1 := this
  rw [e] at h'
  linarith

/-- `C151_everything`: it does get the water from 60 m, within some time. -/
example : ∃ D, rainModel.Delivers true D 1 60 0 (3, 0) := by
  obtain ⟨R, h0, hR, hall⟩ := C151_everything rain_physical rain_raining (by norm_num) (by norm_num)
  obtain ⟨b1, b2⟩ := rain_between h0 hR
  have := hall (3, 0) 20 (by simp) (by norm_num) (by show 20 * euclid ((3:ℝ), (0:ℝ)) (0, 0) < R; rw [start_three]; linarith) 1 one_pos _ le_rfl
  norm_num at this
  exact ⟨_, this⟩

/-- `C151_paths` and `C151_smaller`: a path of this water, ten days long. -/
example : ∃ γ, rainModel.Carries true γ 10 ∧ γ 10 = (3, 0) ∧ ∃ c : ℝ, |2 * Real.pi * c - 1| < 1 / 10 ^ 16 ∧
    euclid (γ 0) (0, 0) ≤ euclid (spoke ⟨0, 0, 2, 100⟩ (100 * c / (1/4 * 20)) (3, 0) 10) (0, 0) := by
  have hr : (0:ℝ) < (⟨0, 0, 2, 100⟩ : Well ℝ).r2 (3, 0).1 (3, 0).2 := by norm_num [Well.r2]
  have hγ := rain_carries (p := ((3:ℝ), (0:ℝ))) rain_raining rain_physical (by norm_num) (by norm_num) hr 10
  obtain ⟨c, hc, hall⟩ := C151_smaller rain_physical rain_raining (by norm_num) (by norm_num)
  have h := hall _ 10 (by norm_num) hγ
  have e := rainSpoke_zero (p := ((3:ℝ), (0:ℝ))) (⟨0, 0, 2, 100⟩ : Well ℝ) (2 * (100 * twoPiInv) / (1/250)) (1/250 / (rainModel.porosity * rainModel.thickness)) hr
  refine ⟨_, hγ, ?_, c, hc, ?_⟩
  · simp only [sub_self]
    exact e
  · simp only [sub_self, e] at h
    exact h

/-- `C151_velocity`: at 100 m from the well the water moves away from it; both functions answer so. -/
example : (∃ s, 0 < s ∧ rainModel.velocityConfined 100 0 = (s, 0)) ∧ ∃ s, 0 < s ∧ rainModel.velocity 100 0 = .ok (s, 0) := by
  obtain ⟨R, h0, hR, hall⟩ := C151_velocity rain_physical rain_raining (by norm_num) (by norm_num)
  obtain ⟨-, b2⟩ := rain_between h0 hR
  obtain ⟨h1, h2⟩ := hall 100 0 (by simp)
  have e : euclid ((100:ℝ), (0:ℝ)) ((⟨0, 0, 2, 100⟩ : Well ℝ).xw, (⟨0, 0, 2, 100⟩ : Well ℝ).yw) ^ 2 = 10000 := by
    simp only [euclid]
    rw [Real.sq_sqrt (by positivity)]
    norm_num
  rw [e] at h1 h2
  have hs : 0 < 1/250 / 2 * (1 - R ^ 2 / 10000) := by
    have : R ^ 2 < 10000 := by nlinarith
    have : R ^ 2 / 10000 < 1 := by rw [div_lt_one (by norm_num)]; exact this
    linarith
  have hpot : 0 < rainModel.potential 100 0 := by
    rw [potential_eq]
    have hl : 0 ≤ Real.log ((⟨0, 0, 2, 100⟩ : Well ℝ).r2 100 0) := Real.log_nonneg (by norm_num [Well.r2])
    have hf : (0:ℝ) ≤ ((fourPiInv : ℚ) : ℝ) := by
      unfold fourPiInv
      norm_num
    have : 0 ≤ 100 * ((fourPiInv : ℚ) : ℝ) * Real.log ((⟨0, 0, 2, 100⟩ : Well ℝ).r2 100 0) := by positivity
    simp [rainModel, conic]
    linarith
  have hhead : rainModel.head 100 0 = .ok (headOf rainModel.conductivity rainModel.thickness (rainModel.potential 100 0)) := by
    rw [head_eq, if_neg (not_le.mpr hpot)]
  have hH := (C34_confined rainModel rain_physical 100 0 _ hhead).1
  have hp := rain_physical.porosity
  have hT := rain_physical.thickness
  have h3 := h2 _ hhead
  refine ⟨⟨_, ?_, h1.trans (Prod.ext rfl (by simp))⟩, ⟨_, ?_, h3.trans (congrArg _ (Prod.ext rfl (by simp)))⟩⟩
  · exact mul_pos (div_pos hs (mul_pos hp hT)) (by norm_num)
  · exact mul_pos (div_pos hs (mul_pos hp (lt_min hH hT))) (by norm_num)

end Oneka
