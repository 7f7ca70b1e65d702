import Mathlib.Analysis.SpecialFunctions.Trigonometric.Bounds
import Mathlib.Analysis.Real.Pi.Bounds
import Verif.Lemmas.FlZone
import Verif.Lemmas.FlThresholds

/-!
# The rounded starting points of the traces
-/

namespace Oneka

theorem rel_round {x y κ : ℝ} (h : |x - y| ≤ κ * |y|) : |round53 x - y| ≤ (κ + 2 ^ (-53 : ℤ) * (1 + κ)) * |y| := by
  have h1 := round53_accurate x
  have h2 : |x| ≤ (1 + κ) * |y| := by
    have := abs_sub_abs_le_abs_sub x y
    linarith
  have h3 := mul_le_mul_of_nonneg_left h2 (by positivity : (0:ℝ) ≤ 2 ^ (-53 : ℤ))
  have h4 : |round53 x - y| ≤ |round53 x - x| + |x - y| := by
    have := abs_add_le (round53 x - x) (x - y)
    rwa [sub_add_sub_cancel] at this
  calc _ ≤ 2 ^ (-53 : ℤ) * ((1 + κ) * |y|) + κ * |y| := by linarith
    _ = _ := by ring

theorem rel_mul {x y κ : ℝ} (h : |x - y| ≤ κ * |y|) (c : ℝ) : |x * c - y * c| ≤ κ * |y * c| := by
  rw [← sub_mul, abs_mul, abs_mul, ← mul_assoc]
  exact mul_le_mul_of_nonneg_right h (abs_nonneg c)

variable [LibM]

theorem angle_get (n j : ℕ) (hj : j < n) : (flAngles n)[j]? = some ((j : Fl) * ((2 * LibM.pi - 0) / ((n : ℕ) : Fl)) + 0) := by
  unfold flAngles
  rw [List.getElem?_dropLast, flLinspace_length, if_pos (by omega), flLinspace_get _ _ _ _ (by omega)]
  simp

theorem angle_near (h : TrigAccurate) (n j : ℕ) (hj : j < n) (hn : n ≤ 2 ^ 53) :
    |((j : Fl) * ((2 * LibM.pi - 0) / ((n : ℕ) : Fl)) + 0).val - 2 * Real.pi * j / n| ≤ 41 * 2 ^ (-53 : ℤ) := by
  have en : ((n : ℕ) : Fl).val = n := Fl.of_nat n hn
  have ej : ((j : ℕ) : Fl).val = j := Fl.of_nat j (by omega)
  have e2 : (2 : Fl).val = 2 := by
    change (Fl.of ((2:ℕ):ℝ)).val = _
    rw [Fl.of_nat 2 (by norm_num)]; norm_num
  have ez : (0 : Fl).val = 0 := Fl.zero_val
  have hn0 : (0:ℝ) < n := by exact_mod_cast (by omega : 0 < n)
  have hjn : (j:ℝ) ≤ n := by exact_mod_cast hj.le
  rw [Fl.val_add, Fl.val_mul, Fl.val_div, Fl.val_sub, Fl.val_mul, en, ej, e2, ez, h.pi, sub_zero, add_zero]
  have p0 : |round53 Real.pi - Real.pi| ≤ 2 ^ (-53 : ℤ) * |Real.pi| := round53_accurate _
  have p1 := rel_round (rel_mul p0 2)
  have p2 := rel_round p1
  have p3 := rel_round (rel_mul p2 (n:ℝ)⁻¹)
  have p4 := rel_round (rel_mul p3 (j:ℝ))
  have p5 := rel_round p4
  rw [show 2 * round53 Real.pi = round53 Real.pi * 2 from mul_comm _ _, div_eq_mul_inv, mul_comm (j:ℝ), show 2 * Real.pi * j / n = Real.pi * 2 * (n:ℝ)⁻¹ * j by field_simp]
  refine p5.trans ?_
  have hθ : |Real.pi * 2 * (n:ℝ)⁻¹ * j| ≤ 6.2832 := by
    have h1 : Real.pi * 2 * (n:ℝ)⁻¹ * j = Real.pi * 2 * (j / n) := by field_simp
    have h2 : (j:ℝ) / n ≤ 1 := (div_le_one hn0).mpr hjn
    have h3 : (0:ℝ) ≤ j / n := by positivity
    rw [h1, abs_of_nonneg (by positivity)]
    have := Real.pi_lt_d4
    nlinarith [Real.pi_pos]
  refine (mul_le_mul_of_nonneg_left hθ (by positivity)).trans ?_
  norm_num [zpow_neg]

omit [LibM] in
theorem coordinate_near {r c C x : ℝ} (hc : |c - C| ≤ 43 * 2 ^ (-53 : ℤ)) (hC : |C| ≤ 1) :
    |round53 (round53 (round53 (r + 1) * c) + x) - (x + (r + 1) * C)| ≤ 2 ^ (-47 : ℤ) * |r + 1| + 2 ^ (-53 : ℤ) * |x| := by
  have k0 := abs_nonneg (r + 1)
  have h1 := round53_accurate (r + 1)
  have hc1 : |c| ≤ 1 + 43 * 2 ^ (-53 : ℤ) := by
    have := abs_sub_abs_le_abs_sub c C
    linarith
  have h2 : |round53 (r + 1) * c - (r + 1) * C| ≤ 45 * 2 ^ (-53 : ℤ) * |r + 1| := by
    have e : round53 (r + 1) * c - (r + 1) * C = (round53 (r + 1) - (r + 1)) * c + (r + 1) * (c - C) := by ring
    rw [e]
    refine (abs_add_le _ _).trans ?_
    rw [abs_mul, abs_mul]
    have a1 := mul_le_mul h1 hc1 (abs_nonneg _) (by positivity)
    have a2 := mul_le_mul_of_nonneg_left hc k0
    refine (add_le_add a1 a2).trans ?_
    norm_num [zpow_neg]
    linarith
  have h3 : |round53 (r + 1) * c| ≤ 2 * |r + 1| := by
    have := abs_sub_abs_le_abs_sub (round53 (r + 1) * c) ((r + 1) * C)
    have h4 : |(r + 1) * C| ≤ |r + 1| := by
      rw [abs_mul]
      nlinarith [abs_nonneg C]
    have h5 : 45 * (2:ℝ) ^ (-53 : ℤ) * |r + 1| ≤ 1 * |r + 1| := mul_le_mul_of_nonneg_right (by norm_num [zpow_neg]) k0
    linarith
  have h4 := round53_accurate (round53 (r + 1) * c)
  set p := round53 (round53 (r + 1) * c)
  have h5 : |p - (r + 1) * C| ≤ 47 * 2 ^ (-53 : ℤ) * |r + 1| := by
    have := abs_add_le (p - round53 (r + 1) * c) (round53 (r + 1) * c - (r + 1) * C)
    rw [sub_add_sub_cancel] at this
    have h6 := mul_le_mul_of_nonneg_left h3 (by positivity : (0:ℝ) ≤ 2 ^ (-53 : ℤ))
    have h7 : (2:ℝ) ^ (-53 : ℤ) * (2 * |r + 1|) + 45 * 2 ^ (-53 : ℤ) * |r + 1| = 47 * 2 ^ (-53 : ℤ) * |r + 1| := by ring
    linarith
  have h6 : |p + x| ≤ 2 * |r + 1| + |x| := by
    have := abs_sub_abs_le_abs_sub p ((r + 1) * C)
    have h4 : |(r + 1) * C| ≤ |r + 1| := by
      rw [abs_mul]
      nlinarith [abs_nonneg C]
    have h5' : 47 * (2:ℝ) ^ (-53 : ℤ) * |r + 1| ≤ 1 * |r + 1| := mul_le_mul_of_nonneg_right (by norm_num [zpow_neg]) k0
    have := abs_add_le p x
    linarith
  have h7 := round53_accurate (p + x)
  have h8 := abs_add_le (round53 (p + x) - (p + x)) (p - (r + 1) * C)
  have e : round53 (p + x) - (p + x) + (p - (r + 1) * C) = round53 (p + x) - (x + (r + 1) * C) := by ring
  rw [e] at h8
  have h9 := mul_le_mul_of_nonneg_left h6 (by positivity : (0:ℝ) ≤ 2 ^ (-53 : ℤ))
  have h10 : (2:ℝ) ^ (-53 : ℤ) * (2 * |r + 1| + |x|) + 47 * 2 ^ (-53 : ℤ) * |r + 1| = 49 * 2 ^ (-53 : ℤ) * |r + 1| + 2 ^ (-53 : ℤ) * |x| := by ring
  have h11 : 49 * (2:ℝ) ^ (-53 : ℤ) * |r + 1| ≤ 2 ^ (-47 : ℤ) * |r + 1| := mul_le_mul_of_nonneg_right (by norm_num [zpow_neg]) k0
  linarith

end Oneka
