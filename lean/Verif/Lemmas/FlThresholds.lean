import Verif.Lemmas.FlExample
import Verif.Model.FlReport
import Verif.Spec.FlReport

/-! # The thresholds of the decile table as the computer has them -/

namespace Oneka

theorem round53_at {x : ℝ} (s n : ℕ) (h1 : 2 ^ 52 ≤ x * 2 ^ s) (h2 : x * 2 ^ s < 2 ^ 53) (h : roundEven (x * 2 ^ s) = n) : round53 x = n / 2 ^ s := by
  have p : (0 : ℝ) < 2 ^ s := by positivity
  have x0 : 0 < x := by
    by_contra hn
    have : x * 2 ^ s ≤ 0 := mul_nonpos_of_nonpos_of_nonneg (not_lt.mp hn) p.le
    linarith
  have u : ulp x = (2 ^ s)⁻¹ := by
    have e : ∀ k : ℤ, (2 : ℝ) ^ (k - s) = 2 ^ k / 2 ^ s := fun k => by rw [zpow_sub₀ (by norm_num), zpow_natCast]
    rw [ulp_eq (k := 52 - s) (by rw [abs_of_pos x0, e, div_le_iff₀ p]; exact_mod_cast h1)
      (by rw [abs_of_pos x0, show (52 : ℤ) - s + 1 = 53 - s by ring, e, lt_div_iff₀ p]; exact_mod_cast h2)]
    rw [show (52 : ℤ) - s - 52 = -(s : ℤ) by ring, zpow_neg, zpow_natCast]
  unfold round53
  rw [u, div_inv_eq_mul, h, div_eq_mul_inv]
  norm_num

theorem roundEven_near_eq {y : ℝ} {n : ℕ} (h1 : (n : ℝ) - 1/2 < y) (h2 : y < n + 1/2) : roundEven y = n := by
  have a := abs_le.mp (roundEven_near y)
  have l : ((roundEven y : ℤ) : ℝ) < ((n + 1 : ℤ) : ℝ) := by push_cast; linarith
  have r : (((n : ℤ) - 1 : ℤ) : ℝ) < ((roundEven y : ℤ) : ℝ) := by push_cast; linarith
  have l' := Int.cast_lt.mp l
  have r' := Int.cast_lt.mp r
  omega

theorem roundEven_tie {y : ℝ} {n : ℕ} (h : y = n - 1/2) (e : Even n) : roundEven y = n := by
  have f : ⌊y⌋ = (n : ℤ) - 1 := by rw [Int.floor_eq_iff, h]; push_cast; constructor <;> linarith
  have o : ¬ Even ((n : ℤ) - 1) := by rw [Int.even_sub_one, not_not]; exact_mod_cast e
  unfold roundEven
  rw [f, h]
  rw [if_neg (by push_cast; linarith), if_neg (by push_cast; linarith), if_neg o]
  ring

/-- The number of 53 binary digits next to `x`. -/
theorem round53_eq {x : ℝ} (s n : ℕ) (h1 : 2 ^ 52 ≤ x * 2 ^ s) (h2 : x * 2 ^ s < 2 ^ 53) (h3 : (n : ℝ) - 1/2 < x * 2 ^ s) (h4 : x * 2 ^ s < n + 1/2) :
    round53 x = n / 2 ^ s := round53_at s n h1 h2 (roundEven_near_eq h3 h4)

theorem round53_eq_tie {x : ℝ} (s n : ℕ) (h1 : 2 ^ 52 ≤ x * 2 ^ s) (h2 : x * 2 ^ s < 2 ^ 53) (h3 : x * 2 ^ s = n - 1/2) (h4 : Even n) :
    round53 x = n / 2 ^ s := round53_at s n h1 h2 (roundEven_tie h3 h4)


theorem thr_start : round53 (5/100) = 7205759403792794 / 2 ^ 57 := by
  have := round53_eq (x := 5/100) 57 7205759403792794 (by norm_num) (by norm_num) (by norm_num) (by norm_num)
  exact_mod_cast this

theorem thr_stop : round53 (95/100) = 8556839292003942 / 2 ^ 53 := by
  have := round53_eq (x := 95/100) 53 8556839292003942 (by norm_num) (by norm_num) (by norm_num) (by norm_num)
  exact_mod_cast this

theorem thr_delta : round53 (8556839292003942 / 2 ^ 53 - 7205759403792794 / 2 ^ 57) = 8106479329266892 / 2 ^ 53 := by
  have := round53_eq (x := 8556839292003942 / 2 ^ 53 - 7205759403792794 / 2 ^ 57) 53 8106479329266892 (by norm_num) (by norm_num) (by norm_num) (by norm_num)
  exact_mod_cast this

theorem thr_step : round53 (8106479329266892 / 2 ^ 53 / 18) = 7205759403792793 / 2 ^ 57 := by
  have := round53_eq (x := 8106479329266892 / 2 ^ 53 / 18) 57 7205759403792793 (by norm_num) (by norm_num) (by norm_num) (by norm_num)
  exact_mod_cast this

theorem thr_level0 : round53 (1 / 20) = 7205759403792794 / 2 ^ 57 := by
  have := round53_eq (x := 1 / 20) 57 7205759403792794 (by norm_num) (by norm_num) (by norm_num) (by norm_num)
  exact_mod_cast this

theorem thr_level1 : round53 (2 / 20) = 7205759403792794 / 2 ^ 56 := by
  have := round53_eq (x := 2 / 20) 56 7205759403792794 (by norm_num) (by norm_num) (by norm_num) (by norm_num)
  exact_mod_cast this

theorem thr_shift1 : round53 (1 * (7205759403792793 / 2 ^ 57)) = 7205759403792793 / 2 ^ 57 := by
  have := round53_eq (x := 1 * (7205759403792793 / 2 ^ 57)) 57 7205759403792793 (by norm_num) (by norm_num) (by norm_num) (by norm_num)
  exact_mod_cast this

theorem thr_sum1 : round53 (7205759403792793 / 2 ^ 57 + 7205759403792794 / 2 ^ 57) = 7205759403792794 / 2 ^ 56 := by
  have := round53_eq_tie (x := 7205759403792793 / 2 ^ 57 + 7205759403792794 / 2 ^ 57) 56 7205759403792794 (by norm_num) (by norm_num) (by norm_num) (by decide)
  exact_mod_cast this

theorem thr_level2 : round53 (3 / 20) = 5404319552844595 / 2 ^ 55 := by
  have := round53_eq (x := 3 / 20) 55 5404319552844595 (by norm_num) (by norm_num) (by norm_num) (by norm_num)
  exact_mod_cast this

theorem thr_shift2 : round53 (2 * (7205759403792793 / 2 ^ 57)) = 7205759403792793 / 2 ^ 56 := by
  have := round53_eq (x := 2 * (7205759403792793 / 2 ^ 57)) 56 7205759403792793 (by norm_num) (by norm_num) (by norm_num) (by norm_num)
  exact_mod_cast this

theorem thr_sum2 : round53 (7205759403792793 / 2 ^ 56 + 7205759403792794 / 2 ^ 57) = 5404319552844595 / 2 ^ 55 := by
  have := round53_eq (x := 7205759403792793 / 2 ^ 56 + 7205759403792794 / 2 ^ 57) 55 5404319552844595 (by norm_num) (by norm_num) (by norm_num) (by norm_num)
  exact_mod_cast this

theorem thr_level3 : round53 (4 / 20) = 7205759403792794 / 2 ^ 55 := by
  have := round53_eq (x := 4 / 20) 55 7205759403792794 (by norm_num) (by norm_num) (by norm_num) (by norm_num)
  exact_mod_cast this

theorem thr_shift3 : round53 (3 * (7205759403792793 / 2 ^ 57)) = 5404319552844595 / 2 ^ 55 := by
  have := round53_eq (x := 3 * (7205759403792793 / 2 ^ 57)) 55 5404319552844595 (by norm_num) (by norm_num) (by norm_num) (by norm_num)
  exact_mod_cast this

theorem thr_sum3 : round53 (5404319552844595 / 2 ^ 55 + 7205759403792794 / 2 ^ 57) = 7205759403792794 / 2 ^ 55 := by
  have := round53_eq_tie (x := 5404319552844595 / 2 ^ 55 + 7205759403792794 / 2 ^ 57) 55 7205759403792794 (by norm_num) (by norm_num) (by norm_num) (by decide)
  exact_mod_cast this

theorem thr_level4 : round53 (5 / 20) = 4503599627370496 / 2 ^ 54 := by
  have := round53_eq (x := 5 / 20) 54 4503599627370496 (by norm_num) (by norm_num) (by norm_num) (by norm_num)
  exact_mod_cast this

theorem thr_shift4 : round53 (4 * (7205759403792793 / 2 ^ 57)) = 7205759403792793 / 2 ^ 55 := by
  have := round53_eq (x := 4 * (7205759403792793 / 2 ^ 57)) 55 7205759403792793 (by norm_num) (by norm_num) (by norm_num) (by norm_num)
  exact_mod_cast this

theorem thr_sum4 : round53 (7205759403792793 / 2 ^ 55 + 7205759403792794 / 2 ^ 57) = 9007199254740992 / 2 ^ 55 := by
  have := round53_eq_tie (x := 7205759403792793 / 2 ^ 55 + 7205759403792794 / 2 ^ 57) 55 9007199254740992 (by norm_num) (by norm_num) (by norm_num) (by decide)
  exact_mod_cast this

theorem thr_level5 : round53 (6 / 20) = 5404319552844595 / 2 ^ 54 := by
  have := round53_eq (x := 6 / 20) 54 5404319552844595 (by norm_num) (by norm_num) (by norm_num) (by norm_num)
  exact_mod_cast this

theorem thr_shift5 : round53 (5 * (7205759403792793 / 2 ^ 57)) = 9007199254740991 / 2 ^ 55 := by
  have := round53_eq (x := 5 * (7205759403792793 / 2 ^ 57)) 55 9007199254740991 (by norm_num) (by norm_num) (by norm_num) (by norm_num)
  exact_mod_cast this

theorem thr_sum5 : round53 (9007199254740991 / 2 ^ 55 + 7205759403792794 / 2 ^ 57) = 5404319552844595 / 2 ^ 54 := by
  have := round53_eq (x := 9007199254740991 / 2 ^ 55 + 7205759403792794 / 2 ^ 57) 54 5404319552844595 (by norm_num) (by norm_num) (by norm_num) (by norm_num)
  exact_mod_cast this

theorem thr_level6 : round53 (7 / 20) = 6305039478318694 / 2 ^ 54 := by
  have := round53_eq (x := 7 / 20) 54 6305039478318694 (by norm_num) (by norm_num) (by norm_num) (by norm_num)
  exact_mod_cast this

theorem thr_shift6 : round53 (6 * (7205759403792793 / 2 ^ 57)) = 5404319552844595 / 2 ^ 54 := by
  have := round53_eq (x := 6 * (7205759403792793 / 2 ^ 57)) 54 5404319552844595 (by norm_num) (by norm_num) (by norm_num) (by norm_num)
  exact_mod_cast this

theorem thr_sum6 : round53 (5404319552844595 / 2 ^ 54 + 7205759403792794 / 2 ^ 57) = 6305039478318694 / 2 ^ 54 := by
  have := round53_eq (x := 5404319552844595 / 2 ^ 54 + 7205759403792794 / 2 ^ 57) 54 6305039478318694 (by norm_num) (by norm_num) (by norm_num) (by norm_num)
  exact_mod_cast this

theorem thr_level7 : round53 (8 / 20) = 7205759403792794 / 2 ^ 54 := by
  have := round53_eq (x := 8 / 20) 54 7205759403792794 (by norm_num) (by norm_num) (by norm_num) (by norm_num)
  exact_mod_cast this

theorem thr_shift7 : round53 (7 * (7205759403792793 / 2 ^ 57)) = 6305039478318694 / 2 ^ 54 := by
  have := round53_eq (x := 7 * (7205759403792793 / 2 ^ 57)) 54 6305039478318694 (by norm_num) (by norm_num) (by norm_num) (by norm_num)
  exact_mod_cast this

theorem thr_sum7 : round53 (6305039478318694 / 2 ^ 54 + 7205759403792794 / 2 ^ 57) = 7205759403792793 / 2 ^ 54 := by
  have := round53_eq (x := 6305039478318694 / 2 ^ 54 + 7205759403792794 / 2 ^ 57) 54 7205759403792793 (by norm_num) (by norm_num) (by norm_num) (by norm_num)
  exact_mod_cast this

theorem thr_level8 : round53 (9 / 20) = 8106479329266893 / 2 ^ 54 := by
  have := round53_eq (x := 9 / 20) 54 8106479329266893 (by norm_num) (by norm_num) (by norm_num) (by norm_num)
  exact_mod_cast this

theorem thr_shift8 : round53 (8 * (7205759403792793 / 2 ^ 57)) = 7205759403792793 / 2 ^ 54 := by
  have := round53_eq (x := 8 * (7205759403792793 / 2 ^ 57)) 54 7205759403792793 (by norm_num) (by norm_num) (by norm_num) (by norm_num)
  exact_mod_cast this

theorem thr_sum8 : round53 (7205759403792793 / 2 ^ 54 + 7205759403792794 / 2 ^ 57) = 8106479329266892 / 2 ^ 54 := by
  have := round53_eq (x := 7205759403792793 / 2 ^ 54 + 7205759403792794 / 2 ^ 57) 54 8106479329266892 (by norm_num) (by norm_num) (by norm_num) (by norm_num)
  exact_mod_cast this

theorem thr_level9 : round53 (10 / 20) = 4503599627370496 / 2 ^ 53 := by
  have := round53_eq (x := 10 / 20) 53 4503599627370496 (by norm_num) (by norm_num) (by norm_num) (by norm_num)
  exact_mod_cast this

theorem thr_shift9 : round53 (9 * (7205759403792793 / 2 ^ 57)) = 8106479329266892 / 2 ^ 54 := by
  have := round53_eq (x := 9 * (7205759403792793 / 2 ^ 57)) 54 8106479329266892 (by norm_num) (by norm_num) (by norm_num) (by norm_num)
  exact_mod_cast this

theorem thr_sum9 : round53 (8106479329266892 / 2 ^ 54 + 7205759403792794 / 2 ^ 57) = 9007199254740991 / 2 ^ 54 := by
  have := round53_eq (x := 8106479329266892 / 2 ^ 54 + 7205759403792794 / 2 ^ 57) 54 9007199254740991 (by norm_num) (by norm_num) (by norm_num) (by norm_num)
  exact_mod_cast this

theorem thr_level10 : round53 (11 / 20) = 4953959590107546 / 2 ^ 53 := by
  have := round53_eq (x := 11 / 20) 53 4953959590107546 (by norm_num) (by norm_num) (by norm_num) (by norm_num)
  exact_mod_cast this

theorem thr_shift10 : round53 (10 * (7205759403792793 / 2 ^ 57)) = 9007199254740991 / 2 ^ 54 := by
  have := round53_eq (x := 10 * (7205759403792793 / 2 ^ 57)) 54 9007199254740991 (by norm_num) (by norm_num) (by norm_num) (by norm_num)
  exact_mod_cast this

theorem thr_sum10 : round53 (9007199254740991 / 2 ^ 54 + 7205759403792794 / 2 ^ 57) = 4953959590107545 / 2 ^ 53 := by
  have := round53_eq (x := 9007199254740991 / 2 ^ 54 + 7205759403792794 / 2 ^ 57) 53 4953959590107545 (by norm_num) (by norm_num) (by norm_num) (by norm_num)
  exact_mod_cast this

theorem thr_level11 : round53 (12 / 20) = 5404319552844595 / 2 ^ 53 := by
  have := round53_eq (x := 12 / 20) 53 5404319552844595 (by norm_num) (by norm_num) (by norm_num) (by norm_num)
  exact_mod_cast this

theorem thr_shift11 : round53 (11 * (7205759403792793 / 2 ^ 57)) = 4953959590107545 / 2 ^ 53 := by
  have := round53_eq (x := 11 * (7205759403792793 / 2 ^ 57)) 53 4953959590107545 (by norm_num) (by norm_num) (by norm_num) (by norm_num)
  exact_mod_cast this

theorem thr_sum11 : round53 (4953959590107545 / 2 ^ 53 + 7205759403792794 / 2 ^ 57) = 5404319552844595 / 2 ^ 53 := by
  have := round53_eq (x := 4953959590107545 / 2 ^ 53 + 7205759403792794 / 2 ^ 57) 53 5404319552844595 (by norm_num) (by norm_num) (by norm_num) (by norm_num)
  exact_mod_cast this

theorem thr_level12 : round53 (13 / 20) = 5854679515581645 / 2 ^ 53 := by
  have := round53_eq (x := 13 / 20) 53 5854679515581645 (by norm_num) (by norm_num) (by norm_num) (by norm_num)
  exact_mod_cast this

theorem thr_shift12 : round53 (12 * (7205759403792793 / 2 ^ 57)) = 5404319552844595 / 2 ^ 53 := by
  have := round53_eq (x := 12 * (7205759403792793 / 2 ^ 57)) 53 5404319552844595 (by norm_num) (by norm_num) (by norm_num) (by norm_num)
  exact_mod_cast this

theorem thr_sum12 : round53 (5404319552844595 / 2 ^ 53 + 7205759403792794 / 2 ^ 57) = 5854679515581645 / 2 ^ 53 := by
  have := round53_eq (x := 5404319552844595 / 2 ^ 53 + 7205759403792794 / 2 ^ 57) 53 5854679515581645 (by norm_num) (by norm_num) (by norm_num) (by norm_num)
  exact_mod_cast this

theorem thr_level13 : round53 (14 / 20) = 6305039478318694 / 2 ^ 53 := by
  have := round53_eq (x := 14 / 20) 53 6305039478318694 (by norm_num) (by norm_num) (by norm_num) (by norm_num)
  exact_mod_cast this

theorem thr_shift13 : round53 (13 * (7205759403792793 / 2 ^ 57)) = 5854679515581644 / 2 ^ 53 := by
  have := round53_eq (x := 13 * (7205759403792793 / 2 ^ 57)) 53 5854679515581644 (by norm_num) (by norm_num) (by norm_num) (by norm_num)
  exact_mod_cast this

theorem thr_sum13 : round53 (5854679515581644 / 2 ^ 53 + 7205759403792794 / 2 ^ 57) = 6305039478318694 / 2 ^ 53 := by
  have := round53_eq (x := 5854679515581644 / 2 ^ 53 + 7205759403792794 / 2 ^ 57) 53 6305039478318694 (by norm_num) (by norm_num) (by norm_num) (by norm_num)
  exact_mod_cast this

theorem thr_level14 : round53 (15 / 20) = 6755399441055744 / 2 ^ 53 := by
  have := round53_eq (x := 15 / 20) 53 6755399441055744 (by norm_num) (by norm_num) (by norm_num) (by norm_num)
  exact_mod_cast this

theorem thr_shift14 : round53 (14 * (7205759403792793 / 2 ^ 57)) = 6305039478318694 / 2 ^ 53 := by
  have := round53_eq (x := 14 * (7205759403792793 / 2 ^ 57)) 53 6305039478318694 (by norm_num) (by norm_num) (by norm_num) (by norm_num)
  exact_mod_cast this

theorem thr_sum14 : round53 (6305039478318694 / 2 ^ 53 + 7205759403792794 / 2 ^ 57) = 6755399441055744 / 2 ^ 53 := by
  have := round53_eq (x := 6305039478318694 / 2 ^ 53 + 7205759403792794 / 2 ^ 57) 53 6755399441055744 (by norm_num) (by norm_num) (by norm_num) (by norm_num)
  exact_mod_cast this

theorem thr_level15 : round53 (16 / 20) = 7205759403792794 / 2 ^ 53 := by
  have := round53_eq (x := 16 / 20) 53 7205759403792794 (by norm_num) (by norm_num) (by norm_num) (by norm_num)
  exact_mod_cast this

theorem thr_shift15 : round53 (15 * (7205759403792793 / 2 ^ 57)) = 6755399441055743 / 2 ^ 53 := by
  have := round53_eq (x := 15 * (7205759403792793 / 2 ^ 57)) 53 6755399441055743 (by norm_num) (by norm_num) (by norm_num) (by norm_num)
  exact_mod_cast this

theorem thr_sum15 : round53 (6755399441055743 / 2 ^ 53 + 7205759403792794 / 2 ^ 57) = 7205759403792793 / 2 ^ 53 := by
  have := round53_eq (x := 6755399441055743 / 2 ^ 53 + 7205759403792794 / 2 ^ 57) 53 7205759403792793 (by norm_num) (by norm_num) (by norm_num) (by norm_num)
  exact_mod_cast this

theorem thr_level16 : round53 (17 / 20) = 7656119366529843 / 2 ^ 53 := by
  have := round53_eq (x := 17 / 20) 53 7656119366529843 (by norm_num) (by norm_num) (by norm_num) (by norm_num)
  exact_mod_cast this

theorem thr_shift16 : round53 (16 * (7205759403792793 / 2 ^ 57)) = 7205759403792793 / 2 ^ 53 := by
  have := round53_eq (x := 16 * (7205759403792793 / 2 ^ 57)) 53 7205759403792793 (by norm_num) (by norm_num) (by norm_num) (by norm_num)
  exact_mod_cast this

theorem thr_sum16 : round53 (7205759403792793 / 2 ^ 53 + 7205759403792794 / 2 ^ 57) = 7656119366529843 / 2 ^ 53 := by
  have := round53_eq (x := 7205759403792793 / 2 ^ 53 + 7205759403792794 / 2 ^ 57) 53 7656119366529843 (by norm_num) (by norm_num) (by norm_num) (by norm_num)
  exact_mod_cast this

theorem thr_level17 : round53 (18 / 20) = 8106479329266893 / 2 ^ 53 := by
  have := round53_eq (x := 18 / 20) 53 8106479329266893 (by norm_num) (by norm_num) (by norm_num) (by norm_num)
  exact_mod_cast this

theorem thr_shift17 : round53 (17 * (7205759403792793 / 2 ^ 57)) = 7656119366529843 / 2 ^ 53 := by
  have := round53_eq (x := 17 * (7205759403792793 / 2 ^ 57)) 53 7656119366529843 (by norm_num) (by norm_num) (by norm_num) (by norm_num)
  exact_mod_cast this

theorem thr_sum17 : round53 (7656119366529843 / 2 ^ 53 + 7205759403792794 / 2 ^ 57) = 8106479329266893 / 2 ^ 53 := by
  have := round53_eq (x := 7656119366529843 / 2 ^ 53 + 7205759403792794 / 2 ^ 57) 53 8106479329266893 (by norm_num) (by norm_num) (by norm_num) (by norm_num)
  exact_mod_cast this

theorem thr_level18 : round53 (19 / 20) = 8556839292003942 / 2 ^ 53 := by
  have := round53_eq (x := 19 / 20) 53 8556839292003942 (by norm_num) (by norm_num) (by norm_num) (by norm_num)
  exact_mod_cast this

theorem thr_step_val : ((Fl.of (95/100) - Fl.of (5/100)) / ((18 : ℕ) : Fl)).val = 7205759403792793 / 2 ^ 57 := by
  have e : ((18 : ℕ) : Fl).val = 18 := by
    have : ((18 : ℕ) : Fl).val = ((18 : ℕ) : ℝ) := Fl.of_nat 18 (by norm_num)
    rw [this]; norm_num
  rw [Fl.val_div, Fl.val_sub, e]
  show round53 (round53 (round53 (95/100) - round53 (5/100)) / 18) = _
  rw [thr_start, thr_stop, thr_delta, thr_step]

theorem flLinspace_get (a b : Fl) (n k : ℕ) (h : k + 1 < n) : (flLinspace a b n)[k]? = some ((k : Fl) * ((b - a) / ((n - 1 : ℕ) : Fl)) + a) := by
  unfold flLinspace
  rw [List.getElem?_map, List.getElem?_range (by omega), Option.map_some, if_neg (by omega)]

theorem flLinspace_last (a b : Fl) (n : ℕ) (h : 0 < n) : (flLinspace a b (n + 1))[n]? = some b := by
  unfold flLinspace
  rw [List.getElem?_map, List.getElem?_range (by omega), Option.map_some, if_pos (by omega)]

theorem flLinspace_length (a b : Fl) (n : ℕ) : (flLinspace a b n).length = n := by unfold flLinspace; simp



/-- The threshold of line `k`. -/
noncomputable def threshold (k : ℕ) : Fl := if k = 18 then Fl.of (95/100) else (k : Fl) * ((Fl.of (95/100) - Fl.of (5/100)) / ((18 : ℕ) : Fl)) + Fl.of (5/100)

theorem threshold_get (k : ℕ) (h : k < 19) : (flLinspace (Fl.of (5/100)) (Fl.of (95/100)) 19)[k]? = some (threshold k) := by
  unfold threshold
  by_cases e : k = 18
  · subst e; rw [if_pos rfl, flLinspace_last _ _ 18 (by norm_num)]
  · rw [if_neg e, flLinspace_get _ _ 19 k (by omega)]

theorem thr_val (k : ℕ) (h : k < 18) : (threshold k).val = round53 (round53 (k * (7205759403792793 / 2 ^ 57)) + 7205759403792794 / 2 ^ 57) := by
  unfold threshold
  have e : ((k : ℕ) : Fl).val = k := Fl.of_nat k (by omega)
  rw [if_neg (by omega), Fl.val_add, Fl.val_mul, e, thr_step_val]
  show round53 (_ + round53 (5/100)) = _
  rw [thr_start]

theorem threshold0 : (threshold 0).val = 7205759403792794 / 2 ^ 57 := by
  rw [thr_val 0 (by norm_num)]
  norm_num [round53_zero]
  have := thr_start
  have h := round53_idem (5/100)
  rw [this] at h
  norm_num at h
  exact h

theorem threshold1 : (threshold 1).val = 7205759403792794 / 2 ^ 56 := by
  rw [thr_val 1 (by norm_num)]
  exact_mod_cast (congrArg (fun z => round53 (z + 7205759403792794 / 2 ^ 57)) thr_shift1).trans thr_sum1

theorem threshold2 : (threshold 2).val = 5404319552844595 / 2 ^ 55 := by
  rw [thr_val 2 (by norm_num)]
  exact_mod_cast (congrArg (fun z => round53 (z + 7205759403792794 / 2 ^ 57)) thr_shift2).trans thr_sum2

theorem threshold3 : (threshold 3).val = 7205759403792794 / 2 ^ 55 := by
  rw [thr_val 3 (by norm_num)]
  exact_mod_cast (congrArg (fun z => round53 (z + 7205759403792794 / 2 ^ 57)) thr_shift3).trans thr_sum3

theorem threshold4 : (threshold 4).val = 9007199254740992 / 2 ^ 55 := by
  rw [thr_val 4 (by norm_num)]
  exact_mod_cast (congrArg (fun z => round53 (z + 7205759403792794 / 2 ^ 57)) thr_shift4).trans thr_sum4

theorem threshold5 : (threshold 5).val = 5404319552844595 / 2 ^ 54 := by
  rw [thr_val 5 (by norm_num)]
  exact_mod_cast (congrArg (fun z => round53 (z + 7205759403792794 / 2 ^ 57)) thr_shift5).trans thr_sum5

theorem threshold6 : (threshold 6).val = 6305039478318694 / 2 ^ 54 := by
  rw [thr_val 6 (by norm_num)]
  exact_mod_cast (congrArg (fun z => round53 (z + 7205759403792794 / 2 ^ 57)) thr_shift6).trans thr_sum6

theorem threshold7 : (threshold 7).val = 7205759403792793 / 2 ^ 54 := by
  rw [thr_val 7 (by norm_num)]
  exact_mod_cast (congrArg (fun z => round53 (z + 7205759403792794 / 2 ^ 57)) thr_shift7).trans thr_sum7

theorem threshold8 : (threshold 8).val = 8106479329266892 / 2 ^ 54 := by
  rw [thr_val 8 (by norm_num)]
  exact_mod_cast (congrArg (fun z => round53 (z + 7205759403792794 / 2 ^ 57)) thr_shift8).trans thr_sum8

theorem threshold9 : (threshold 9).val = 9007199254740991 / 2 ^ 54 := by
  rw [thr_val 9 (by norm_num)]
  exact_mod_cast (congrArg (fun z => round53 (z + 7205759403792794 / 2 ^ 57)) thr_shift9).trans thr_sum9

theorem threshold10 : (threshold 10).val = 4953959590107545 / 2 ^ 53 := by
  rw [thr_val 10 (by norm_num)]
  exact_mod_cast (congrArg (fun z => round53 (z + 7205759403792794 / 2 ^ 57)) thr_shift10).trans thr_sum10

theorem threshold11 : (threshold 11).val = 5404319552844595 / 2 ^ 53 := by
  rw [thr_val 11 (by norm_num)]
  exact_mod_cast (congrArg (fun z => round53 (z + 7205759403792794 / 2 ^ 57)) thr_shift11).trans thr_sum11

theorem threshold12 : (threshold 12).val = 5854679515581645 / 2 ^ 53 := by
  rw [thr_val 12 (by norm_num)]
  exact_mod_cast (congrArg (fun z => round53 (z + 7205759403792794 / 2 ^ 57)) thr_shift12).trans thr_sum12

theorem threshold13 : (threshold 13).val = 6305039478318694 / 2 ^ 53 := by
  rw [thr_val 13 (by norm_num)]
  exact_mod_cast (congrArg (fun z => round53 (z + 7205759403792794 / 2 ^ 57)) thr_shift13).trans thr_sum13

theorem threshold14 : (threshold 14).val = 6755399441055744 / 2 ^ 53 := by
  rw [thr_val 14 (by norm_num)]
  exact_mod_cast (congrArg (fun z => round53 (z + 7205759403792794 / 2 ^ 57)) thr_shift14).trans thr_sum14

theorem threshold15 : (threshold 15).val = 7205759403792793 / 2 ^ 53 := by
  rw [thr_val 15 (by norm_num)]
  exact_mod_cast (congrArg (fun z => round53 (z + 7205759403792794 / 2 ^ 57)) thr_shift15).trans thr_sum15

theorem threshold16 : (threshold 16).val = 7656119366529843 / 2 ^ 53 := by
  rw [thr_val 16 (by norm_num)]
  exact_mod_cast (congrArg (fun z => round53 (z + 7205759403792794 / 2 ^ 57)) thr_shift16).trans thr_sum16

theorem threshold17 : (threshold 17).val = 8106479329266893 / 2 ^ 53 := by
  rw [thr_val 17 (by norm_num)]
  exact_mod_cast (congrArg (fun z => round53 (z + 7205759403792794 / 2 ^ 57)) thr_shift17).trans thr_sum17

theorem threshold18 : (threshold 18).val = 8556839292003942 / 2 ^ 53 := by
  unfold threshold; rw [if_pos rfl]; exact thr_stop

/-- Every threshold is within one rounding unit of (k + 1)/20; the low ones are below the nearest number, the others are the nearest number. -/
theorem threshold_facts (k : ℕ) (h : k < 19) : |(threshold k).val - (k + 1) / 20| ≤ eps ∧
    (k ∈ lowRows → (threshold k).val < round53 ((k + 1) / 20)) ∧ (k ∉ lowRows → (threshold k).val = round53 ((k + 1) / 20)) := by
  have e : eps = 1 / 9007199254740992 := by unfold eps; norm_num
  rw [e, abs_le]
  interval_cases k
  · have l : round53 (((0 : ℕ) + 1 : ℝ) / 20) = 7205759403792794 / 2 ^ 57 := by rw [← thr_level0]; norm_num
    rw [l, threshold0]
    refine ⟨by norm_num, fun m => ?_, fun m => ?_⟩
    · exact absurd m (by decide)
    · rfl
  · have l : round53 (((1 : ℕ) + 1 : ℝ) / 20) = 7205759403792794 / 2 ^ 56 := by rw [← thr_level1]; norm_num
    rw [l, threshold1]
    refine ⟨by norm_num, fun m => ?_, fun m => ?_⟩
    · exact absurd m (by decide)
    · norm_num
  · have l : round53 (((2 : ℕ) + 1 : ℝ) / 20) = 5404319552844595 / 2 ^ 55 := by rw [← thr_level2]; norm_num
    rw [l, threshold2]
    refine ⟨by norm_num, fun m => ?_, fun m => ?_⟩
    · exact absurd m (by decide)
    · rfl
  · have l : round53 (((3 : ℕ) + 1 : ℝ) / 20) = 7205759403792794 / 2 ^ 55 := by rw [← thr_level3]; norm_num
    rw [l, threshold3]
    refine ⟨by norm_num, fun m => ?_, fun m => ?_⟩
    · exact absurd m (by decide)
    · norm_num
  · have l : round53 (((4 : ℕ) + 1 : ℝ) / 20) = 4503599627370496 / 2 ^ 54 := by rw [← thr_level4]; norm_num
    rw [l, threshold4]
    refine ⟨by norm_num, fun m => ?_, fun m => ?_⟩
    · exact absurd m (by decide)
    · norm_num
  · have l : round53 (((5 : ℕ) + 1 : ℝ) / 20) = 5404319552844595 / 2 ^ 54 := by rw [← thr_level5]; norm_num
    rw [l, threshold5]
    refine ⟨by norm_num, fun m => ?_, fun m => ?_⟩
    · exact absurd m (by decide)
    · rfl
  · have l : round53 (((6 : ℕ) + 1 : ℝ) / 20) = 6305039478318694 / 2 ^ 54 := by rw [← thr_level6]; norm_num
    rw [l, threshold6]
    refine ⟨by norm_num, fun m => ?_, fun m => ?_⟩
    · exact absurd m (by decide)
    · rfl
  · have l : round53 (((7 : ℕ) + 1 : ℝ) / 20) = 7205759403792794 / 2 ^ 54 := by rw [← thr_level7]; norm_num
    rw [l, threshold7]
    refine ⟨by norm_num, fun m => ?_, fun m => ?_⟩
    · norm_num
    · exact absurd (by decide) m
  · have l : round53 (((8 : ℕ) + 1 : ℝ) / 20) = 8106479329266893 / 2 ^ 54 := by rw [← thr_level8]; norm_num
    rw [l, threshold8]
    refine ⟨by norm_num, fun m => ?_, fun m => ?_⟩
    · norm_num
    · exact absurd (by decide) m
  · have l : round53 (((9 : ℕ) + 1 : ℝ) / 20) = 4503599627370496 / 2 ^ 53 := by rw [← thr_level9]; norm_num
    rw [l, threshold9]
    refine ⟨by norm_num, fun m => ?_, fun m => ?_⟩
    · norm_num
    · exact absurd (by decide) m
  · have l : round53 (((10 : ℕ) + 1 : ℝ) / 20) = 4953959590107546 / 2 ^ 53 := by rw [← thr_level10]; norm_num
    rw [l, threshold10]
    refine ⟨by norm_num, fun m => ?_, fun m => ?_⟩
    · norm_num
    · exact absurd (by decide) m
  · have l : round53 (((11 : ℕ) + 1 : ℝ) / 20) = 5404319552844595 / 2 ^ 53 := by rw [← thr_level11]; norm_num
    rw [l, threshold11]
    refine ⟨by norm_num, fun m => ?_, fun m => ?_⟩
    · exact absurd m (by decide)
    · rfl
  · have l : round53 (((12 : ℕ) + 1 : ℝ) / 20) = 5854679515581645 / 2 ^ 53 := by rw [← thr_level12]; norm_num
    rw [l, threshold12]
    refine ⟨by norm_num, fun m => ?_, fun m => ?_⟩
    · exact absurd m (by decide)
    · rfl
  · have l : round53 (((13 : ℕ) + 1 : ℝ) / 20) = 6305039478318694 / 2 ^ 53 := by rw [← thr_level13]; norm_num
    rw [l, threshold13]
    refine ⟨by norm_num, fun m => ?_, fun m => ?_⟩
    · exact absurd m (by decide)
    · rfl
  · have l : round53 (((14 : ℕ) + 1 : ℝ) / 20) = 6755399441055744 / 2 ^ 53 := by rw [← thr_level14]; norm_num
    rw [l, threshold14]
    refine ⟨by norm_num, fun m => ?_, fun m => ?_⟩
    · exact absurd m (by decide)
    · rfl
  · have l : round53 (((15 : ℕ) + 1 : ℝ) / 20) = 7205759403792794 / 2 ^ 53 := by rw [← thr_level15]; norm_num
    rw [l, threshold15]
    refine ⟨by norm_num, fun m => ?_, fun m => ?_⟩
    · norm_num
    · exact absurd (by decide) m
  · have l : round53 (((16 : ℕ) + 1 : ℝ) / 20) = 7656119366529843 / 2 ^ 53 := by rw [← thr_level16]; norm_num
    rw [l, threshold16]
    refine ⟨by norm_num, fun m => ?_, fun m => ?_⟩
    · exact absurd m (by decide)
    · rfl
  · have l : round53 (((17 : ℕ) + 1 : ℝ) / 20) = 8106479329266893 / 2 ^ 53 := by rw [← thr_level17]; norm_num
    rw [l, threshold17]
    refine ⟨by norm_num, fun m => ?_, fun m => ?_⟩
    · exact absurd m (by decide)
    · rfl
  · have l : round53 (((18 : ℕ) + 1 : ℝ) / 20) = 8556839292003942 / 2 ^ 53 := by rw [← thr_level18]; norm_num
    rw [l, threshold18]
    refine ⟨by norm_num, fun m => ?_, fun m => ?_⟩
    · exact absurd m (by decide)
    · rfl

end Oneka
