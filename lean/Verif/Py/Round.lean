import Mathlib.Data.Int.Log
import Mathlib.Analysis.SpecialFunctions.Log.Base
import Mathlib.Algebra.Ring.Int.Parity
import Verif.Model.ProbabilityField

/-!
# Floating-point numbers

`round53` rounds a real number to 53 significant binary digits, to nearest, ties to even: the rounding of binary64, the Python `float` and
`np.float64`. Simplification: the exponent is not bounded, so there is no overflow and no underflow. `Fl` is the type of the numbers so represented, with
each operation rounded (no code in /repo: this is the arithmetic the code runs on).
-/

namespace Oneka

/-- Nearest integer, ties to even. -/
noncomputable def roundEven (y : ℝ) : ℤ :=
  if y - ⌊y⌋ < 1/2 then ⌊y⌋ else if 1/2 < y - ⌊y⌋ then ⌊y⌋ + 1 else if Even ⌊y⌋ then ⌊y⌋ else ⌊y⌋ + 1

/-- The value of the last of 53 binary digits of `x`. -/
noncomputable def ulp (x : ℝ) : ℝ := 2 ^ (Int.log 2 |x| - 52)

/-- The nearest number with 53 binary digits. -/
noncomputable def round53 (x : ℝ) : ℝ := roundEven (x / ulp x) * ulp x

theorem roundEven_near (y : ℝ) : |(roundEven y : ℝ) - y| ≤ 1/2 := by
  have h0 := Int.floor_le y
  have h1 := Int.lt_floor_add_one y
  unfold roundEven
  split_ifs with a b c <;> rw [abs_le] <;> push_cast <;> constructor <;> linarith

theorem roundEven_int (n : ℤ) : roundEven n = n := by
  unfold roundEven
  rw [Int.floor_intCast, sub_self, if_pos (by norm_num)]

theorem roundEven_mono : Monotone roundEven := by
  intro x y h
  have hf : ⌊x⌋ ≤ ⌊y⌋ := Int.floor_le_floor h
  have x1 := Int.lt_floor_add_one x
  have y0 := Int.floor_le y
  rcases hf.lt_or_eq with hl | he
  · have a : roundEven x ≤ ⌊x⌋ + 1 := by unfold roundEven; split_ifs <;> omega
    have b : ⌊y⌋ ≤ roundEven y := by unfold roundEven; split_ifs <;> omega
    omega
  · unfold roundEven
    rw [he]
    split_ifs <;> first | omega | (exfalso; linarith)

theorem roundEven_neg (y : ℝ) : roundEven (-y) = -roundEven y := by
  have h0 := Int.floor_le y
  have h1 := Int.lt_floor_add_one y
  by_cases hi : (⌊y⌋ : ℝ) = y
  · rw [← hi, ← Int.cast_neg, roundEven_int, roundEven_int]
  · have hlt : (⌊y⌋ : ℝ) < y := lt_of_le_of_ne h0 hi
    have hf : ⌊-y⌋ = -⌊y⌋ - 1 := by
      rw [Int.floor_eq_iff]; push_cast; constructor <;> linarith
    have hp : Even (-⌊y⌋ - 1) ↔ ¬ Even ⌊y⌋ := by
      rw [Int.even_sub_one, even_neg]
    unfold roundEven
    rw [hf]
    push_cast
    simp only [hp]
    split_ifs <;> first | omega | (exfalso; linarith)

theorem ulp_pos (x : ℝ) : 0 < ulp x := zpow_pos (by norm_num) _

theorem ulp_neg (x : ℝ) : ulp (-x) = ulp x := by unfold ulp; rw [abs_neg]

theorem round53_neg (x : ℝ) : round53 (-x) = -round53 x := by
  unfold round53; rw [ulp_neg, neg_div, roundEven_neg]; push_cast; ring

theorem round53_zero : round53 0 = 0 := by
  unfold round53; rw [zero_div]; have := roundEven_int 0; simp at this; rw [this]; simp

/-- Numbers with 53 binary digits are not changed. -/
theorem round53_exact (n k : ℤ) (hn : |n| ≤ 2 ^ 53) : round53 (n * 2 ^ k) = n * 2 ^ k := by
  rcases eq_or_ne n 0 with rfl | hn0
  · simp [round53_zero]
  have two : (2 : ℝ) ≠ 0 := by norm_num
  have key : ∃ m : ℤ, (n : ℝ) * 2 ^ k / ulp (n * 2 ^ k) = m := by
    have hx : |(n : ℝ) * 2 ^ k| = |(n : ℝ)| * 2 ^ k := by rw [abs_mul, abs_of_pos (zpow_pos (by norm_num : (0:ℝ) < 2) k)]
    have hpos : 0 < |(n : ℝ) * 2 ^ k| := by
      rw [hx]; exact mul_pos (abs_pos.mpr (by exact_mod_cast hn0)) (zpow_pos (by norm_num) _)
    unfold ulp
    set e := Int.log 2 |(n : ℝ) * 2 ^ k| with he
    have hle : (2 : ℝ) ^ e ≤ |(n : ℝ)| * 2 ^ k := by
      rw [← hx]; exact_mod_cast Int.zpow_log_le_self (b := 2) (by norm_num) hpos
    have hn' : |(n : ℝ)| ≤ 2 ^ (53 : ℤ) := by exact_mod_cast hn
    rcases lt_or_eq_of_le (hle.trans (mul_le_mul_of_nonneg_right hn' (zpow_pos (by norm_num) _).le)) with hlt | heq
    · rw [← zpow_add₀ two, zpow_lt_zpow_iff_right₀ (by norm_num)] at hlt
      refine ⟨n * 2 ^ (k - (e - 52)).toNat, ?_⟩
      rw [mul_div_assoc, ← zpow_sub₀ two]
      push_cast
      rw [← zpow_natCast, Int.toNat_of_nonneg (by omega)]
    · have hle' := heq ▸ hle
      have hab : |(n : ℝ)| = 2 ^ (53 : ℤ) :=
        le_antisymm hn' (le_of_mul_le_mul_right hle' (zpow_pos (by norm_num) k))
      have hs : (n : ℝ) = 2 ^ (53 : ℤ) ∨ (n : ℝ) = -2 ^ (53 : ℤ) := by
        rcases abs_choice (n : ℝ) with h | h
        · left; rw [← h, hab]
        · right; rw [← hab, h]; ring
      have e1 : e = 53 + k := by
        rw [← zpow_add₀ two] at heq
        exact zpow_right_injective₀ (by norm_num) (by norm_num) heq
      rw [e1, mul_div_assoc, ← zpow_sub₀ two, show k - (53 + k - 52) = -1 by ring]
      rcases hs with h | h
      · exact ⟨2 ^ 52, by rw [h]; norm_num⟩
      · exact ⟨-2 ^ 52, by rw [h]; norm_num⟩
  obtain ⟨m, hm⟩ := key
  unfold round53
  rw [hm, roundEven_int, ← hm, div_mul_cancel₀ _ (ulp_pos _).ne']

theorem abs_ge_zpow {x : ℝ} (hx : x ≠ 0) : (2 : ℝ) ^ Int.log 2 |x| ≤ |x| := by
  exact_mod_cast Int.zpow_log_le_self (b := 2) (by norm_num) (abs_pos.mpr hx)

theorem abs_lt_zpow (x : ℝ) : |x| < (2 : ℝ) ^ (Int.log 2 |x| + 1) := by
  exact_mod_cast Int.lt_zpow_succ_log_self (b := 2) (by norm_num) |x|

/-- The result is at most half a unit of the last of 53 binary digits away. -/
theorem round53_accurate (x : ℝ) : |round53 x - x| ≤ 2 ^ (-53 : ℤ) * |x| := by
  rcases eq_or_ne x 0 with rfl | hx
  · simp [round53_zero]
  have hu := ulp_pos x
  have e : round53 x - x = (roundEven (x / ulp x) - x / ulp x) * ulp x := by
    unfold round53; rw [sub_mul, div_mul_cancel₀ _ hu.ne']
  rw [e, abs_mul, abs_of_pos hu]
  calc _ ≤ 1/2 * ulp x := mul_le_mul_of_nonneg_right (roundEven_near _) hu.le
    _ = 2 ^ (-53 : ℤ) * 2 ^ Int.log 2 |x| := by
        unfold ulp
        rw [← zpow_add₀ (by norm_num : (2:ℝ) ≠ 0), show (-53 : ℤ) + Int.log 2 |x| = -1 + (Int.log 2 |x| - 52) by ring,
          zpow_add₀ (by norm_num : (2:ℝ) ≠ 0)]
        norm_num
    _ ≤ _ := mul_le_mul_of_nonneg_left (abs_ge_zpow hx) (by positivity)

/-- The result has 53 binary digits. -/
theorem round53_digits (x : ℝ) : ∃ n k : ℤ, |n| ≤ 2 ^ 53 ∧ round53 x = n * 2 ^ k := by
  refine ⟨roundEven (x / ulp x), Int.log 2 |x| - 52, ?_, rfl⟩
  have hu := ulp_pos x
  have h : |x / ulp x| ≤ 2 ^ 53 := by
    rw [abs_div, abs_of_pos hu, div_le_iff₀ hu]
    refine (abs_lt_zpow x).le.trans_eq ?_
    unfold ulp
    rw [← zpow_natCast, ← zpow_add₀ (by norm_num : (2:ℝ) ≠ 0)]
    congr 1; push_cast; ring
  obtain ⟨h1, h2⟩ := abs_le.mp h
  have m1 := roundEven_mono h1
  have m2 := roundEven_mono h2
  have c1 : roundEven (-2 ^ 53) = -2 ^ 53 := by rw [← roundEven_int (-2 ^ 53)]; congr 1; norm_num
  have c2 : roundEven (2 ^ 53) = 2 ^ 53 := by rw [← roundEven_int (2 ^ 53)]; congr 1; norm_num
  rw [abs_le]
  exact ⟨by rw [c1] at m1; exact m1, by rw [c2] at m2; exact m2⟩

theorem round53_idem (x : ℝ) : round53 (round53 x) = round53 x := by
  obtain ⟨n, k, hn, h⟩ := round53_digits x
  rw [h, round53_exact n k hn]

theorem round53_zpow (k : ℤ) : round53 (2 ^ k) = 2 ^ k := by
  have := round53_exact 1 k (by norm_num)
  simpa using this

theorem round53_binade {x : ℝ} (hx : 0 < x) :
    2 ^ Int.log 2 |x| ≤ round53 x ∧ round53 x ≤ 2 ^ (Int.log 2 |x| + 1) := by
  have hu := ulp_pos x
  have two : (2 : ℝ) ≠ 0 := by norm_num
  have a := abs_ge_zpow hx.ne'
  have b := abs_lt_zpow x
  rw [abs_of_pos hx] at a b ⊢
  have e1 : (2 : ℝ) ^ Int.log 2 x = 2 ^ 52 * ulp x := by
    unfold ulp; rw [abs_of_pos hx, ← zpow_natCast, ← zpow_add₀ two]; congr 1; push_cast; ring
  have e2 : (2 : ℝ) ^ (Int.log 2 x + 1) = 2 ^ 53 * ulp x := by
    unfold ulp; rw [abs_of_pos hx, ← zpow_natCast, ← zpow_add₀ two]; congr 1; push_cast; ring
  rw [e1] at a ⊢; rw [e2] at b ⊢
  have m1 := roundEven_mono ((le_div_iff₀ hu).mpr a)
  have m2 := roundEven_mono ((div_le_iff₀ hu).mpr b.le)
  have c1 : roundEven (2 ^ 52) = 2 ^ 52 := by rw [← roundEven_int (2 ^ 52)]; congr 1; norm_num
  have c2 : roundEven (2 ^ 53) = 2 ^ 53 := by rw [← roundEven_int (2 ^ 53)]; congr 1; norm_num
  rw [c1] at m1; rw [c2] at m2
  unfold round53
  exact ⟨mul_le_mul_of_nonneg_right (by exact_mod_cast m1) hu.le, mul_le_mul_of_nonneg_right (by exact_mod_cast m2) hu.le⟩

theorem round53_mono_pos {x y : ℝ} (hx : 0 < x) (h : x ≤ y) : round53 x ≤ round53 y := by
  have hy := hx.trans_le h
  have hl : Int.log 2 |x| ≤ Int.log 2 |y| := by
    rw [abs_of_pos hx, abs_of_pos hy]; exact Int.log_mono_right hx h
  rcases hl.lt_or_eq with hl | he
  · exact (round53_binade hx).2.trans ((zpow_le_zpow_right₀ (by norm_num) (by omega)).trans (round53_binade hy).1)
  · have hu : ulp x = ulp y := by unfold ulp; rw [he]
    unfold round53
    rw [hu]
    exact mul_le_mul_of_nonneg_right (by exact_mod_cast roundEven_mono (div_le_div_of_nonneg_right h (ulp_pos y).le)) (ulp_pos y).le

theorem round53_pos {x : ℝ} (hx : 0 < x) : 0 < round53 x :=
  (zpow_pos (by norm_num) _).trans_le (round53_binade hx).1

theorem round53_mono : Monotone round53 := by
  intro x y h
  rcases lt_trichotomy x 0 with hx | rfl | hx
  · rcases lt_trichotomy y 0 with hy | rfl | hy
    · have := round53_mono_pos (by linarith : 0 < -y) (by linarith : -y ≤ -x)
      rw [round53_neg, round53_neg] at this; linarith
    · have := round53_pos (by linarith : 0 < -x)
      rw [round53_neg] at this; rw [round53_zero]; linarith
    · have := round53_pos (by linarith : 0 < -x)
      rw [round53_neg] at this; have := round53_pos hy; linarith
  · rcases h.lt_or_eq with h | rfl
    · rw [round53_zero]; exact (round53_pos h).le
    · exact le_refl _
  · exact round53_mono_pos hx h

/-- A floating-point number (finite; 53 binary digits). -/
structure Fl where
  val : ℝ
  isFloat : round53 val = val

namespace Fl

theorem ext' {a b : Fl} (h : a.val = b.val) : a = b := by cases a; cases b; cases h; rfl

/-- The floating-point number nearest to a real number. -/
noncomputable def of (x : ℝ) : Fl := ⟨round53 x, round53_idem x⟩

noncomputable instance : Zero Fl := ⟨of 0⟩
noncomputable instance : Add Fl := ⟨fun a b => of (a.val + b.val)⟩
noncomputable instance : Sub Fl := ⟨fun a b => of (a.val - b.val)⟩
noncomputable instance : Mul Fl := ⟨fun a b => of (a.val * b.val)⟩
/-- Division by a number other than zero (the model never divides by zero, see `distancesquared`). -/
noncomputable instance : Div Fl := ⟨fun a b => of (a.val / b.val)⟩
noncomputable instance : NatCast Fl := ⟨fun n => of n⟩
noncomputable instance : IntCast Fl := ⟨fun n => of n⟩
instance : LT Fl := ⟨fun a b => a.val < b.val⟩
instance : LE Fl := ⟨fun a b => a.val ≤ b.val⟩
noncomputable instance : DecidableLT Fl := fun a b => inferInstanceAs (Decidable (a.val < b.val))
noncomputable instance : DecidableLE Fl := fun a b => inferInstanceAs (Decidable (a.val ≤ b.val))
open Classical in
noncomputable instance : DecidableEq Fl := inferInstance
noncomputable instance : PyFloor Fl := ⟨fun a => ⌊a.val⌋, fun a => ⌈a.val⌉⟩

end Fl

end Oneka
