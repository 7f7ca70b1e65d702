import Mathlib.Analysis.SpecialFunctions.Log.Deriv
import Mathlib.Analysis.Complex.ExponentialBounds

/-! Rational approximations of logarithms of natural numbers, with an error bound. -/

namespace Oneka

/-- `t + t^2/2 + … + t^n/n` -/
def powSum (t : ℚ) : ℕ → ℚ
  | 0 => 0
  | n + 1 => powSum t n + t ^ (n + 1) / ((n : ℚ) + 1)

theorem powSum_cast (t : ℚ) (n : ℕ) : ((powSum t n : ℚ) : ℝ) = ∑ i ∈ Finset.range n, (t : ℝ) ^ (i + 1) / ((i : ℝ) + 1) := by
  induction n with
  | zero => simp [powSum]
  | succ n ih => rw [powSum, Finset.sum_range_succ, ← ih]; push_cast; ring

/-- `(n - 2^k) / (n + 2^k)` with `2^k ≤ n < 2^(k+1)` -/
def logArg (n : ℕ) : ℚ := ((n : ℚ) - 2 ^ n.log2) / ((n : ℚ) + 2 ^ n.log2)

/-- the logarithm of a positive natural number to about six digits -/
def logQ (n : ℕ) : ℚ := (n.log2 : ℚ) * (6931471805 / 10000000000) + (powSum (logArg n) 14 - powSum (-logArg n) 14)

theorem logQ_near (n : ℕ) (hn : 0 < n) (hs : n < 2 ^ 40) : |Real.log n - (logQ n : ℚ)| ≤ 1 / 1000000 := by
  have h1 : 2 ^ n.log2 ≤ n := Nat.log2_self_le hn.ne'
  have h2 : n < 2 ^ (n.log2 + 1) := Nat.lt_log2_self
  have hk : n.log2 < 40 := (Nat.log2_lt hn.ne').mpr hs
  unfold logQ
  set t : ℚ := logArg n with ht
  set k := n.log2 with hkk
  have h1' : (2 : ℝ) ^ k ≤ n := by exact_mod_cast h1
  have h2' : (n : ℝ) < 2 * 2 ^ k := by
    have : ((n : ℕ) : ℝ) < ((2 ^ (k + 1) : ℕ) : ℝ) := by exact_mod_cast h2
    push_cast at this
    rw [pow_succ] at this
    linarith
  have hp : (0 : ℝ) < 2 ^ k := by positivity
  have htr : (t : ℝ) = ((n : ℝ) - 2 ^ k) / (n + 2 ^ k) := by rw [ht, logArg]; push_cast; rfl
  have hd : (0 : ℝ) < n + 2 ^ k := by positivity
  have t0 : 0 ≤ (t : ℝ) := by rw [htr]; exact div_nonneg (by linarith) hd.le
  have t1 : (t : ℝ) ≤ 1 / 3 := by rw [htr, div_le_iff₀ hd]; linarith
  have e1 : Real.log n = k * Real.log 2 + (Real.log (1 + t) - Real.log (1 - t)) := by
    have ha : 1 + (t : ℝ) = 2 * n / (n + 2 ^ k) := by rw [htr]; field_simp; ring
    have hb : 1 - (t : ℝ) = 2 * 2 ^ k / (n + 2 ^ k) := by rw [htr]; field_simp; ring
    have hnp : (0 : ℝ) < n := by exact_mod_cast hn
    rw [ha, hb, Real.log_div (by positivity) hd.ne', Real.log_div (by positivity) hd.ne', Real.log_mul two_ne_zero hnp.ne', Real.log_mul two_ne_zero hp.ne', Real.log_pow]
    ring
  have b1 := Real.abs_log_sub_add_sum_range_le (x := (t : ℝ)) (by rw [abs_of_nonneg t0]; linarith) 14
  have b2 := Real.abs_log_sub_add_sum_range_le (x := -(t : ℝ)) (by rw [abs_neg, abs_of_nonneg t0]; linarith) 14
  have c2 : ((powSum (-t) 14 : ℚ) : ℝ) = ∑ i ∈ Finset.range 14, (-(t : ℝ)) ^ (i + 1) / ((i : ℝ) + 1) := by rw [powSum_cast]; push_cast; rfl
  rw [← powSum_cast] at b1
  rw [← c2, sub_neg_eq_add, abs_neg] at b2
  rw [abs_of_nonneg t0] at b1 b2
  have hq : (t : ℝ) ^ (14 + 1) / (1 - t) ≤ 2 / 10000000 := by
    rw [div_le_iff₀ (by linarith)]
    have : (t : ℝ) ^ (14 + 1) ≤ (1 / 3) ^ (14 + 1) := pow_le_pow_left₀ t0 t1 _
    norm_num at this ⊢
    linarith
  have hl1 := Real.log_two_gt_d9
  have hl2 := Real.log_two_lt_d9
  have hkr : (k : ℝ) ≤ 40 := by exact_mod_cast hk.le
  have hk0 : (0 : ℝ) ≤ k := Nat.cast_nonneg k
  rw [abs_le] at b1 b2
  rw [e1, abs_le]
  push_cast
  constructor <;> nlinarith

end Oneka
