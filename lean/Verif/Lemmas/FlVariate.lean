import Verif.Spec.FlVariate
import Verif.Lemmas.FlErr
import Verif.Lemmas.FlVelocity
import Verif.Lemmas.FlDist
import Verif.Lemmas.FlTime
import Verif.Lemmas.PropsVariate

/-!
# Random parameters in floating-point arithmetic
-/

namespace Oneka

open Variate

theorem ulp_binade {y : ℝ} {e : ℤ} (h1 : (2:ℝ) ^ e ≤ y) (h2 : y < 2 ^ (e + 1)) : ulp y = 2 ^ (e - 52) := by
  have hy : 0 < y := lt_of_lt_of_le (zpow_pos (by norm_num) _) h1
  have hl : Int.log 2 |y| = e := by
    rw [abs_of_pos hy]
    have a := abs_ge_zpow hy.ne'
    have b := abs_lt_zpow y
    rw [abs_of_pos hy] at a b
    have c1 : (2:ℝ) ^ e < 2 ^ (Int.log 2 y + 1) := lt_of_le_of_lt h1 b
    have c2 : (2:ℝ) ^ Int.log 2 y < 2 ^ (e + 1) := lt_of_le_of_lt a h2
    rw [zpow_lt_zpow_iff_right₀ (by norm_num)] at c1 c2
    omega
  unfold ulp
  rw [hl]

/-- a positive floating-point number has 53 digits, the first of which is 1 -/
theorem float_normal {x : ℝ} (hx : 0 < x) (hf : round53 x = x) : ∃ n k : ℤ, 2 ^ 52 ≤ n ∧ n < 2 ^ 53 ∧ x = n * 2 ^ k := by
  have hu := ulp_pos x
  have a := abs_ge_zpow hx.ne'
  have b := abs_lt_zpow x
  rw [abs_of_pos hx] at a b
  have e1 : (2 : ℝ) ^ Int.log 2 x = 2 ^ 52 * ulp x := by
    unfold ulp; rw [abs_of_pos hx, ← zpow_natCast, ← zpow_add₀ (by norm_num)]; congr 1; push_cast; ring
  have e2 : (2 : ℝ) ^ (Int.log 2 x + 1) = 2 ^ 53 * ulp x := by
    unfold ulp; rw [abs_of_pos hx, ← zpow_natCast, ← zpow_add₀ (by norm_num)]; congr 1; push_cast; ring
  rw [e1] at a
  rw [e2] at b
  have h : (roundEven (x / ulp x) : ℝ) * ulp x = x := hf
  refine ⟨roundEven (x / ulp x), Int.log 2 |x| - 52, ?_, ?_, h.symm⟩
  · have a' : (2:ℝ) ^ 52 * ulp x ≤ roundEven (x / ulp x) * ulp x := by rw [h]; exact a
    have := le_of_mul_le_mul_right a' hu
    exact_mod_cast this
  · have b' : roundEven (x / ulp x) * ulp x < (2:ℝ) ^ 53 * ulp x := by rw [h]; exact b
    have := lt_of_mul_lt_mul_right b' hu.le
    exact_mod_cast this

/-- less than half a unit above a floating-point number, one does not round to a larger one -/
theorem round_lt_half {n k : ℤ} (h1 : 2 ^ 52 ≤ n) (h2 : n < 2 ^ 53) {y : ℝ} (h : y < (n + 1/2) * 2 ^ k) : round53 y ≤ n * 2 ^ k := by
  have hk : (0:ℝ) < 2 ^ k := zpow_pos (by norm_num) _
  have hn : round53 ((n:ℝ) * 2 ^ k) = n * 2 ^ k := round53_exact n k (by rw [abs_le]; omega)
  rcases le_or_gt y (n * 2 ^ k) with hy | hy
  · rw [← hn]
    exact round53_mono hy
  · have c1 : (2:ℝ) ^ (k + 52) ≤ y := by
      refine le_trans ?_ hy.le
      rw [add_comm, zpow_add₀ (by norm_num)]
      refine mul_le_mul_of_nonneg_right ?_ hk.le
      exact_mod_cast h1
    have c2 : y < 2 ^ (k + 52 + 1) := by
      refine h.trans_le ?_
      rw [show k + 52 + 1 = 53 + k by ring, zpow_add₀ (by norm_num)]
      refine mul_le_mul_of_nonneg_right ?_ hk.le
      have : (n:ℝ) + 1 ≤ 2 ^ 53 := by exact_mod_cast h2
      norm_num at this ⊢
      linarith
    have hu := ulp_binade c1 c2
    rw [show k + 52 - 52 = k by ring] at hu
    have q1 : (n:ℝ) < y / 2 ^ k := (lt_div_iff₀ hk).mpr hy
    have q2 : y / 2 ^ k < n + 1/2 := (div_lt_iff₀ hk).mpr h
    have hfl : ⌊y / 2 ^ k⌋ = n := by
      rw [Int.floor_eq_iff]
      exact ⟨q1.le, by linarith⟩
    unfold round53
    rw [hu]
    unfold roundEven
    rw [hfl, if_pos (by linarith)]

/-- the root of a rounded square -/
theorem sqrt_square {x : ℝ} (hx : 0 ≤ x) (hf : round53 x = x) : round53 (Real.sqrt (round53 (x * x))) ≤ x := by
  rcases hx.eq_or_lt with rfl | hx
  · simp [round53_zero]
  obtain ⟨n, k, h1, h2, rfl⟩ := float_normal hx hf
  set x : ℝ := n * 2 ^ k with hxe
  refine round_lt_half h1 h2 ?_
  have hk : (0:ℝ) < 2 ^ k := zpow_pos (by norm_num) _
  have ha := (abs_le.mp (round53_accurate (x * x))).2
  rw [abs_of_pos (mul_pos hx hx)] at ha
  have hs : Real.sqrt (round53 (x * x)) ≤ x * (1 + 2 ^ (-54 : ℤ)) := by
    rw [Real.sqrt_le_left (by positivity)]
    have : (2:ℝ) ^ (-53 : ℤ) = 2 * 2 ^ (-54 : ℤ) := by norm_num
    rw [this] at ha
    generalize (2:ℝ) ^ (-54 : ℤ) = t at *
    nlinarith [mul_pos hx hx, mul_nonneg (mul_pos hx hx).le (sq_nonneg t)]
  refine lt_of_le_of_lt hs ?_
  rw [hxe]
  have : (n:ℝ) < 2 ^ 53 := by exact_mod_cast h2
  have h3 : (n:ℝ) * 2 ^ (-54 : ℤ) < 1/2 := by
    have : (n:ℝ) * 2 ^ (-54 : ℤ) < 2 ^ 53 * 2 ^ (-54 : ℤ) := mul_lt_mul_of_pos_right this (by positivity)
    norm_num at this ⊢
    linarith
  nlinarith

/-- multiplied by a draw, a rounded difference does not exceed the exact one -/
theorem draw_le {D u : ℝ} (hD : 0 ≤ D) (hu : u ≤ 1 - 2 ^ (-53 : ℤ)) : round53 (round53 D * u) ≤ D := by
  rcases hD.eq_or_lt with rfl | hD
  · simp [round53_zero]
  have hd := round53_pos hD
  have hu1 : u ≤ 1 := hu.trans (by norm_num)
  rcases le_or_gt (round53 D) D with h | h
  · refine le_trans ?_ h
    have := round53_mono (mul_le_of_le_one_right hd.le hu1)
    rwa [round53_idem] at this
  have hp := ulp_pos D
  set N := roundEven (D / ulp D) with hN
  have hdN : round53 D = N * ulp D := rfl
  have near := (abs_le.mp (roundEven_near (D / ulp D))).2
  rw [← hN] at near
  have hlow : ((N:ℝ) - 1) * ulp D < D := by
    have : (N:ℝ) - 1 < D / ulp D := by linarith
    exact (lt_div_iff₀ hp).mp this
  have hb := (round53_binade hD)
  have e1 : (2 : ℝ) ^ Int.log 2 |D| = 2 ^ 52 * ulp D := by
    unfold ulp; rw [← zpow_natCast, ← zpow_add₀ (by norm_num)]; congr 1; push_cast; ring
  have e2 : (2 : ℝ) ^ (Int.log 2 |D| + 1) = 2 ^ 53 * ulp D := by
    unfold ulp; rw [← zpow_natCast, ← zpow_add₀ (by norm_num)]; congr 1; push_cast; ring
  have a := abs_ge_zpow hD.ne'
  rw [abs_of_pos hD] at a
  rw [abs_of_pos hD] at e1
  rw [e1] at a
  rw [e2, hdN] at hb
  have n2 : N ≤ 2 ^ 53 := by
    have := le_of_mul_le_mul_right hb.2 hp
    exact_mod_cast this
  have n1 : 2 ^ 52 < N := by
    have : (2:ℝ) ^ 52 * ulp D < N * ulp D := by rw [← hdN]; exact lt_of_le_of_lt a h
    have := lt_of_mul_lt_mul_right this hp.le
    exact_mod_cast this
  refine le_trans ?_ hlow.le
  have hup : ulp D = 2 ^ (Int.log 2 |D| - 52) := rfl
  have hmul : round53 D * u ≤ round53 D * (1 - 2 ^ (-53 : ℤ)) := mul_le_mul_of_nonneg_left hu hd.le
  rcases n2.lt_or_eq with n2 | n2
  · have := round_lt_half (n := N - 1) (k := Int.log 2 |D| - 52) (by omega) (by omega) (y := round53 D * u) (by
      rw [← hup]
      refine lt_of_le_of_lt hmul ?_
      rw [hdN]
      have : (2:ℝ) ^ 52 < N := by exact_mod_cast n1
      have h3 : (1/2:ℝ) < N * 2 ^ (-53 : ℤ) := by
        have : (2:ℝ) ^ 52 * 2 ^ (-53 : ℤ) < N * 2 ^ (-53 : ℤ) := mul_lt_mul_of_pos_right this (by positivity)
        norm_num at this ⊢
        linarith
      push_cast
      nlinarith)
    rw [← hup] at this
    push_cast at this
    exact this
  · have hfl := round53_exact (N - 1) (Int.log 2 |D| - 52) (by rw [n2]; norm_num)
    rw [← hup] at hfl
    push_cast at hfl
    rw [← hfl]
    refine round53_mono (hmul.trans (le_of_eq ?_))
    rw [hdN, n2]
    push_cast
    norm_num
    ring

theorem one_val : (((1 : ℕ) : Fl)).val = 1 := by
  change round53 ((1 : ℕ) : ℝ) = 1
  have := round53_zpow 0
  simpa using this

theorem IsDraw.range {u : Fl} (h : IsDraw u) : 0 ≤ u.val ∧ u.val ≤ 1 - 2 ^ (-53 : ℤ) := by
  obtain ⟨k, hk, e⟩ := h
  rw [e]
  refine ⟨by positivity, ?_⟩
  have : (k:ℝ) + 1 ≤ 2 ^ 53 := by exact_mod_cast hk
  have h2 : ((k:ℝ) + 1) * 2 ^ (-53 : ℤ) ≤ 2 ^ 53 * 2 ^ (-53 : ℤ) := mul_le_mul_of_nonneg_right this (by positivity)
  norm_num at h2 ⊢
  linarith

theorem uniform_mem {a b u : Fl} (h : a.val ≤ b.val) (hu : IsDraw u) : a.val ≤ (flUniform a b u).val ∧ (flUniform a b u).val ≤ b.val := by
  obtain ⟨u0, u1⟩ := hu.range
  have e : (flUniform a b u).val = round53 (a.val + round53 (round53 (b.val - a.val) * u.val)) := rfl
  rw [e]
  have h0 : 0 ≤ round53 (b.val - a.val) := by rw [← round53_zero]; exact round53_mono (by linarith)
  have p0 : 0 ≤ round53 (round53 (b.val - a.val) * u.val) := by rw [← round53_zero]; exact round53_mono (mul_nonneg h0 u0)
  have p1 := draw_le (by linarith : 0 ≤ b.val - a.val) u1
  constructor
  · nth_rw 1 [← a.isFloat]
    exact round53_mono (by linarith)
  · exact (round53_mono (by linarith)).trans_eq b.isFloat

/-! ### triangular distributions -/

/-- a root of a draw from a product of two sides is at most the longer side -/
theorem root_le {s base u : ℝ} (hs : 0 ≤ s) (hb : round53 base = base) (hsb : s ≤ base) (hu1 : u ≤ 1) :
    round53 (Real.sqrt (round53 (u * round53 (s * base)))) ≤ base := by
  have hb0 : 0 ≤ base := hs.trans hsb
  refine le_trans (round53_mono (Real.sqrt_le_sqrt ?_)) (sqrt_square hb0 hb)
  have h1 : round53 (s * base) ≤ round53 (base * base) := round53_mono (mul_le_mul_of_nonneg_right hsb hb0)
  have h2 : 0 ≤ round53 (s * base) := round53_nonneg (mul_nonneg hs hb0)
  have h3 := round53_mono (mul_le_of_le_one_left h2 hu1)
  rw [round53_idem] at h3
  exact h3.trans h1

/-- the two ways to compute a variate -/
theorem triangular_cases {a m b u : Fl} (h1 : a.val ≤ m.val) (h2 : m.val ≤ b.val) (h3 : a.val < b.val) :
    flTriangular a m b u = if u.val ≤ ((m - a) / (b - a)).val then .ok (a + flSqrt (u * ((m - a) * (b - a)))) else .ok (b - flSqrt ((((1 : ℕ) : Fl) - u) * ((b - m) * (b - a)))) := by
  unfold flTriangular
  have e1 : ¬ m < a := by rw [Fl.lt_iff]; linarith
  have e2 : ¬ b < m := by rw [Fl.lt_iff]; linarith
  have e3 : a ≠ b := by rintro rfl; exact lt_irrefl _ h3
  rw [if_neg e1, if_neg e2, if_neg e3]
  rfl

theorem triangular_sign {a m b u : Fl} (h1 : a.val ≤ m.val) (h2 : m.val ≤ b.val) (h3 : a.val < b.val) (hu : IsDraw u) {v : Fl} (h : flTriangular a m b u = .ok v) :
    (0 ≤ a.val → 0 ≤ v.val) ∧ (b.val ≤ 0 → v.val ≤ 0) ∧ (a.val ≤ v.val ∨ v.val ≤ b.val) := by
  obtain ⟨u0, u1⟩ := hu.range
  have u1' : u.val ≤ 1 := u1.trans (by norm_num)
  have hB : 0 ≤ round53 (b.val - a.val) := round53_nonneg (by linarith)
  rw [triangular_cases h1 h2 h3] at h
  split_ifs at h
  · obtain rfl := Except.ok.inj h
    have e : (a + flSqrt (u * ((m - a) * (b - a)))).val = round53 (a.val + round53 (Real.sqrt (round53 (u.val * round53 (round53 (m.val - a.val) * round53 (b.val - a.val)))))) := rfl
    rw [e]
    have p0 := round53_nonneg (Real.sqrt_nonneg (round53 (u.val * round53 (round53 (m.val - a.val) * round53 (b.val - a.val)))))
    have p1 := root_le (round53_nonneg (by linarith : 0 ≤ m.val - a.val)) (round53_idem (b.val - a.val)) (round53_mono (by linarith)) u1'
    refine ⟨fun h0 => round53_nonneg (by linarith), fun h0 => ?_, .inl ?_⟩
    · have q : round53 (b.val - a.val) ≤ -a.val := by
        have := round53_mono (by linarith : b.val - a.val ≤ -a.val)
        rwa [round53_neg, a.isFloat] at this
      have := round53_mono (by linarith : a.val + round53 (Real.sqrt (round53 (u.val * round53 (round53 (m.val - a.val) * round53 (b.val - a.val))))) ≤ 0)
      rwa [round53_zero] at this
    · nth_rw 1 [← a.isFloat]
      exact round53_mono (by linarith)
  · obtain rfl := Except.ok.inj h
    have e : (b - flSqrt ((((1 : ℕ) : Fl) - u) * ((b - m) * (b - a)))).val =
        round53 (b.val - round53 (Real.sqrt (round53 (round53 (((1 : ℕ) : Fl).val - u.val) * round53 (round53 (b.val - m.val) * round53 (b.val - a.val)))))) := rfl
    rw [one_val] at e
    rw [e]
    have w1 : round53 (1 - u.val) ≤ 1 := by
      have := round53_mono (by linarith : 1 - u.val ≤ 1)
      have one : round53 1 = 1 := by simpa using round53_zpow 0
      rwa [one] at this
    have p0 := round53_nonneg (Real.sqrt_nonneg (round53 (round53 (1 - u.val) * round53 (round53 (b.val - m.val) * round53 (b.val - a.val)))))
    have p1 := root_le (round53_nonneg (by linarith : 0 ≤ b.val - m.val)) (round53_idem (b.val - a.val)) (round53_mono (by linarith)) w1
    refine ⟨fun h0 => round53_nonneg ?_, fun h0 => ?_, .inr ?_⟩
    · have q : round53 (b.val - a.val) ≤ b.val := (round53_mono (by linarith : b.val - a.val ≤ b.val)).trans_eq b.isFloat
      linarith
    · have := round53_mono (by linarith : b.val - round53 (Real.sqrt (round53 (round53 (1 - u.val) * round53 (round53 (b.val - m.val) * round53 (b.val - a.val))))) ≤ 0)
      rwa [round53_zero] at this
    · exact (round53_mono (by linarith)).trans_eq b.isFloat

theorem Err_sqrt' {c u u' : ℝ} (hu : 0 ≤ u) (hc : 0 ≤ c) (h : Err c |u| u' u) : Err c |Real.sqrt u| (Real.sqrt u') (Real.sqrt u) := by
  rcases hu.eq_or_lt with rfl | hu
  · have h1 := h.1
    rw [abs_zero, mul_zero, sub_zero] at h1
    have : u' = 0 := by simpa using h1
    rw [this]
    simp [Err]
  · exact Aquifer.Err_sqrt hu hc h

theorem err_self (a : Fl) : Err 0 |a.val| a.val a.val := Err.self _

theorem err_diff (a b : Fl) : Err (5/4) |a.val - b.val| (a - b).val (a.val - b.val) := by
  have := (Err.self (a.val - b.val)).round (by norm_num)
  simpa using this

/-- the root of a product of three numbers -/
theorem err_root {w s t : Fl} {W S T : ℝ} (hw : Err (5/4) |W| w.val W) (hs : Err (5/4) |S| s.val S) (ht : Err (5/4) |T| t.val T) (h0 : 0 ≤ W * (S * T)) :
    |(flSqrt (w * (s * t))).val - Real.sqrt (W * (S * T))| ≤ 10 * eps * Real.sqrt (W * (S * T)) := by
  have e := eps_small
  have p := eps_pos
  have h1 := hs.mul ht (by norm_num) (by linarith) (by linarith)
  have h2 := hw.mul h1 (by norm_num) (by linarith) (by linarith)
  rw [← abs_mul, ← abs_mul] at h2
  have h3 := (Err_sqrt' h0 (by norm_num) h2).round (by linarith)
  have h4 := h3.1
  rw [abs_of_nonneg (Real.sqrt_nonneg _)] at h4
  refine h4.trans ?_
  have := mul_nonneg p.le (Real.sqrt_nonneg (W * (S * T)))
  nlinarith

theorem sqrt_between {x y : ℝ} (h : y ^ 2 ≤ x) : y ≤ Real.sqrt x := Real.le_sqrt_of_sq_le h

/-- near the mode the two formulas agree -/
theorem tri_near {a m b u κ : ℝ} (h1 : a ≤ m) (h2 : m ≤ b) (h3 : a < b) (hκ0 : 0 ≤ κ) (hκ : κ ≤ 1) :
    (u * (b - a) ≤ (1 + κ) * (m - a) → |tri a m b u - (a + Real.sqrt (u * ((m - a) * (b - a))))| ≤ κ * (m - a)) ∧
    ((1 - κ) * (m - a) ≤ u * (b - a) → |tri a m b u - (b - Real.sqrt ((1 - u) * ((b - m) * (b - a))))| ≤ κ * (m - a)) := by
  have hB : 0 < b - a := by linarith
  have hL : 0 ≤ m - a := by linarith
  have hR : 0 ≤ b - m := by linarith
  have hiff : u ≤ (m - a) / (b - a) ↔ u * (b - a) ≤ m - a := le_div_iff₀ hB
  unfold tri
  constructor
  · intro h
    split_ifs with hc
    · simp [mul_nonneg hκ0 hL]
    · rw [hiff] at hc
      have hc := not_le.mp hc
      have s1 : m - a ≤ Real.sqrt (u * ((m - a) * (b - a))) := sqrt_between (by nlinarith)
      have s2 : Real.sqrt (u * ((m - a) * (b - a))) ≤ (m - a) * (1 + κ) := by
        rw [Real.sqrt_le_left (by positivity)]
        nlinarith [mul_nonneg hL hL, mul_nonneg hκ0 (mul_nonneg hL hL), mul_le_mul_of_nonneg_left h hL]
      have t1 : Real.sqrt ((1 - u) * ((b - m) * (b - a))) ≤ b - m := by
        rw [Real.sqrt_le_left hR]
        nlinarith
      have t2 : (b - m) - κ * (m - a) ≤ Real.sqrt ((1 - u) * ((b - m) * (b - a))) := by
        rcases le_or_gt ((b - m) - κ * (m - a)) 0 with hn | hn
        · exact hn.trans (Real.sqrt_nonneg _)
        · refine sqrt_between ?_
          have : (b - m) - κ * (m - a) ≤ (1 - u) * (b - a) := by nlinarith
          nlinarith [mul_nonneg hκ0 hL]
      rw [abs_le]
      constructor <;> nlinarith
  · intro h
    split_ifs with hc
    · rw [hiff] at hc
      have s1 : Real.sqrt (u * ((m - a) * (b - a))) ≤ m - a := by
        rw [Real.sqrt_le_left hL]
        nlinarith
      have s2 : (1 - κ) * (m - a) ≤ Real.sqrt (u * ((m - a) * (b - a))) := by
        refine sqrt_between ?_
        have q := mul_le_mul_of_nonneg_left h hL
        have q2 : 0 ≤ κ * (1 - κ) * ((m - a) * (m - a)) := mul_nonneg (mul_nonneg hκ0 (by linarith)) (mul_nonneg hL hL)
        nlinarith
      have t1 : b - m ≤ Real.sqrt ((1 - u) * ((b - m) * (b - a))) := sqrt_between (by nlinarith)
      have t2 : Real.sqrt ((1 - u) * ((b - m) * (b - a))) ≤ (b - m) + κ * (m - a) := by
        have hk : 0 ≤ κ * (m - a) := mul_nonneg hκ0 hL
        rw [Real.sqrt_le_left (by linarith)]
        have : (1 - u) * (b - a) ≤ (b - m) + κ * (m - a) := by nlinarith
        nlinarith [mul_le_mul_of_nonneg_left this hR, mul_nonneg hk hR, mul_nonneg hk hk]
      rw [abs_le]
      constructor <;> nlinarith
    · simp [mul_nonneg hκ0 hL]

theorem round_near {x y d : ℝ} (h : |x - y| ≤ d) : |round53 x - y| ≤ d + eps * (|y| + d) := by
  have h1 : |round53 x - x| ≤ eps * |x| := round53_accurate x
  have h2 := abs_sub_abs_le_abs_sub x y
  have e := eps_pos
  have h3 : eps * |x| ≤ eps * (|y| + d) := mul_le_mul_of_nonneg_left (by linarith) e.le
  have := abs_sub_le (round53 x) x y
  linarith

/-- the rounded ratio -/
theorem ratio_near {a m b : Fl} (h1 : a.val ≤ m.val) (h3 : a.val < b.val) :
    |((m - a) / (b - a)).val * (b.val - a.val) - (m.val - a.val)| ≤ 5 * eps * (m.val - a.val) := by
  have e := eps_small
  have p := eps_pos
  have hB : 0 < b.val - a.val := by linarith
  have hL : 0 ≤ m.val - a.val := by linarith
  have h := ((err_diff m a).div (err_diff b a) (by norm_num) (by norm_num) hB.ne' (by linarith)).1
  rw [abs_of_pos hB, abs_of_nonneg hL] at h
  have e1 : ((m - a) / (b - a)).val * (b.val - a.val) - (m.val - a.val) = (((m - a) / (b - a)).val - (m.val - a.val) / (b.val - a.val)) * (b.val - a.val) := by
    field_simp
  rw [e1, abs_mul, abs_of_pos hB]
  refine (mul_le_mul_of_nonneg_right h hB.le).trans ?_
  rw [mul_assoc, div_mul_cancel₀ _ hB.ne']
  have := mul_nonneg p.le hL
  nlinarith

theorem triangular_near {a m b u : Fl} (h1 : a.val ≤ m.val) (h2 : m.val ≤ b.val) (h3 : a.val < b.val) (hu : IsDraw u) {v : Fl} (h : flTriangular a m b u = .ok v) :
    |v.val - tri a.val m.val b.val u.val| ≤ 20 * eps * (|a.val| + |b.val|) := by
  have e := eps_small
  have p := eps_pos
  obtain ⟨u0, u1⟩ := hu.range
  have u1' : u.val ≤ 1 := u1.trans (by norm_num)
  have hB : 0 < b.val - a.val := by linarith
  have hL : 0 ≤ m.val - a.val := by linarith
  have hR : 0 ≤ b.val - m.val := by linarith
  have hS : b.val - a.val ≤ |a.val| + |b.val| := by linarith [neg_abs_le a.val, le_abs_self b.val]
  have a0 := abs_nonneg a.val
  have b0 := abs_nonneg b.val
  obtain ⟨n1, n2⟩ := tri_near (u := u.val) (κ := 5 * eps) h1 h2 h3 (by linarith) (by linarith)
  have hr := abs_le.mp (ratio_near h1 h3)
  have hLB : 5 * eps * (m.val - a.val) ≤ 5 * eps * (|a.val| + |b.val|) := mul_le_mul_of_nonneg_left (by linarith) (by linarith)
  rw [triangular_cases h1 h2 h3] at h
  split_ifs at h with hc
  · obtain rfl := Except.ok.inj h
    have hq : u.val * (b.val - a.val) ≤ (1 + 5 * eps) * (m.val - a.val) := by
      have := mul_le_mul_of_nonneg_right hc hB.le
      linarith [hr.2]
    have w : Err (5/4) |u.val| u.val u.val := (Err.self _).mono le_rfl (by norm_num) le_rfl
    have hp : 0 ≤ u.val * ((m.val - a.val) * (b.val - a.val)) := by positivity
    have r := err_root w (err_diff m a) (err_diff b a) hp
    have sB : Real.sqrt (u.val * ((m.val - a.val) * (b.val - a.val))) ≤ b.val - a.val := by
      rw [Real.sqrt_le_left hB.le]
      have : u.val * ((m.val - a.val) * (b.val - a.val)) ≤ 1 * ((b.val - a.val) * (b.val - a.val)) := by gcongr
      nlinarith
    have s0 := Real.sqrt_nonneg (u.val * ((m.val - a.val) * (b.val - a.val)))
    have hn := n1 hq
    generalize Real.sqrt (u.val * ((m.val - a.val) * (b.val - a.val))) = s at *
    have rr : |(a.val + (flSqrt (u * ((m - a) * (b - a)))).val) - (a.val + s)| ≤ 10 * eps * (|a.val| + |b.val|) := by
      rw [add_sub_add_left_eq_sub]
      exact r.trans (mul_le_mul_of_nonneg_left (by linarith) (by linarith))
    have rd := round_near rr
    have hy : |a.val + s| ≤ 2 * (|a.val| + |b.val|) := by
      have := abs_add_le a.val s
      rw [abs_of_nonneg s0] at this
      linarith
    have ev : (a + flSqrt (u * ((m - a) * (b - a)))).val = round53 (a.val + (flSqrt (u * ((m - a) * (b - a)))).val) := rfl
    rw [ev]
    have t := abs_sub_le (round53 (a.val + (flSqrt (u * ((m - a) * (b - a)))).val)) (a.val + s) (tri a.val m.val b.val u.val)
    rw [abs_sub_comm (a.val + s)] at t
    have k : eps * (|a.val + s| + 10 * eps * (|a.val| + |b.val|)) ≤ eps * (3 * (|a.val| + |b.val|)) := by
      refine mul_le_mul_of_nonneg_left ?_ p.le
      have : 10 * eps * (|a.val| + |b.val|) ≤ 1 * (|a.val| + |b.val|) := mul_le_mul_of_nonneg_right (by linarith) (by linarith)
      linarith
    have z := mul_nonneg p.le (by linarith : 0 ≤ |a.val| + |b.val|)
    linarith
  · obtain rfl := Except.ok.inj h
    have hq : (1 - 5 * eps) * (m.val - a.val) ≤ u.val * (b.val - a.val) := by
      have := mul_le_mul_of_nonneg_right (not_le.mp hc).le hB.le
      linarith [hr.1]
    have w : Err (5/4) |1 - u.val| (((1 : ℕ) : Fl) - u).val (1 - u.val) := by
      have := err_diff ((1 : ℕ) : Fl) u
      rwa [one_val] at this
    have hp : 0 ≤ (1 - u.val) * ((b.val - m.val) * (b.val - a.val)) := mul_nonneg (by linarith) (mul_nonneg hR hB.le)
    have r := err_root w (err_diff b m) (err_diff b a) hp
    have sB : Real.sqrt ((1 - u.val) * ((b.val - m.val) * (b.val - a.val))) ≤ b.val - a.val := by
      rw [Real.sqrt_le_left hB.le]
      have : (1 - u.val) * ((b.val - m.val) * (b.val - a.val)) ≤ 1 * ((b.val - a.val) * (b.val - a.val)) := by
        gcongr
        · linarith
      nlinarith
    have s0 := Real.sqrt_nonneg ((1 - u.val) * ((b.val - m.val) * (b.val - a.val)))
    have hn := n2 hq
    generalize Real.sqrt ((1 - u.val) * ((b.val - m.val) * (b.val - a.val))) = s at *
    have rr : |(b.val - (flSqrt ((((1 : ℕ) : Fl) - u) * ((b - m) * (b - a)))).val) - (b.val - s)| ≤ 10 * eps * (|a.val| + |b.val|) := by
      rw [sub_sub_sub_cancel_left, abs_sub_comm]
      exact r.trans (mul_le_mul_of_nonneg_left (by linarith) (by linarith))
    have rd := round_near rr
    have hy : |b.val - s| ≤ 2 * (|a.val| + |b.val|) := by
      have := abs_sub b.val s
      rw [abs_of_nonneg s0] at this
      linarith
    have ev : (b - flSqrt ((((1 : ℕ) : Fl) - u) * ((b - m) * (b - a)))).val = round53 (b.val - (flSqrt ((((1 : ℕ) : Fl) - u) * ((b - m) * (b - a)))).val) := rfl
    rw [ev]
    have t := abs_sub_le (round53 (b.val - (flSqrt ((((1 : ℕ) : Fl) - u) * ((b - m) * (b - a)))).val)) (b.val - s) (tri a.val m.val b.val u.val)
    rw [abs_sub_comm (b.val - s)] at t
    have k : eps * (|b.val - s| + 10 * eps * (|a.val| + |b.val|)) ≤ eps * (3 * (|a.val| + |b.val|)) := by
      refine mul_le_mul_of_nonneg_left ?_ p.le
      have : 10 * eps * (|a.val| + |b.val|) ≤ 1 * (|a.val| + |b.val|) := mul_le_mul_of_nonneg_right (by linarith) (by linarith)
      linarith
    have z := mul_nonneg p.le (by linarith : 0 ≤ |a.val| + |b.val|)
    linarith

/-- a uniform variate -/
theorem uniform_near {a b u : Fl} (h : a.val ≤ b.val) (hu : IsDraw u) :
    |(flUniform a b u).val - (a.val + (b.val - a.val) * u.val)| ≤ 20 * eps * (|a.val| + |b.val|) := by
  have e := eps_small
  have p := eps_pos
  obtain ⟨u0, u1⟩ := hu.range
  have u1' : u.val ≤ 1 := u1.trans (by norm_num)
  have a0 := abs_nonneg a.val
  have b0 := abs_nonneg b.val
  have hS : b.val - a.val ≤ |a.val| + |b.val| := by linarith [neg_abs_le a.val, le_abs_self b.val]
  have w : Err 0 1 u.val u.val := ⟨by simp, by rw [abs_of_nonneg u0]; exact u1'⟩
  have r := (((err_diff b a).mul w (by norm_num) (by norm_num) (by linarith))).1
  rw [mul_one, abs_of_nonneg (by linarith : 0 ≤ b.val - a.val)] at r
  have rr : |(a.val + ((b - a) * u).val) - (a.val + (b.val - a.val) * u.val)| ≤ 4 * eps * (|a.val| + |b.val|) := by
    rw [add_sub_add_left_eq_sub]
    refine r.trans (mul_le_mul ?_ hS (by linarith) (by linarith))
    linarith
  have rd := round_near rr
  have hy : |a.val + (b.val - a.val) * u.val| ≤ 2 * (|a.val| + |b.val|) := by
    rw [abs_le]
    constructor <;> nlinarith [neg_abs_le a.val, le_abs_self b.val, neg_abs_le b.val, le_abs_self a.val, mul_le_of_le_one_right (by linarith : 0 ≤ b.val - a.val) u1', mul_nonneg (by linarith : 0 ≤ b.val - a.val) u0]
  have ev : (flUniform a b u).val = round53 (a.val + ((b - a) * u).val) := rfl
  rw [ev]
  refine rd.trans ?_
  have k : eps * (|a.val + (b.val - a.val) * u.val| + 4 * eps * (|a.val| + |b.val|)) ≤ eps * (3 * (|a.val| + |b.val|)) := by
    refine mul_le_mul_of_nonneg_left ?_ p.le
    have : 4 * eps * (|a.val| + |b.val|) ≤ 1 * (|a.val| + |b.val|) := mul_le_mul_of_nonneg_right (by linarith) (by linarith)
    linarith
  have z := mul_nonneg p.le (by linarith : 0 ≤ |a.val| + |b.val|)
  linarith

/-! ### the same distribution in exact arithmetic -/

theorem exact_pair (a b u : ℝ) : Dist.sample (.tuple [a, b]) u = .ok (a + (b - a) * u) := by
  unfold Dist.sample
  rw [show Dist.toPy (.tuple [a, b]) = .tuple [.float (.fin a), .float (.fin b)] from rfl, gen_pair rfl rfl]
  rfl

theorem exact_triple {a m b u : ℝ} (h1 : a ≤ m) (h2 : m ≤ b) (h3 : a < b) (hu : 0 ≤ u) (hu1 : u < 1) : Dist.sample (.tuple [a, m, b]) u = .ok (tri a m b u) := by
  unfold Dist.sample
  rw [show Dist.toPy (.tuple [a, m, b]) = .tuple [.float (.fin a), .float (.fin m), .float (.fin b)] from rfl, gen_triple rfl rfl rfl h1 h2 h3 hu hu1]
  rfl

theorem IsDraw.lt_one {u : Fl} (h : IsDraw u) : u.val < 1 := lt_of_le_of_lt h.range.2 (by norm_num)

/-! ### means -/

theorem float_scale {x : ℝ} (hf : round53 x = x) (j : ℤ) : round53 (x * 2 ^ j) = x * 2 ^ j := by
  have pos : ∀ y : ℝ, 0 < y → round53 y = y → round53 (y * 2 ^ j) = y * 2 ^ j := by
    intro y hy h
    obtain ⟨n, k, h1, h2, rfl⟩ := float_normal hy h
    rw [mul_assoc, ← zpow_add₀ (by norm_num)]
    exact round53_exact n (k + j) (by rw [abs_of_pos (by omega)]; omega)
  rcases lt_trichotomy x 0 with h | rfl | h
  · have := pos (-x) (by linarith) (by rw [round53_neg, hf])
    rw [neg_mul, round53_neg] at this
    linarith
  · rw [zero_mul, round53_zero]
  · exact pos x h hf

theorem two_val : (((2 : ℕ) : Fl)).val = 2 := by
  have : round53 2 = 2 := by simpa using round53_zpow 1
  exact this

theorem three_val : (((3 : ℕ) : Fl)).val = 3 := by
  have : round53 3 = 3 := by simpa using round53_exact 3 0 (by norm_num)
  exact this

theorem mean_pair_val (a b : Fl) : ((a + b) / ((2 : ℕ) : Fl)).val = round53 (a.val + b.val) / 2 := by
  change round53 (round53 (a.val + b.val) / ((2 : ℕ) : Fl).val) = _
  rw [two_val]
  have := float_scale (round53_idem (a.val + b.val)) (-1)
  rw [zpow_neg_one, ← div_eq_mul_inv] at this
  exact this

theorem mean_pair_mem {a b : Fl} (h : a.val ≤ b.val) : a.val ≤ ((a + b) / ((2 : ℕ) : Fl)).val ∧ ((a + b) / ((2 : ℕ) : Fl)).val ≤ b.val := by
  rw [mean_pair_val]
  have e : ∀ x : Fl, round53 (x.val * 2) = x.val * 2 := fun x => by simpa using float_scale x.isFloat 1
  constructor
  · have := round53_mono (by linarith : a.val * 2 ≤ a.val + b.val)
    rw [e] at this
    linarith
  · have := round53_mono (by linarith : a.val + b.val ≤ b.val * 2)
    rw [e] at this
    linarith

theorem mean_pair_near (a b : Fl) : |((a + b) / ((2 : ℕ) : Fl)).val - (a.val + b.val) / 2| ≤ 8 * eps * (|a.val| + |b.val|) := by
  rw [mean_pair_val]
  have h : |round53 (a.val + b.val) - (a.val + b.val)| ≤ eps * |a.val + b.val| := round53_accurate _
  have p := eps_pos
  have h2 : eps * |a.val + b.val| ≤ eps * (|a.val| + |b.val|) := mul_le_mul_of_nonneg_left (abs_add_le _ _) p.le
  have z := mul_nonneg p.le (by positivity : 0 ≤ |a.val| + |b.val|)
  rw [← sub_div, abs_div, abs_of_pos (by norm_num : (0:ℝ) < 2), div_le_iff₀ (by norm_num)]
  linarith

theorem mean_triple_near {a m b : Fl} (h1 : a.val ≤ m.val) (h2 : m.val ≤ b.val) :
    |((a + m + b) / ((3 : ℕ) : Fl)).val - (a.val + m.val + b.val) / 3| ≤ 8 * eps * (|a.val| + |b.val|) := by
  have e := eps_small
  have p := eps_pos
  have hm : |m.val| ≤ |a.val| + |b.val| := by
    rw [abs_le]
    constructor <;> linarith [neg_abs_le a.val, le_abs_self b.val, abs_nonneg a.val, abs_nonneg b.val]
  have r1 := (err_self a).add (err_self m) (by norm_num)
  have r2 := r1.add ((err_self b).mono le_rfl (by norm_num : (0:ℝ) ≤ 0 + 2) le_rfl) (by linarith)
  have r3 := r2.div (y' := ((3 : ℕ) : Fl)) (y := 3) (d := 0) (by rw [three_val]; exact Err.self _) (by norm_num) le_rfl (by norm_num) (by linarith)
  refine r3.1.trans ?_
  rw [abs_of_pos (by norm_num : (0:ℝ) < 3)]
  have z := mul_nonneg p.le (by positivity : 0 ≤ |a.val| + |b.val|)
  have q : (8 / 7 * (0 + 2 + 2 + 0) + 2) * eps * ((|a.val| + |m.val| + |b.val|) / 3) ≤ (8 / 7 * (0 + 2 + 2 + 0) + 2) * eps * (2 * (|a.val| + |b.val|) / 3) := by
    refine mul_le_mul_of_nonneg_left ?_ (by linarith)
    linarith
  nlinarith

theorem exact_mean_pair (a b : ℝ) : Dist.mean (.tuple [a, b]) = .ok ((a + b) / 2) := by
  have e : computeVariateMean (.tuple [.float (.fin a), .float (.fin b)]) = .ok (.float (.fin ((a + b) / 2))) := by
    simp only [computeVariateMean, show PyVal.num (.float (.fin a)) = some (.fin a) from rfl, show PyVal.num (.float (.fin b)) = some (.fin b) from rfl, XR.fin_add, XR.fin_div _ _ (two_ne_zero' ℝ)]
  unfold Dist.mean
  rw [show Dist.toPy (.tuple [a, b]) = .tuple [.float (.fin a), .float (.fin b)] from rfl, e]
  rfl

theorem exact_mean_triple (a m b : ℝ) : Dist.mean (.tuple [a, m, b]) = .ok ((a + m + b) / 3) := by
  have e : computeVariateMean (.tuple [.float (.fin a), .float (.fin m), .float (.fin b)]) = .ok (.float (.fin ((a + m + b) / 3))) := by
    simp only [computeVariateMean, show PyVal.num (.float (.fin a)) = some (.fin a) from rfl, show PyVal.num (.float (.fin m)) = some (.fin m) from rfl, show PyVal.num (.float (.fin b)) = some (.fin b) from rfl, XR.fin_add, XR.fin_div _ _ (three_ne_zero' ℝ)]
  unfold Dist.mean
  rw [show Dist.toPy (.tuple [a, m, b]) = .tuple [.float (.fin a), .float (.fin m), .float (.fin b)] from rfl, e]
  rfl

end Oneka
