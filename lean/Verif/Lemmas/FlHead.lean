import Verif.Lemmas.FlVelocity

/-! The head in floating-point arithmetic. -/

namespace Oneka
namespace Aquifer

/-- near the transition the two formulae for the head agree to second order -/
theorem branch_gap {K T Φ w : ℝ} (hK : 0 < K) (hT : 0 < T) (hΦ : 0 < Φ) (hw : |Φ - 1/2 * K * (T * T)| ≤ w * (1/2 * K * (T * T))) :
    |(Φ + 1/2 * K * (T * T)) / (K * T) - Real.sqrt (2 * Φ / K)| ≤ w ^ 2 / 2 * T := by
  set s := Real.sqrt (2 * Φ / K) with hs
  have s0 : 0 ≤ s := Real.sqrt_nonneg _
  have ss : s * s = 2 * Φ / K := Real.mul_self_sqrt (by positivity)
  have hΦs : Φ = K * (s * s) / 2 := by rw [ss]; field_simp
  have e1 : (Φ + 1/2 * K * (T * T)) / (K * T) - s = (T - s) ^ 2 / (2 * T) := by
    rw [hΦs]; field_simp; ring
  rw [e1, abs_of_nonneg (by positivity), div_le_iff₀ (by positivity)]
  have h1 : |s * s - T * T| ≤ w * (T * T) := by
    have e2 : Φ - 1/2 * K * (T * T) = K / 2 * (s * s - T * T) := by rw [hΦs]; ring
    rw [e2, abs_mul, abs_of_pos (by positivity : 0 < K / 2)] at hw
    have : K / 2 * |s * s - T * T| ≤ K / 2 * (w * (T * T)) := by linarith
    exact le_of_mul_le_mul_left this (by positivity)
  have h2 : |T - s| * T ≤ w * (T * T) := by
    refine le_trans ?_ h1
    rw [show s * s - T * T = (s - T) * (s + T) by ring, abs_mul, abs_sub_comm s T, abs_of_nonneg (by positivity : 0 ≤ s + T)]
    exact mul_le_mul_of_nonneg_left (by linarith) (abs_nonneg _)
  have h3 : |T - s| ≤ w * T := le_of_mul_le_mul_right (by linarith) hT
  have h4 : (T - s) ^ 2 ≤ (w * T) ^ 2 := sq_le_sq' (by linarith [neg_abs_le (T - s)]) (by linarith [le_abs_self (T - s)])
  nlinarith

theorem ratio_up {θ ε : ℝ} (h0 : 0 ≤ θ) (h1 : θ ≤ 1/50) (he : 0 ≤ ε) : 1 + 8 * ε ≤ (1 - θ) * (1 + (21/20 * θ + 10 * ε)) := by
  nlinarith [mul_nonneg h0 he, mul_nonneg h0 (by linarith : 0 ≤ 1/50 - θ), mul_nonneg he (by linarith : 0 ≤ 1/50 - θ)]

theorem ratio_down {θ ε : ℝ} (h0 : 0 ≤ θ) (h1 : θ ≤ 1/50) (he : 0 ≤ ε) : (1 + θ) * (1 - (21/20 * θ + 10 * ε)) ≤ 1 - 8 * ε := by
  nlinarith [mul_nonneg h0 he, mul_nonneg h0 h0]

variable [LibM]

set_option maxHeartbeats 1000000 in
/-- The head in floating-point arithmetic, if the potential has the relative error `θ`. -/
theorem head_near (m : Aquifer Fl) (hm : m.exact.Physical) (x y : Fl) {Φ θ : ℝ} (hΦ : 0 < Φ) (hθ : |(m.potential x y).val - Φ| ≤ θ * Φ) (hθ0 : 0 ≤ θ) (hθ1 : θ ≤ 1/50) :
    ∃ h', m.head x y = .ok h' ∧ |h'.val - headOf m.conductivity.val m.thickness.val Φ| ≤ (2 * θ + 20 * eps) * headOf m.conductivity.val m.thickness.val Φ := by
  have e := eps_pos; have e' := eps_small
  have hK : 0 < m.conductivity.val := hm.conductivity
  have hT : 0 < m.thickness.val := hm.thickness
  have H0 := headOf_pos hK hT hΦ
  set P := m.potential x y with hP
  set K := m.conductivity
  set T := m.thickness
  have hθ' := abs_le.mp hθ
  have P0 : 0 < P.val := by nlinarith [hθ'.1]
  have q0 : (PyMath.q 0 : Fl).val = 0 := by rw [q_val, Rat.cast_zero, round53_zero]
  have hc : Err 8 |1/2 * K.val * (T.val * T.val)| (PyMath.q (1/2) * K * (T * T) : Fl).val (1/2 * K.val * (T.val * T.val)) := by
    have h1 := (err_q (1/2)).mul (Err.self K.val) (by norm_num) (by norm_num) (ce (by norm_num))
    have h2 := (Err.self T.val).mul (Err.self T.val) (by norm_num) (by norm_num) (ce (by norm_num))
    have h3 := h1.mul h2 (by norm_num) ((ce (by norm_num)).trans (by norm_num)) (ce (by norm_num))
    rw [← abs_mul, ← abs_mul, ← abs_mul] at h3
    push_cast at h3
    exact h3.mono (by norm_num) (by norm_num) le_rfl
  have c0 : 0 < 1/2 * K.val * (T.val * T.val) := by positivity
  set C := (PyMath.q (1/2) * K * (T * T) : Fl) with hC
  set c := 1/2 * K.val * (T.val * T.val) with hcd
  have h5 := abs_le.mp hc.1
  rw [abs_of_pos c0] at h5
  have s0 : 0 < Real.sqrt (2 * Φ / K.val) := Real.sqrt_pos.mpr (by positivity)
  have hof : headOf K.val T.val Φ = if Φ < c then Real.sqrt (2 * Φ / K.val) else (Φ + c) / (K.val * T.val) := by
    unfold headOf
    rw [hcd, show 1/2 * K.val * (T.val * T.val) = K.val * T.val ^ 2 / 2 by ring]
  have w0 : 0 ≤ 21/20 * θ + 10 * eps := by positivity
  have w1 : 21/20 * θ + 10 * eps ≤ 1/40 := by linarith
  -- the difference of the two formulae, if the wrong one is taken
  have gap : |Φ - c| ≤ (21/20 * θ + 10 * eps) * c → |(Φ + c) / (K.val * T.val) - Real.sqrt (2 * Φ / K.val)| ≤ 1/50 * (21/20 * θ + 10 * eps) * headOf K.val T.val Φ := by
    intro hw
    refine (branch_gap hK hT hΦ hw).trans ?_
    have hT2 : 97/100 * T.val ≤ headOf K.val T.val Φ := by
      have hl : 39/40 * c ≤ Φ := by
        have := (abs_le.mp hw).1
        nlinarith
      rw [hof]
      split_ifs with hlt
      · refine Real.le_sqrt_of_sq_le ?_
        rw [le_div_iff₀ hK]
        rw [hcd] at hl
        nlinarith [mul_pos hK (mul_pos hT hT)]
      · rw [le_div_iff₀ (by positivity)]
        rw [hcd] at hlt ⊢
        nlinarith [mul_pos hK (mul_pos hT hT)]
    set w := 21/20 * θ + 10 * eps
    have h2 : w ^ 2 / 2 ≤ 1/80 * w := by nlinarith
    have h3 := mul_le_mul_of_nonneg_right h2 hT.le
    have h4 := mul_le_mul_of_nonneg_left hT2 w0
    nlinarith
  unfold head
  rw [← hP]
  have n0 : ¬ P ≤ PyMath.q 0 := by
    rw [Fl.le_iff, q0]; exact not_le.mpr P0
  simp only [if_neg n0]
  by_cases hlt : P < C
  · refine ⟨_, if_pos hlt, ?_⟩
    have h1 := (err_q 2).mul (Err.self P.val) (by norm_num) (by norm_num) (ce (by norm_num))
    have h2 := h1.div (Err.self K.val) (by norm_num) (by norm_num) hK.ne' (ce (by norm_num))
    push_cast at h2
    rw [← abs_mul, ← abs_div] at h2
    have u0 : 0 < 2 * P.val / K.val := by positivity
    have h3 := (Err_sqrt u0 (by norm_num) h2).round ((ce (by norm_num)).trans (by norm_num))
    have h4 := (h3.mono (d := 8) (by norm_num) (by norm_num) le_rfl).1
    rw [← sqrt_val, abs_of_nonneg (Real.sqrt_nonneg _)] at h4
    have h5' : |Real.sqrt (2 * P.val / K.val) - Real.sqrt (2 * Φ / K.val)| ≤ θ * Real.sqrt (2 * Φ / K.val) := by
      refine sqrt_rel (by positivity) ?_ hθ0
      rw [← sub_div, ← mul_sub, abs_div, abs_mul, abs_of_pos hK, abs_of_pos (by norm_num : (0:ℝ) < 2), mul_div_assoc' θ]
      refine div_le_div_of_nonneg_right ?_ hK.le
      linarith
    have h6 := abs_le.mp h5'
    have h7 : Real.sqrt (2 * P.val / K.val) ≤ (1 + θ) * Real.sqrt (2 * Φ / K.val) := by linarith [h6.2]
    have h8 := mul_le_mul_of_nonneg_left h7 (by positivity : 0 ≤ 8 * eps)
    have h9 := abs_sub_le (PyMath.sqrt (PyMath.q 2 * P / K) : Fl).val (Real.sqrt (2 * P.val / K.val)) (Real.sqrt (2 * Φ / K.val))
    have h10 : |(PyMath.sqrt (PyMath.q 2 * P / K) : Fl).val - Real.sqrt (2 * Φ / K.val)| ≤ (θ + 9 * eps) * Real.sqrt (2 * Φ / K.val) := by
      refine h9.trans ((add_le_add (h4.trans h8) h5').trans ?_)
      have : 8 * eps * (1 + θ) ≤ 9 * eps := by nlinarith
      have := mul_le_mul_of_nonneg_right this s0.le
      linarith
    by_cases hΦc : Φ < c
    · rw [hof, if_pos hΦc]
      refine h10.trans (mul_le_mul_of_nonneg_right (by linarith) s0.le)
    · have hΦc := not_lt.mp hΦc
      have hlt : P.val < C.val := hlt
      have hu : Φ ≤ (1 + (21/20 * θ + 10 * eps)) * c := by
        have h11 : (1 - θ) * Φ ≤ (1 + 8 * eps) * c := by linarith [h5.2, hθ'.1]
        by_contra hcon
        have hcon := not_le.mp hcon
        have := mul_lt_mul_of_pos_left hcon (by linarith : 0 < 1 - θ)
        have h12 := ratio_up hθ0 hθ1 e.le
        have h13 := mul_le_mul_of_nonneg_right h12 c0.le
        linarith
      have g := gap (by rw [abs_of_nonneg (by linarith)]; linarith)
      have hh : headOf K.val T.val Φ = (Φ + c) / (K.val * T.val) := by rw [hof, if_neg (not_lt.mpr hΦc)]
      have hsl : Real.sqrt (2 * Φ / K.val) ≤ (1 + 1/1000) * headOf K.val T.val Φ := by
        have := (abs_le.mp g).1
        rw [← hh] at this
        have h14 := mul_le_mul_of_nonneg_right (by linarith : 1/50 * (21/20 * θ + 10 * eps) ≤ 1/1000) H0.le
        linarith
      have h15 := mul_le_mul_of_nonneg_left hsl (by positivity : 0 ≤ θ + 9 * eps)
      have h16 := abs_sub_le (PyMath.sqrt (PyMath.q 2 * P / K) : Fl).val (Real.sqrt (2 * Φ / K.val)) (headOf K.val T.val Φ)
      rw [← hh, abs_sub_comm (headOf K.val T.val Φ)] at g
      have h17 := mul_nonneg hθ0 H0.le
      have h18 := mul_nonneg e.le H0.le
      linarith
  · have hge : C.val ≤ P.val := not_lt.mp hlt
    refine ⟨_, if_neg hlt, ?_⟩
    have hKT : Err 2 |K.val * T.val| (K * T).val (K.val * T.val) := by
      have := (Err.self K.val).mul (Err.self T.val) (by norm_num) (by norm_num) (ce (by norm_num))
      rw [← abs_mul] at this
      exact this.mono (by norm_num) (by norm_num) le_rfl
    have kt0 : 0 < K.val * T.val := by positivity
    have hPe : Err 8 |P.val| P.val P.val := (Err.self P.val).mono le_rfl (by norm_num) le_rfl
    have h1 := (hPe.add hc ((ce (by norm_num)).trans (by norm_num))).div hKT (by norm_num) (by norm_num) kt0.ne' (ce (by norm_num))
    rw [abs_of_pos P0, abs_of_pos c0, abs_of_pos kt0] at h1
    have h2 := (h1.mono (d := 16) (by norm_num) (by norm_num) le_rfl).1
    have a0 : 0 < (Φ + c) / (K.val * T.val) := by positivity
    have h3 : |(P.val + c) / (K.val * T.val) - (Φ + c) / (K.val * T.val)| ≤ θ * ((Φ + c) / (K.val * T.val)) := by
      rw [← sub_div, abs_div, abs_of_pos kt0, mul_div_assoc' θ]
      refine div_le_div_of_nonneg_right ?_ kt0.le
      rw [add_sub_add_right_eq_sub]
      have := mul_nonneg hθ0 c0.le
      linarith
    have h4 : (P.val + c) / (K.val * T.val) ≤ (1 + θ) * ((Φ + c) / (K.val * T.val)) := by linarith [(abs_le.mp h3).2]
    have h6 := mul_le_mul_of_nonneg_left h4 (by positivity : 0 ≤ 16 * eps)
    have h7 := abs_sub_le ((P + C) / (K * T)).val ((P.val + c) / (K.val * T.val)) ((Φ + c) / (K.val * T.val))
    have h10 : |((P + C) / (K * T)).val - (Φ + c) / (K.val * T.val)| ≤ (θ + 17 * eps) * ((Φ + c) / (K.val * T.val)) := by
      refine h7.trans ((add_le_add (h2.trans h6) h3).trans ?_)
      have : 16 * eps * (1 + θ) ≤ 17 * eps := by nlinarith
      have := mul_le_mul_of_nonneg_right this a0.le
      linarith
    by_cases hΦc : Φ < c
    · have hu : (1 - (21/20 * θ + 10 * eps)) * c ≤ Φ := by
        have h11 : (1 - 8 * eps) * c ≤ (1 + θ) * Φ := by linarith [h5.1, hθ'.2]
        by_contra hcon
        have hcon := not_le.mp hcon
        have := mul_lt_mul_of_pos_left hcon (by linarith : 0 < 1 + θ)
        have h12 := ratio_down hθ0 hθ1 e.le
        have h13 := mul_le_mul_of_nonneg_right h12 c0.le
        linarith
      have g := gap (by rw [abs_of_neg (by linarith)]; linarith)
      have hh : headOf K.val T.val Φ = Real.sqrt (2 * Φ / K.val) := by rw [hof, if_pos hΦc]
      rw [← hh] at g
      have hsl : (Φ + c) / (K.val * T.val) ≤ (1 + 1/1000) * headOf K.val T.val Φ := by
        have := (abs_le.mp g).2
        have h14 := mul_le_mul_of_nonneg_right (by linarith : 1/50 * (21/20 * θ + 10 * eps) ≤ 1/1000) H0.le
        linarith
      have h15 := mul_le_mul_of_nonneg_left hsl (by positivity : 0 ≤ θ + 17 * eps)
      have h16 := abs_sub_le ((P + C) / (K * T)).val ((Φ + c) / (K.val * T.val)) (headOf K.val T.val Φ)
      have h17 := mul_nonneg hθ0 H0.le
      have h18 := mul_nonneg e.le H0.le
      linarith
    · rw [hof, if_neg hΦc]
      exact h10.trans (mul_le_mul_of_nonneg_right (by linarith) a0.le)

end Aquifer
end Oneka
