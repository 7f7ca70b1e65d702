import Verif.Lemmas.FlAquifer
import Verif.Lemmas.FlFollow

/-! Saturated thickness and velocity in floating-point arithmetic. -/

namespace Oneka
namespace Aquifer

theorem sqrt_rel {u u' δ : ℝ} (hu : 0 < u) (h : |u' - u| ≤ δ * u) (hδ : 0 ≤ δ) : |Real.sqrt u' - Real.sqrt u| ≤ δ * Real.sqrt u := by
  have s0 := Real.sqrt_pos.mpr hu
  have s := Real.mul_self_sqrt hu.le
  rcases le_or_gt 0 u' with h0 | h0
  · have s' := Real.mul_self_sqrt h0
    have n0 := Real.sqrt_nonneg u'
    rw [abs_le] at h ⊢
    constructor
    · by_contra hc
      have hc := not_le.mp hc
      nlinarith [h.1, mul_nonneg n0 s0.le]
    · by_contra hc
      have hc := not_le.mp hc
      nlinarith [h.2, mul_nonneg n0 s0.le]
  · rw [Real.sqrt_eq_zero_of_nonpos h0.le, zero_sub, abs_neg, abs_of_pos s0]
    have h1 : 1 ≤ δ := by
      by_contra hc
      have hc := not_le.mp hc
      rw [abs_le] at h
      nlinarith [h.1]
    nlinarith

theorem Err_sqrt {c u u' : ℝ} (hu : 0 < u) (hc : 0 ≤ c) (h : Err c |u| u' u) : Err c |Real.sqrt u| (Real.sqrt u') (Real.sqrt u) := by
  have e := eps_pos
  have h1 := h.1
  rw [abs_of_pos hu] at h1
  refine ⟨?_, le_rfl⟩
  rw [abs_of_nonneg (Real.sqrt_nonneg u)]
  exact sqrt_rel hu h1 (by positivity)

/-- the saturated thickness as a function of the potential -/
theorem depth_eq {K T Φ : ℝ} (hK : 0 < K) (hT : 0 < T) (hΦ : 0 < Φ) : min (headOf K T Φ) T = min (Real.sqrt (2 * Φ / K)) T := by
  unfold headOf
  split_ifs with h
  · rfl
  · have h := not_lt.mp h
    rw [min_eq_right, min_eq_right]
    · refine Real.le_sqrt_of_sq_le ?_
      rw [le_div_iff₀ hK]; linarith
    · rw [le_div_iff₀ (by positivity)]
      nlinarith

theorem min_rel {h' h T δ : ℝ} (hT : 0 < T) (hh : 0 < h) (hδ0 : 0 ≤ δ) (hδ : δ ≤ 1) (H : |h' - h| ≤ δ * h) : |min h' T - min h T| ≤ δ * min h T := by
  rw [abs_le] at H ⊢
  rcases le_total h T with a | a
  · rw [min_eq_left a]
    constructor
    · have : (1 - δ) * h ≤ min h' T := le_min (by linarith [H.1]) (by nlinarith)
      linarith
    · have := min_le_left h' T
      linarith [H.2]
  · rw [min_eq_right a]
    constructor
    · have : (1 - δ) * T ≤ min h' T := le_min (by nlinarith [H.1]) (by nlinarith)
      linarith
    · have := min_le_right h' T
      have : 0 ≤ δ * T := by positivity
      linarith

variable [LibM]

/-- The head in floating-point arithmetic, if the potential has the relative error `θ`. -/
theorem head_fl (m : Aquifer Fl) (hm : m.exact.Physical) (x y : Fl) {Φ θ : ℝ} (hΦ : 0 < Φ) (hθ : |(m.potential x y).val - Φ| ≤ θ * Φ) (hθ0 : 0 ≤ θ) (hθ1 : θ ≤ 1/50) :
    ∃ h', m.head x y = .ok h' ∧ 0 < h'.val ∧
      |min h'.val m.thickness.val - min (headOf m.conductivity.val m.thickness.val Φ) m.thickness.val| ≤
        (2 * θ + 20 * eps) * min (headOf m.conductivity.val m.thickness.val Φ) m.thickness.val := by
  have e := eps_pos; have e' := eps_small
  have hK : 0 < m.conductivity.val := hm.conductivity
  have hT : 0 < m.thickness.val := hm.thickness
  rw [depth_eq hK hT hΦ]
  set P := m.potential x y with hP
  set K := m.conductivity
  set T := m.thickness
  have hθ' := abs_le.mp hθ
  have P0 : 0 < P.val := by nlinarith [hθ'.1]
  have q0 : (PyMath.q 0 : Fl).val = 0 := by rw [q_val, Rat.cast_zero, round53_zero]
  have hc : Err 8 |1/2 * K.val * (T.val * T.val)| (PyMath.q (1/2) * K * (T * T) : Fl).val (1/2 * K.val * (T.val * T.val)) := by
    have h1 := (err_q (1/2)).mul (Err.self K.val) (by norm_num) (by norm_num) (ce (by norm_num))
    have h2 := (Err.self T.val).mul (Err.self T.val) (by norm_num) (by norm_num) (ce (by norm_num))
    have h3 := h1.mul h2 (by norm_num) ((ce (by norm_num)).trans (by norm_num)) (ce (by norm_num))
    rw [← abs_mul, ← abs_mul, ← abs_mul] at h3
    push_cast at h3
    exact h3.mono (by norm_num) (by norm_num) le_rfl
  have c0 : 0 < 1/2 * K.val * (T.val * T.val) := by positivity
  set C := (PyMath.q (1/2) * K * (T * T) : Fl) with hC
  have s0 : 0 < Real.sqrt (2 * Φ / K.val) := Real.sqrt_pos.mpr (by positivity)
  unfold head
  rw [← hP]
  have n0 : ¬ P ≤ PyMath.q 0 := by
    rw [Fl.le_iff, q0]; exact not_le.mpr P0
  simp only [if_neg n0]
  by_cases hlt : P < C
  · refine ⟨_, if_pos hlt, ?_, ?_⟩
    · rw [sqrt_val]
      refine round53_pos (Real.sqrt_pos.mpr ?_)
      refine round53_pos (div_pos (round53_pos (mul_pos ?_ P0)) hK)
      rw [q_val]; exact round53_pos (by norm_num)
    · have h1 := (err_q 2).mul (Err.self P.val) (by norm_num) (by norm_num) (ce (by norm_num))
      have h2 := h1.div (Err.self K.val) (by norm_num) (by norm_num) hK.ne' (ce (by norm_num))
      push_cast at h2
      rw [← abs_mul, ← abs_div] at h2
      have u0 : 0 < 2 * P.val / K.val := by positivity
      have h3 := (Err_sqrt u0 (by norm_num) h2).round ((ce (by norm_num)).trans (by norm_num))
      have h4 := (h3.mono (d := 8) (by norm_num) (by norm_num) le_rfl).1
      rw [← sqrt_val, abs_of_nonneg (Real.sqrt_nonneg _)] at h4
      have h5 : |Real.sqrt (2 * P.val / K.val) - Real.sqrt (2 * Φ / K.val)| ≤ θ * Real.sqrt (2 * Φ / K.val) := by
        refine sqrt_rel (by positivity) ?_ hθ0
        rw [← sub_div, ← mul_sub, abs_div, abs_mul, abs_of_pos hK, abs_of_pos (by norm_num : (0:ℝ) < 2), mul_div_assoc' θ]
        refine div_le_div_of_nonneg_right ?_ hK.le
        linarith
      refine min_rel hT s0 (by positivity) (by linarith) ?_
      have h6 := abs_le.mp h5
      have h7 : Real.sqrt (2 * P.val / K.val) ≤ (1 + θ) * Real.sqrt (2 * Φ / K.val) := by linarith [h6.2]
      have h8 := mul_le_mul_of_nonneg_left h7 (by positivity : 0 ≤ 8 * eps)
      have h9 := abs_sub_le (PyMath.sqrt (PyMath.q 2 * P / K) : Fl).val (Real.sqrt (2 * P.val / K.val)) (Real.sqrt (2 * Φ / K.val))
      refine h9.trans ((add_le_add (h4.trans h8) h5).trans ?_)
      have : 8 * eps * (1 + θ) ≤ 20 * eps := by nlinarith
      have := mul_le_mul_of_nonneg_right this s0.le
      nlinarith
  · have hge : C.val ≤ P.val := not_lt.mp hlt
    have hKT : Err 2 |K.val * T.val| (K * T).val (K.val * T.val) := by
      have := (Err.self K.val).mul (Err.self T.val) (by norm_num) (by norm_num) (ce (by norm_num))
      rw [← abs_mul] at this
      exact this.mono (by norm_num) (by norm_num) le_rfl
    have kt0 : 0 < K.val * T.val := by positivity
    have kt0' : 0 < (K * T).val := round53_pos kt0
    have h1 := (hc.add hc ((ce (by norm_num)).trans (by norm_num))).div hKT (by norm_num) (by norm_num) kt0.ne' (ce (by norm_num))
    have e1 : (1/2 * K.val * (T.val * T.val) + 1/2 * K.val * (T.val * T.val)) / (K.val * T.val) = T.val := by field_simp; ring
    have e2 : (|1/2 * K.val * (T.val * T.val)| + |1/2 * K.val * (T.val * T.val)|) / |K.val * T.val| = T.val := by
      rw [abs_of_pos c0, abs_of_pos kt0, e1]
    rw [e1, e2] at h1
    have h2 := (h1.mono (d := 16) (by norm_num) (by norm_num) le_rfl).1
    have h3 : ((C + C) / (K * T)).val ≤ ((P + C) / (K * T)).val := by
      refine round53_mono (div_le_div_of_nonneg_right ?_ kt0'.le)
      exact round53_mono (by linarith)
    have h4 := abs_le.mp h2
    have hT1 : (1 - 16 * eps) * T.val ≤ ((P + C) / (K * T)).val := by linarith [h4.1]
    refine ⟨_, if_neg hlt, ?_, ?_⟩
    · exact lt_of_lt_of_le (mul_pos (by linarith) hT) hT1
    · have h5 := abs_le.mp hc.1
      rw [abs_of_pos c0] at h5
      have hΦ2 : (1 - 8 * eps - θ) * (1/2 * K.val * (T.val * T.val)) ≤ Φ := by
        have h6 : (1 - 8 * eps) * (1/2 * K.val * (T.val * T.val)) ≤ (1 + θ) * Φ := by linarith [h5.1, hθ'.2]
        by_contra hcon
        have hcon := not_le.mp hcon
        have := mul_lt_mul_of_pos_left hcon (by linarith : 0 < 1 + θ)
        have h7 : (1 + θ) * (1 - 8 * eps - θ) ≤ 1 - 8 * eps := by nlinarith
        have h8 := mul_le_mul_of_nonneg_right h7 c0.le
        linarith
      have hs : (1 - 8 * eps - θ) * T.val ≤ Real.sqrt (2 * Φ / K.val) := by
        refine Real.le_sqrt_of_sq_le ?_
        rw [le_div_iff₀ hK]
        have k0 : 0 ≤ 1 - 8 * eps - θ := by linarith
        have k1 : (1 - 8 * eps - θ) ^ 2 ≤ 1 - 8 * eps - θ := by nlinarith
        have := mul_le_mul_of_nonneg_right k1 (by positivity : 0 ≤ T.val ^ 2 * K.val)
        nlinarith
      have hb : (1 - 8 * eps - θ) * T.val ≤ min (Real.sqrt (2 * Φ / K.val)) T.val := le_min hs (by have := mul_pos e hT; have := mul_nonneg hθ0 hT.le; linarith)
      have hb' : (1 - 16 * eps) * T.val ≤ min ((P + C) / (K * T)).val T.val := le_min hT1 (by have := mul_pos e hT; linarith)
      have u1 := min_le_right (Real.sqrt (2 * Φ / K.val)) T.val
      have u2 := min_le_right ((P + C) / (K * T)).val T.val
      have u3 : 24/25 * T.val ≤ min (Real.sqrt (2 * Φ / K.val)) T.val := le_trans (mul_le_mul_of_nonneg_right (by linarith) hT.le) hb
      have u4 := mul_le_mul_of_nonneg_left u3 (by positivity : 0 ≤ 2 * θ + 20 * eps)
      have u5 := mul_nonneg hθ0 hT.le
      have u6 := mul_nonneg e.le hT.le
      rw [abs_le]
      constructor <;> linarith

omit [LibM] in
/-- a component of the velocity -/
theorem component_fl {c d S b Q φ : ℝ} {Q' D' φ' : Fl} (hφ : φ'.val = φ) (hQ : Err c S Q'.val Q) (hD : Err d |b| D'.val b) (hb : 0 < b) (h0 : 0 < φ) (hc : 0 ≤ c) (hd : 0 ≤ d)
    (hs : (c + d + 2) * eps ≤ 1/8) : |(-(Q' / (D' * φ'))).val - -(Q / (b * φ))| ≤ (8/7 * (c + d + 2) + 2) * eps * (S / (φ * b)) := by
  have e := eps_pos
  have h1 := hD.mul (Err.self φ'.val) hd (by rw [mul_zero, zero_mul]; norm_num) (by nlinarith)
  rw [hφ, ← abs_mul] at h1
  have h2 := hQ.div (h1.mono (d := d + 2) (by positivity) (by linarith) le_rfl) hc (by positivity) (by positivity) (by linarith)
  have h3 := h2.neg.1
  rw [abs_of_pos (by positivity : 0 < b * φ), mul_comm b φ, show 8/7 * (c + (d + 2)) + 2 = 8/7 * (c + d + 2) + 2 by ring] at h3
  rw [mul_comm b φ]
  exact h3

theorem depth_ite (T h : Fl) : (if T < h then T else h).val = min h.val T.val := by
  split_ifs with a
  · exact (min_eq_right (le_of_lt a)).symm
  · exact (min_eq_left (not_lt.mp a)).symm

omit [LibM] in
theorem potential_le_terms (m : Aquifer ℝ) (x y : ℝ) : m.potential x y ≤ m.potentialTerms x y := by
  rw [potential_eq]
  unfold potentialTerms conic
  have hs : ∀ l : List (Well ℝ), (l.map fun w => w.qw * (fourPiInv : ℝ) * Real.log (w.r2 x y)).sum ≤ (l.map fun w => |w.qw| / 12 * (1 + |Real.log (w.r2 x y)|)).sum := by
    intro l
    refine List.sum_le_sum fun w _ => ?_
    refine (le_abs_self _).trans ?_
    rw [abs_mul, abs_mul]
    have h1 := mul_le_mul_of_nonneg_left fourPiInv_abs (abs_nonneg w.qw)
    have h2 := mul_le_mul h1 (by linarith : |Real.log (w.r2 x y)| ≤ 1 + |Real.log (w.r2 x y)|) (abs_nonneg _) (by positivity)
    linarith
  have := hs m.wells
  linarith [le_abs_self (m.coef 0 * (x - m.xo) ^ 2), le_abs_self (m.coef 1 * (y - m.yo) ^ 2), le_abs_self (m.coef 2 * (x - m.xo) * (y - m.yo)), le_abs_self (m.coef 3 * (x - m.xo)),
    le_abs_self (m.coef 4 * (y - m.yo)), le_abs_self (m.coef 5)]

/-- The velocity in floating-point arithmetic. -/
theorem velocity_fl (hlog : LogAccurate) (m : Aquifer Fl) (hm : m.exact.Physical) (confined : Bool) (q : Fl × Fl) (hoff : m.exact.OffWells q.1.val q.2.val) {b : ℝ}
    (hs : m.exact.Saturated confined q.1.val q.2.val b) (hκ : (100 + 7 * (m.wells.length : ℝ)) * eps * m.exact.condition confined q.1.val q.2.val ≤ 1/100) :
    ∃ v w, m.backVelocity confined q = .ok v ∧ m.exact.backVelocity confined (fv q) = .ok w ∧
      ‖fv v - w‖ ≤ (100 + 7 * (m.wells.length : ℝ)) * eps * m.exact.condition confined q.1.val q.2.val * (m.exact.dischargeTerms q.1.val q.2.val / (m.exact.porosity * b)) := by
  have e := eps_pos; have e' := eps_small
  have hK : 0 < m.conductivity.val := hm.conductivity
  have hT : 0 < m.thickness.val := hm.thickness
  have hφ : 0 < m.porosity.val := hm.porosity
  set n : ℝ := (m.wells.length : ℝ) with hn
  have n0 : 0 ≤ n := by positivity
  have finish : ∀ (D' : Fl) (b d κ : ℝ), 1 ≤ κ → (100 + 7 * n) * eps * κ ≤ 1/100 → Err d |b| D'.val b → 0 < b → 0 ≤ d → 8/7 * (18 + 2 * n + d + 2) + 2 ≤ (100 + 7 * n) * κ →
      ‖fv (-((m.discharge q.1 q.2).1 / (D' * m.porosity)), -((m.discharge q.1 q.2).2 / (D' * m.porosity))) -
        (-((m.exact.discharge q.1.val q.2.val).1 / (b * m.porosity.val)), -((m.exact.discharge q.1.val q.2.val).2 / (b * m.porosity.val)))‖ ≤
      (100 + 7 * n) * eps * κ * (m.exact.dischargeTerms q.1.val q.2.val / (m.porosity.val * b)) := by
    intro D' b d κ hκ1 hκ hD hb hd hle
    have a0 : (18 + 2 * n + d + 2) * eps ≤ 1/8 := by
      have := mul_le_mul_of_nonneg_right hle e.le
      have h1 : 0 ≤ (18 + 2 * n + d + 2) * eps := by positivity
      nlinarith
    have a1 : (18 + 2 * n) * eps ≤ 1/8 := le_trans (mul_le_mul_of_nonneg_right (by linarith) e.le) a0
    obtain ⟨E1, E2⟩ := err_discharge m q.1 q.2 hoff a1
    have c1 := component_fl (φ' := m.porosity) rfl E1 hD hb hφ (by positivity) hd a0
    have c2 := component_fl (φ' := m.porosity) rfl E2 hD hb hφ (by positivity) hd a0
    have s0 : 0 ≤ m.exact.dischargeTerms q.1.val q.2.val / (m.porosity.val * b) := div_nonneg E1.nonneg (by positivity)
    have up : (8/7 * (18 + 2 * n + d + 2) + 2) * eps * (m.exact.dischargeTerms q.1.val q.2.val / (m.porosity.val * b)) ≤
        (100 + 7 * n) * eps * κ * (m.exact.dischargeTerms q.1.val q.2.val / (m.porosity.val * b)) := by
      refine mul_le_mul_of_nonneg_right ?_ s0
      have := mul_le_mul_of_nonneg_right hle e.le
      linarith
    refine (Prod.norm_def _).trans_le (max_le ?_ ?_)
    · exact c1.trans up
    · exact c2.trans up
  cases confined with
  | true =>
    simp only [Saturated, if_true] at hs
    subst hs
    simp only [condition, if_true] at hκ ⊢
    refine ⟨_, _, rfl, rfl, ?_⟩
    refine finish m.thickness m.thickness.val 0 1 le_rfl hκ (Err.self _) hT le_rfl ?_
    linarith
  | false =>
    simp only [Saturated, Bool.false_eq_true, if_false] at hs
    obtain ⟨h, h0, hp, rfl⟩ := hs
    simp only [condition, Bool.false_eq_true, if_false] at hκ ⊢
    set Φ := m.exact.potential q.1.val q.2.val with hΦd
    have hΦ : 0 < Φ := by
      rw [← hp]
      unfold potentialOfHead
      have hK : 0 < m.exact.conductivity := hK
      have hT : 0 < m.exact.thickness := hT
      split_ifs with hlt
      · positivity
      · have : 0 < h - m.exact.thickness / 2 := by linarith
        positivity
    have hh : h = headOf m.exact.conductivity m.exact.thickness Φ :=
      head_unique hK hT h0 (headOf_pos hK hT hΦ) (hp.trans (potential_headOf hK hT hΦ).symm)
    subst hh
    set κ := m.exact.potentialTerms q.1.val q.2.val / Φ with hκd
    have hκ1 : 1 ≤ κ := by
      rw [hκd, le_div_iff₀ hΦ, one_mul]
      exact potential_le_terms _ _ _
    have small : (19 + 2 * n) * eps * κ ≤ 1/200 := by
      have : (19 + 2 * n) * eps * κ ≤ 1/2 * ((100 + 7 * n) * eps * κ) := by
        have : 0 ≤ eps * κ := by positivity
        nlinarith
      linarith
    have hP := err_potential hlog m q.1 q.2 hoff (by
      have : (19 + 2 * n) * eps * 1 ≤ (19 + 2 * n) * eps * κ := mul_le_mul_of_nonneg_left hκ1 (by positivity)
      linarith)
    have hθ : |(m.potential q.1 q.2).val - Φ| ≤ (19 + 2 * n) * eps * κ * Φ := by
      refine hP.1.trans_eq ?_
      rw [hκd, mul_assoc _ (_ / _) Φ, div_mul_cancel₀ _ hΦ.ne', mul_assoc]
    obtain ⟨h', hh', h'0, hmin⟩ := head_fl m hm q.1 q.2 hΦ hθ (by positivity) (by linarith)
    have b0 : 0 < min (headOf m.exact.conductivity m.exact.thickness Φ) m.exact.thickness := lt_min (headOf_pos hK hT hΦ) hT
    have hD : Err (2 * (19 + 2 * n) * κ + 20) |min (headOf m.exact.conductivity m.exact.thickness Φ) m.exact.thickness| (if m.thickness < h' then m.thickness else h').val
        (min (headOf m.exact.conductivity m.exact.thickness Φ) m.exact.thickness) := by
      refine ⟨?_, le_rfl⟩
      rw [depth_ite, abs_of_pos b0]
      refine hmin.trans_eq ?_
      change (_ : ℝ) * min (headOf m.exact.conductivity m.exact.thickness Φ) m.exact.thickness = _
      ring
    have fin := finish _ _ _ κ hκ1 hκ hD b0 (by positivity) (by nlinarith)
    have q0 : (PyMath.q 0 : Fl).val = 0 := by rw [q_val, Rat.cast_zero, round53_zero]
    refine ⟨_, _, ?_, ?_, fin⟩
    · unfold backVelocity velocity
      simp only [Bool.false_eq_true, if_false, hh']
      rw [if_neg (by rw [Fl.le_iff, q0]; exact not_le.mpr h'0)]
      split_ifs <;> rfl
    · unfold backVelocity
      simp only [Bool.false_eq_true, if_false, fv]
      rw [velocity_eq m.exact hm, if_neg (not_le.mpr hΦ)]
      simp only [← hΦd]
      rw [mul_comm m.exact.porosity]
      rfl

end Aquifer
end Oneka
