import Verif.Lemmas.Straight

/-!
# A trial step away from a well in an aquifer at rest leads away from the well
-/

namespace Oneka

open Aquifer

section
variable {s : ℝ} (hs : 0 ≤ s)
include hs

theorem out_y2 : 1 / (1 + s * (1/5)) = 5 / (5 + s) := by
  have : (5:ℝ) + s ≠ 0 := by positivity
  have : 1 + s * (1/5) ≠ 0 := by positivity
  field_simp

theorem out_y3 : 1 / (1 + s * (3/40 + 9/40 * (5 / (5 + s)))) = (200 + 40 * s) / (200 + 100 * s + 3 * s ^ 2) := by
  have h1 : (5:ℝ) + s ≠ 0 := by positivity
  have h2 : (200 + 100 * s + 3 * s ^ 2) ≠ 0 := by positivity
  have h3 : 1 + s * (3/40 + 9/40 * (5 / (5 + s))) ≠ 0 := by positivity
  rw [div_eq_div_iff h3 h2]
  field_simp
  ring

theorem out_a4 : 3/5 ≤ 44/45 + -56/15 * (5 / (5 + s)) + 32/9 * ((200 + 40 * s) / (200 + 100 * s + 3 * s ^ 2)) ∧
    44/45 + -56/15 * (5 / (5 + s)) + 32/9 * ((200 + 40 * s) / (200 + 100 * s + 3 * s ^ 2)) ≤ 3/2 := by
  have h1 : (5:ℝ) + s ≠ 0 := by positivity
  have h2 : (200 + 100 * s + 3 * s ^ 2) ≠ 0 := by positivity
  constructor
  · have e : 44/45 + -56/15 * (5 / (5 + s)) + 32/9 * ((200 + 40 * s) / (200 + 100 * s + 3 * s ^ 2)) - 3/5 = (200 - 180 * s + 389/3 * s ^ 2 + 17/15 * s ^ 3) / ((5 + s) * (200 + 100 * s + 3 * s ^ 2)) := by
      field_simp
      ring
    have : 0 ≤ 200 - 180 * s + 389/3 * s ^ 2 + 17/15 * s ^ 3 := by
      have : 0 ≤ s ^ 3 := by positivity
      nlinarith [sq_nonneg (s - 7/10)]
    have := div_nonneg this (by positivity : 0 ≤ (5 + s) * (200 + 100 * s + 3 * s ^ 2))
    linarith
  · have e : 3/2 - (44/45 + -56/15 * (5 / (5 + s)) + 32/9 * ((200 + 40 * s) / (200 + 100 * s + 3 * s ^ 2))) = (700 + 810 * s - 157/6 * s ^ 2 + 47/30 * s ^ 3) / ((5 + s) * (200 + 100 * s + 3 * s ^ 2)) := by
      field_simp
      ring
    have : 0 ≤ 700 + 810 * s - 157/6 * s ^ 2 + 47/30 * s ^ 3 := by
      have h3 : 0 ≤ s * (s - 25/3) ^ 2 := by positivity
      nlinarith
    have := div_nonneg this (by positivity : 0 ≤ (5 + s) * (200 + 100 * s + 3 * s ^ 2))
    linarith

theorem out_a5 : 1/2 ≤ 19372/6561 + -25360/2187 * (5 / (5 + s)) + 64448/6561 * ((200 + 40 * s) / (200 + 100 * s + 3 * s ^ 2)) + -212/729 * (1 / (1 + 3/5 * s)) := by
  have h1 : (5:ℝ) + s ≠ 0 := by positivity
  have h2 : (200 + 100 * s + 3 * s ^ 2) ≠ 0 := by positivity
  have h3 : 1 + 3/5 * s ≠ 0 := by positivity
  have e : 19372/6561 + -25360/2187 * (5 / (5 + s)) + 64448/6561 * ((200 + 40 * s) / (200 + 100 * s + 3 * s ^ 2)) + -212/729 * (1 / (1 + 3/5 * s)) - 1/2 =
      (3500/9 + 38150/729 * s + 1646515/4374 * s ^ 2 + 671632/2187 * s ^ 3 + 32183/7290 * s ^ 4) / ((5 + s) * (200 + 100 * s + 3 * s ^ 2) * (1 + 3/5 * s)) := by
    field_simp
    ring
  have : 0 ≤ (3500/9 + 38150/729 * s + 1646515/4374 * s ^ 2 + 671632/2187 * s ^ 3 + 32183/7290 * s ^ 4) / ((5 + s) * (200 + 100 * s + 3 * s ^ 2) * (1 + 3/5 * s)) := by positivity
  linarith

theorem out_a6 : 0 ≤ 9017/3168 + -355/33 * (5 / (5 + s)) + 46732/5247 * ((200 + 40 * s) / (200 + 100 * s + 3 * s ^ 2)) + -5103/18656 * (1 / (1 + 1/2 * s)) := by
  have h1 : (5:ℝ) + s ≠ 0 := by positivity
  have h2 : (200 + 100 * s + 3 * s ^ 2) ≠ 0 := by positivity
  have h3 : 1 + 1/2 * s ≠ 0 := by positivity
  have e : 9017/3168 + -355/33 * (5 / (5 + s)) + 46732/5247 * ((200 + 40 * s) / (200 + 100 * s + 3 * s ^ 2)) + -5103/18656 * (1 / (1 + 1/2 * s)) =
      (15875/22 + 2249275/4664 * s + 4049605/6996 * s ^ 2 + 30091273/111936 * s ^ 3 + 9017/2112 * s ^ 4) / ((5 + s) * (200 + 100 * s + 3 * s ^ 2) * (1 + 1/2 * s)) := by
    field_simp
    ring
  rw [e]
  positivity

theorem out_a7 : 0 < 35/384 + 125/192 * (1 / (1 + 3/2 * s)) + -2187/6784 * (1 / (1 + 1/2 * s)) := by
  have h3 : 1 + 3/2 * s ≠ 0 := by positivity
  have h4 : 1 + 1/2 * s ≠ 0 := by positivity
  have e : 35/384 + 125/192 * (1 / (1 + 3/2 * s)) + -2187/6784 * (1 / (1 + 1/2 * s)) = (89/212 + 329/13568 * s + 35/512 * s ^ 2) / ((1 + 3/2 * s) * (1 + 1/2 * s)) := by
    field_simp
    ring
  rw [e]
  positivity

/-- all stages are on the ray, and the step leads outward -/
theorem out_stages {y2 y3 y4 y5 y6 : ℝ} (e2 : y2 = 1 / (1 + s * (1/5))) (e3 : y3 = 1 / (1 + s * (3/40 + 9/40 * y2))) (e4 : y4 = 1 / (1 + s * (44/45 + -56/15 * y2 + 32/9 * y3)))
    (e5 : y5 = 1 / (1 + s * (19372/6561 + -25360/2187 * y2 + 64448/6561 * y3 + -212/729 * y4))) (e6 : y6 = 1 / (1 + s * (9017/3168 + -355/33 * y2 + 46732/5247 * y3 + 49/176 * y4 + -5103/18656 * y5))) :
    0 < 1 + s * (1/5) ∧ 0 < 1 + s * (3/40 + 9/40 * y2) ∧ 0 < 1 + s * (44/45 + -56/15 * y2 + 32/9 * y3) ∧ 0 < 1 + s * (19372/6561 + -25360/2187 * y2 + 64448/6561 * y3 + -212/729 * y4) ∧
      0 < 1 + s * (9017/3168 + -355/33 * y2 + 46732/5247 * y3 + 49/176 * y4 + -5103/18656 * y5) ∧ 0 < 35/384 + 500/1113 * y3 + 125/192 * y4 + -2187/6784 * y5 + 11/84 * y6 := by
  rw [out_y2 hs] at e2
  rw [e2, out_y3 hs] at e3
  obtain ⟨l4, u4⟩ := out_a4 hs
  have l5 := out_a5 hs
  have l6 := out_a6 hs
  have l7 := out_a7 hs
  rw [← e2, ← e3] at l4 u4 l5 l6
  have p2 : 0 < y2 := by rw [e2]; positivity
  have p3 : 0 < y3 := by rw [e3]; positivity
  have x4 : 1 + 3/5 * s ≤ 1 + s * (44/45 + -56/15 * y2 + 32/9 * y3) := by nlinarith [mul_le_mul_of_nonneg_left l4 hs]
  have x4' : 1 + s * (44/45 + -56/15 * y2 + 32/9 * y3) ≤ 1 + 3/2 * s := by nlinarith [mul_le_mul_of_nonneg_left u4 hs]
  have q4 : 0 < 1 + 3/5 * s := by positivity
  have p4 : y4 ≤ 1 / (1 + 3/5 * s) := by rw [e4]; exact one_div_le_one_div_of_le q4 x4
  have p4' : 1 / (1 + 3/2 * s) ≤ y4 := by rw [e4]; exact one_div_le_one_div_of_le (q4.trans_le x4) x4'
  have p40 : 0 < y4 := lt_of_lt_of_le (by positivity) p4'
  have a5 : 1/2 ≤ 19372/6561 + -25360/2187 * y2 + 64448/6561 * y3 + -212/729 * y4 := by linarith
  have x5 : 1 + 1/2 * s ≤ 1 + s * (19372/6561 + -25360/2187 * y2 + 64448/6561 * y3 + -212/729 * y4) := by nlinarith [mul_le_mul_of_nonneg_left a5 hs]
  have q5 : 0 < 1 + 1/2 * s := by positivity
  have p5 : y5 ≤ 1 / (1 + 1/2 * s) := by rw [e5]; exact one_div_le_one_div_of_le q5 x5
  have a6 : 0 ≤ 9017/3168 + -355/33 * y2 + 46732/5247 * y3 + 49/176 * y4 + -5103/18656 * y5 := by linarith
  have x6 : 1 ≤ 1 + s * (9017/3168 + -355/33 * y2 + 46732/5247 * y3 + 49/176 * y4 + -5103/18656 * y5) := le_add_of_nonneg_right (mul_nonneg hs a6)
  have p6 : 0 < y6 := by rw [e6]; exact one_div_pos.mpr (zero_lt_one.trans_le x6)
  exact ⟨by positivity, by positivity, q4.trans_le x4, q5.trans_le x5, zero_lt_one.trans_le x6, by linarith⟩

end

/-- the point of the ray from `w` in the direction `e` -/
def rayAt (w e : ℝ × ℝ) (ρ : ℝ) : ℝ × ℝ := (w.1 + ρ * e.1, w.2 + ρ * e.2)

/-- a multiple of `e` -/
def multOf (e : ℝ × ℝ) (k : ℝ) : ℝ × ℝ := (k * e.1, k * e.2)

theorem multOf_scq (e : ℝ × ℝ) (a : ℚ) (k : ℝ) : scq a (multOf e k) = multOf e ((a : ℝ) * k) := by
  simp only [scq, sc, multOf, PyMath.q_real, mul_assoc]

theorem multOf_add (e : ℝ × ℝ) (k l : ℝ) : multOf e k + multOf e l = multOf e (k + l) := by
  simp only [multOf, Prod.mk_add_mk, add_mul]

theorem rayAt_move (w e : ℝ × ℝ) (ρ h k : ℝ) : rayAt w e ρ + sc h (multOf e k) = rayAt w e (ρ + h * k) := by
  simp only [rayAt, multOf, sc, Prod.mk_add_mk]
  refine Prod.ext ?_ ?_ <;> simp only <;> ring

theorem trial_outward {w e : ℝ × ℝ} {c ρ h : ℝ} (hρ : 0 < ρ) (hh : 0 < h) (hc : 0 < c) {feval : FEval} (hf : ∀ n ρ v, 0 < ρ → feval n (rayAt w e ρ) = .ok v → v = multOf e (c / ρ)) {n : ℕ} {xyt k7 : ℝ × ℝ} {est ds : ℝ}
    (ht : trial feval n (rayAt w e ρ) (multOf e (c / ρ)) h = .ok (xyt, k7, est, ds)) : ∃ ρ', ρ < ρ' ∧ xyt = rayAt w e ρ' ∧ k7 = multOf e (c / ρ') := by
  obtain ⟨k2, k3, k4, k5, k6, e2, e3, e4, e5, e6, rfl, e7, -, -⟩ := trial_evals ht
  set s := h * c / ρ ^ 2 with hs
  have hs0 : 0 < s := by positivity
  set y2 := 1 / (1 + s * (1/5)) with hy2
  set y3 := 1 / (1 + s * (3/40 + 9/40 * y2)) with hy3
  set y4 := 1 / (1 + s * (44/45 + -56/15 * y2 + 32/9 * y3)) with hy4
  set y5 := 1 / (1 + s * (19372/6561 + -25360/2187 * y2 + 64448/6561 * y3 + -212/729 * y4)) with hy5
  set y6 := 1 / (1 + s * (9017/3168 + -355/33 * y2 + 46732/5247 * y3 + 49/176 * y4 + -5103/18656 * y5)) with hy6
  obtain ⟨q2, q3, q4, q5, q6, q7⟩ := out_stages hs0.le hy2 hy3 hy4 hy5 hy6
  have step : ∀ a : ℝ, ρ + h * (a * (c / ρ)) = ρ * (1 + s * a) := by
    intro a
    rw [hs]
    field_simp
  have speed : ∀ x : ℝ, c / (ρ * x) = c / ρ * (1 / x) := by
    intro x
    rw [div_mul_div_comm, mul_one]
  have g2 : k2 = multOf e (y2 * (c / ρ)) := by
    rw [multOf_scq, rayAt_move] at e2
    push_cast at e2
    rw [step] at e2
    rw [hf _ _ _ (mul_pos hρ q2) e2, speed, ← hy2, mul_comm]
  subst g2
  have g3 : k3 = multOf e (y3 * (c / ρ)) := by
    simp only [multOf_scq, multOf_add, rayAt_move] at e3
    push_cast at e3
    rw [show (3/40 * (c / ρ) + 9/40 * (y2 * (c / ρ)) : ℝ) = (3/40 + 9/40 * y2) * (c / ρ) by ring, step] at e3
    rw [hf _ _ _ (mul_pos hρ q3) e3, speed, ← hy3, mul_comm]
  subst g3
  have g4 : k4 = multOf e (y4 * (c / ρ)) := by
    simp only [multOf_scq, multOf_add, rayAt_move] at e4
    push_cast at e4
    rw [show (44/45 * (c / ρ) + -56/15 * (y2 * (c / ρ)) + 32/9 * (y3 * (c / ρ)) : ℝ) = (44/45 + -56/15 * y2 + 32/9 * y3) * (c / ρ) by ring, step] at e4
    rw [hf _ _ _ (mul_pos hρ q4) e4, speed, ← hy4, mul_comm]
  subst g4
  have g5 : k5 = multOf e (y5 * (c / ρ)) := by
    simp only [multOf_scq, multOf_add, rayAt_move] at e5
    push_cast at e5
    rw [show (19372/6561 * (c / ρ) + -25360/2187 * (y2 * (c / ρ)) + 64448/6561 * (y3 * (c / ρ)) + -212/729 * (y4 * (c / ρ)) : ℝ) = (19372/6561 + -25360/2187 * y2 + 64448/6561 * y3 + -212/729 * y4) * (c / ρ) by ring, step] at e5
    rw [hf _ _ _ (mul_pos hρ q5) e5, speed, ← hy5, mul_comm]
  subst g5
  have g6 : k6 = multOf e (y6 * (c / ρ)) := by
    simp only [multOf_scq, multOf_add, rayAt_move] at e6
    push_cast at e6
    rw [show (9017/3168 * (c / ρ) + -355/33 * (y2 * (c / ρ)) + 46732/5247 * (y3 * (c / ρ)) + 49/176 * (y4 * (c / ρ)) + -5103/18656 * (y5 * (c / ρ)) : ℝ) =
      (9017/3168 + -355/33 * y2 + 46732/5247 * y3 + 49/176 * y4 + -5103/18656 * y5) * (c / ρ) by ring, step] at e6
    rw [hf _ _ _ (mul_pos hρ q6) e6, speed, ← hy6, mul_comm]
  subst g6
  simp only [multOf_scq, multOf_add, rayAt_move] at e7 ⊢
  push_cast at e7 ⊢
  rw [show (35/384 * (c / ρ) + 500/1113 * (y3 * (c / ρ)) + 125/192 * (y4 * (c / ρ)) + -2187/6784 * (y5 * (c / ρ)) + 11/84 * (y6 * (c / ρ)) : ℝ) =
    (35/384 + 500/1113 * y3 + 125/192 * y4 + -2187/6784 * y5 + 11/84 * y6) * (c / ρ) by ring, step] at e7 ⊢
  have hout : ρ < ρ * (1 + s * (35/384 + 500/1113 * y3 + 125/192 * y4 + -2187/6784 * y5 + 11/84 * y6)) := by
    rw [mul_add, mul_one]
    exact lt_add_of_pos_right _ (mul_pos hρ (mul_pos hs0 q7))
  exact ⟨_, hout, rfl, hf _ _ _ (hρ.trans hout) e7⟩

theorem trace_outward {w e : ℝ × ℝ} {c xs ys D tol maxstep : ℝ} (hc : 0 < c) (hD : 0 < D) (htol : 0 < tol) (hms : 0 < maxstep) {feval : FEval} (hf : ∀ n ρ v, 0 < ρ → feval n (rayAt w e ρ) = .ok v → v = multOf e (c / ρ))
    (h0 : (xs, ys) = rayAt w e 1) {r : Trace ℝ} (h : computeBacktrace xs ys D tol maxstep feval = some r) :
    ∃ ρs : List ℝ, r.vertices = ρs.map (rayAt w e) ∧ ρs.head? = some 1 ∧ ρs.Pairwise (· < ·) := by
  refine backtrace_inv (fun s => 0 ≤ s.t ∧ 0 < s.dt ∧ ∃ (ρs : List ℝ) (ρ : ℝ), s.vs = ρs.map (rayAt w e) ∧ ρs.head? = some 1 ∧ ρs.Pairwise (· < ·) ∧ (∀ x ∈ ρs, x ≤ ρ) ∧ 0 < ρ ∧ s.xy = rayAt w e ρ ∧ s.k1 = multOf e (c / ρ))
    (fun r => ∃ ρs : List ℝ, r.vertices = ρs.map (rayAt w e) ∧ ρs.head? = some 1 ∧ ρs.Pairwise (· < ·)) (fun _ _ => ⟨[1], by simp [h0], rfl, by simp⟩) (fun k1 hk => ?_) ?_ ?_ h
  · refine ⟨by simp, ?_, [1], 1, by simp [h0], rfl, by simp, by simp, one_pos, h0, ?_⟩
    · simp only [PyMath.q_real, PyMath.sign_real, Real.sign_of_pos hD]
      norm_num
    · rw [h0] at hk
      exact hf _ _ _ one_pos hk
  · intro s s' ⟨h1, h3, ρs, ρ, i1, i2, i3, i4, i5, i6, i7⟩ hp
    cases hp with
    | accept hlt xyt k2 est ds he ht hd =>
      simp only [PyMath.abs_real] at hlt
      rw [abs_of_nonneg h1, abs_of_pos hD] at hlt
      have hcl := clip_pos hlt h3
      obtain ⟨e1, e2⟩ := trial_nonneg he
      rw [i6, i7] at he
      obtain ⟨ρ', o1, rfl, rfl⟩ := trial_outward i5 hcl hc hf he
      refine ⟨by dsimp only; linarith, nextDt_pos htol hms e1 e2 hcl, ρs ++ [ρ'], ρ', by simp [i1], ?_, ?_, ?_, i5.trans o1, rfl, rfl⟩
      · rw [List.head?_append, i2]
        rfl
      · rw [List.pairwise_append]
        refine ⟨i3, by simp, fun a ha b hb => ?_⟩
        rw [List.mem_singleton.mp hb]
        exact (i4 a ha).trans_lt o1
      · intro x hx
        rcases List.mem_append.mp hx with hx | hx
        · exact (i4 x hx).trans o1.le
        · exact (List.mem_singleton.mp hx).le
    | reject hlt xyt k2 est ds he ht =>
      simp only [PyMath.abs_real] at hlt
      rw [abs_of_nonneg h1, abs_of_pos hD] at hlt
      obtain ⟨e1, e2⟩ := trial_nonneg he
      exact ⟨h1, nextDt_pos htol hms e1 e2 (clip_pos hlt h3), ρs, ρ, i1, i2, i3, i4, i5, i6, i7⟩
  · intro s r ⟨_, _, ρs, ρ, i1, i2, i3, _⟩ hp
    cases hp <;> exact ⟨ρs, i1, i2, i3⟩

end Oneka
