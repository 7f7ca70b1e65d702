import Verif.Lemmas.Adaptive
import Mathlib.Analysis.ODE.Gronwall

/-!
# Traces stay close to the exact pathline

A Runge–Kutta step is compared with the straight step `p + h f(p)`, and that with the exact solution (Grönwall's inequality).
-/

namespace Oneka

/-- the velocity at a stage -/
theorem stage_near {fe : FEval} {f : ℝ × ℝ → ℝ × ℝ} {U : Set (ℝ × ℝ)} {L h c : ℝ} {p w k : ℝ × ℝ} {n : ℕ} (hL : 0 ≤ L) (hh : 0 ≤ h) (hz : h * L ≤ 1/100)
    (hc : 0 ≤ c) (hc25 : c ≤ 25) (hfe : ∀ n q v, q ∈ U → fe n q = .ok v → v = f q) (hlip : ∀ a ∈ U, ∀ b ∈ U, ‖f a - f b‖ ≤ L * ‖a - b‖)
    (hball : ∀ q, ‖q - p‖ ≤ 25 * (h * ‖f p‖) → q ∈ U) (hw : ‖w‖ ≤ c * ‖f p‖) (hk : fe n (p + sc h w) = .ok k) :
    ‖k - f p‖ ≤ c * (h * L * ‖f p‖) ∧ ‖k‖ ≤ (1 + c / 100) * ‖f p‖ := by
  have hν := norm_nonneg (f p)
  have hd : ‖p + sc h w - p‖ ≤ c * (h * ‖f p‖) := by
    rw [add_sub_cancel_left, sc_real, norm_smul, Real.norm_eq_abs, abs_of_nonneg hh]
    nlinarith
  have hpU : p ∈ U := hball p (by rw [sub_self, norm_zero]; positivity)
  have huU : p + sc h w ∈ U := hball _ (hd.trans (mul_le_mul_of_nonneg_right hc25 (by positivity)))
  obtain rfl := hfe n _ k huU hk
  have h1 : ‖f (p + sc h w) - f p‖ ≤ c * (h * L * ‖f p‖) := by
    have := (hlip _ huU _ hpU).trans (mul_le_mul_of_nonneg_left hd hL)
    linarith
  refine ⟨h1, ?_⟩
  have h2 : ‖f (p + sc h w)‖ ≤ ‖f (p + sc h w) - f p‖ + ‖f p‖ := by
    have := norm_add_le (f (p + sc h w) - f p) (f p)
    rwa [sub_add_cancel] at this
  have h3 : h * L * ‖f p‖ ≤ 1/100 * ‖f p‖ := mul_le_mul_of_nonneg_right hz hν
  have h4 := mul_le_mul_of_nonneg_left h3 hc
  linarith

theorem stage_mem {f : ℝ × ℝ → ℝ × ℝ} {U : Set (ℝ × ℝ)} {h c : ℝ} {p w : ℝ × ℝ} (hh : 0 ≤ h) (hc25 : c ≤ 25)
    (hball : ∀ q, ‖q - p‖ ≤ 25 * (h * ‖f p‖) → q ∈ U) (hw : ‖w‖ ≤ c * ‖f p‖) : p + sc h w ∈ U := by
  refine hball _ ?_
  rw [add_sub_cancel_left, sc_real, norm_smul, Real.norm_eq_abs, abs_of_nonneg hh]
  have := mul_le_mul_of_nonneg_left (hw.trans (mul_le_mul_of_nonneg_right hc25 (norm_nonneg _))) hh
  linarith

/-- A short step raises nothing if no evaluation nearby does. -/
theorem trial_total {fe : FEval} {f : ℝ × ℝ → ℝ × ℝ} {U : Set (ℝ × ℝ)} {L h : ℝ} {p : ℝ × ℝ} {n : ℕ} (hL : 0 ≤ L) (hh : 0 ≤ h)
    (hz : h * L ≤ 1/100) (hfe : ∀ n q v, q ∈ U → fe n q = .ok v → v = f q) (hlip : ∀ a ∈ U, ∀ b ∈ U, ‖f a - f b‖ ≤ L * ‖a - b‖)
    (hball : ∀ q, ‖q - p‖ ≤ 25 * (h * ‖f p‖) → q ∈ U) (tot : ∀ n q, q ∈ U → ∃ v, fe n q = .ok v) :
    trial fe n p (f p) h = trial (steady f) n p (f p) h ∧ ∃ x, trial fe n p (f p) h = .ok x := by
  have hν := norm_nonneg (f p)
  set k1 := f p with hk1
  have near : ∀ {c : ℝ} {w : ℝ × ℝ} (n : ℕ), 0 ≤ c → c ≤ 25 → ‖w‖ ≤ c * ‖k1‖ → ∃ k, fe n (p + sc h w) = .ok k ∧
      steady f n (p + sc h w) = .ok k ∧ ‖k‖ ≤ (1 + c / 100) * ‖k1‖ := by
    intro c w n a b d
    obtain ⟨k, hk⟩ := tot n _ (stage_mem hh b hball d)
    exact ⟨k, hk, by rw [hfe _ _ _ (stage_mem hh b hball d) hk]; rfl, (stage_near hL hh hz a b hfe hlip hball d hk).2⟩
  have b1 : ‖k1‖ ≤ 1 * ‖k1‖ := by linarith
  obtain ⟨k2, h2, g2, b2⟩ := near (c := 1/5) (w := scq (1/5) k1) n (by norm_num) (by norm_num) (by
    have := scq_le_pos (1/5) (1/5) (by norm_num) b1
    linarith)
  obtain ⟨k3, h3, g3, b3⟩ := near (c := 301/1000) (w := scq (3/40) k1 + scq (9/40) k2) (n+1) (by norm_num) (by norm_num) (by
    refine (norm_add_le _ _).trans ?_
    have := scq_le_pos (3/40) (3/40) (by norm_num) b1
    have := scq_le_pos (9/40) (9/40) (by norm_num) b2
    linarith)
  obtain ⟨k4, h4, g4, b4⟩ := near (c := 829/100) (w := scq (44/45) k1 + scq (-56/15) k2 + scq (32/9) k3) (n+2) (by norm_num) (by norm_num) (by
    refine (norm_add₃_le).trans ?_
    have := scq_le_pos (44/45) (44/45) (by norm_num) b1
    have := scq_le_pos (-56/15) (56/15) (by norm_num) b2
    have := scq_le_pos (32/9) (32/9) (by norm_num) b3
    linarith)
  obtain ⟨k5, h5, g5, b5⟩ := near (c := 99/4) (w := scq (19372/6561) k1 + scq (-25360/2187) k2 + scq (64448/6561) k3 + scq (-212/729) k4) (n+3) (by norm_num) (by norm_num) (by
    refine (norm_add₄_le).trans ?_
    have := scq_le_pos (19372/6561) (19372/6561) (by norm_num) b1
    have := scq_le_pos (-25360/2187) (25360/2187) (by norm_num) b2
    have := scq_le_pos (64448/6561) (64448/6561) (by norm_num) b3
    have := scq_le_pos (-212/729) (212/729) (by norm_num) b4
    linarith)
  obtain ⟨k6, h6, g6, b6⟩ := near (c := 2321/100) (w := scq (9017/3168) k1 + scq (-355/33) k2 + scq (46732/5247) k3 + scq (49/176) k4 + scq (-5103/18656) k5) (n+4)
    (by norm_num) (by norm_num) (by
    refine (norm_add_le _ _).trans ((add_le_add_left norm_add₄_le _).trans ?_)
    have := scq_le_pos (9017/3168) (9017/3168) (by norm_num) b1
    have := scq_le_pos (-355/33) (355/33) (by norm_num) b2
    have := scq_le_pos (46732/5247) (46732/5247) (by norm_num) b3
    have := scq_le_pos (49/176) (49/176) (by norm_num) b4
    have := scq_le_pos (-5103/18656) (5103/18656) (by norm_num) b5
    linarith)
  obtain ⟨k7, h7, g7, b7⟩ := near (c := 2) (w := scq (35/384) k1 + scq (500/1113) k3 + scq (125/192) k4 + scq (-2187/6784) k5 + scq (11/84) k6) (n+5)
    (by norm_num) (by norm_num) (by
    refine (norm_add_le _ _).trans ((add_le_add_left norm_add₄_le _).trans ?_)
    have := scq_le_pos (35/384) (35/384) (by norm_num) b1
    have := scq_le_pos (500/1113) (500/1113) (by norm_num) b3
    have := scq_le_pos (125/192) (125/192) (by norm_num) b4
    have := scq_le_pos (-2187/6784) (2187/6784) (by norm_num) b5
    have := scq_le_pos (11/84) (11/84) (by norm_num) b6
    linarith)
  unfold trial
  simp only [h2, h3, h4, h5, h6, h7, g2, g3, g4, g5, g6, g7, bind, Except.bind, pure, Except.pure]
  exact ⟨trivial, _, rfl⟩

/-- A short step is almost straight. -/
theorem trial_near {fe : FEval} {f : ℝ × ℝ → ℝ × ℝ} {U : Set (ℝ × ℝ)} {L h : ℝ} {p xyt k7 : ℝ × ℝ} {est ds : ℝ} {n : ℕ} (hL : 0 ≤ L) (hh : 0 ≤ h)
    (hz : h * L ≤ 1/100) (hfe : ∀ n q v, q ∈ U → fe n q = .ok v → v = f q) (hlip : ∀ a ∈ U, ∀ b ∈ U, ‖f a - f b‖ ≤ L * ‖a - b‖)
    (hball : ∀ q, ‖q - p‖ ≤ 25 * (h * ‖f p‖) → q ∈ U) (ht : trial fe n p (f p) h = .ok (xyt, k7, est, ds)) :
    ‖xyt - (p + h • f p)‖ ≤ 17 * (h * L * (h * ‖f p‖)) := by
  obtain ⟨k2, k3, k4, k5, k6, h2, h3, h4, h5, h6, hx, h7, he, hd⟩ := trial_evals ht
  have hν := norm_nonneg (f p)
  set k1 := f p with hk1
  have near : ∀ {c : ℝ} {w k : ℝ × ℝ} {n : ℕ}, 0 ≤ c → c ≤ 25 → ‖w‖ ≤ c * ‖k1‖ → fe n (p + sc h w) = .ok k →
      ‖k - k1‖ ≤ c * (h * L * ‖k1‖) ∧ ‖k‖ ≤ (1 + c / 100) * ‖k1‖ :=
    fun a b c d => stage_near hL hh hz a b hfe hlip hball c d
  have b1 : ‖k1‖ ≤ 1 * ‖k1‖ := by linarith
  obtain ⟨d2, b2⟩ := near (c := 1/5) (by norm_num) (by norm_num) (by
    have := scq_le_pos (1/5) (1/5) (by norm_num) b1
    linarith) h2
  obtain ⟨d3, b3⟩ := near (c := 301/1000) (by norm_num) (by norm_num) (by
    refine (norm_add_le _ _).trans ?_
    have := scq_le_pos (3/40) (3/40) (by norm_num) b1
    have := scq_le_pos (9/40) (9/40) (by norm_num) b2
    linarith) h3
  obtain ⟨d4, b4⟩ := near (c := 829/100) (by norm_num) (by norm_num) (by
    refine (norm_add₃_le).trans ?_
    have := scq_le_pos (44/45) (44/45) (by norm_num) b1
    have := scq_le_pos (-56/15) (56/15) (by norm_num) b2
    have := scq_le_pos (32/9) (32/9) (by norm_num) b3
    linarith) h4
  obtain ⟨d5, b5⟩ := near (c := 99/4) (by norm_num) (by norm_num) (by
    refine (norm_add₄_le).trans ?_
    have := scq_le_pos (19372/6561) (19372/6561) (by norm_num) b1
    have := scq_le_pos (-25360/2187) (25360/2187) (by norm_num) b2
    have := scq_le_pos (64448/6561) (64448/6561) (by norm_num) b3
    have := scq_le_pos (-212/729) (212/729) (by norm_num) b4
    linarith) h5
  obtain ⟨d6, b6⟩ := near (c := 2321/100) (by norm_num) (by norm_num) (by
    refine (norm_add_le _ _).trans ((add_le_add_left norm_add₄_le _).trans ?_)
    have := scq_le_pos (9017/3168) (9017/3168) (by norm_num) b1
    have := scq_le_pos (-355/33) (355/33) (by norm_num) b2
    have := scq_le_pos (46732/5247) (46732/5247) (by norm_num) b3
    have := scq_le_pos (49/176) (49/176) (by norm_num) b4
    have := scq_le_pos (-5103/18656) (5103/18656) (by norm_num) b5
    linarith) h6
  have e : xyt - (p + h • k1) = h • (scq (500/1113) (k3 - k1) + scq (125/192) (k4 - k1) + scq (-2187/6784) (k5 - k1) + scq (11/84) (k6 - k1)) := by
    rw [hx]
    simp only [sc_real, scq_real]
    push_cast
    module
  rw [e, norm_smul, Real.norm_eq_abs, abs_of_nonneg hh]
  have hs : ‖scq (500/1113) (k3 - k1) + scq (125/192) (k4 - k1) + scq (-2187/6784) (k5 - k1) + scq (11/84) (k6 - k1)‖ ≤ 17 * (h * L * ‖k1‖) := by
    refine (norm_add₄_le).trans ?_
    have := scq_le_pos (500/1113) (500/1113) (by norm_num) d3
    have := scq_le_pos (125/192) (125/192) (by norm_num) d4
    have := scq_le_pos (-2187/6784) (2187/6784) (by norm_num) d5
    have := scq_le_pos (11/84) (11/84) (by norm_num) d6
    have : 0 ≤ h * L * ‖k1‖ := by positivity
    linarith
  have := mul_le_mul_of_nonneg_left hs hh
  linarith

/-- The exact solution and a straight step. -/
theorem straight_near {f : ℝ × ℝ → ℝ × ℝ} {X : ℝ → ℝ × ℝ} {U : Set (ℝ × ℝ)} {L a h e : ℝ} {p : ℝ × ℝ} (hL : 0 < L) (hh : 0 ≤ h)
    (hlip : ∀ a ∈ U, ∀ b ∈ U, ‖f a - f b‖ ≤ L * ‖a - b‖) (hX : ∀ t ∈ Set.Icc a (a + h), HasDerivAt X (f (X t)) t ∧ X t ∈ U)
    (hball : ∀ q, ‖q - p‖ ≤ h * ‖f p‖ → q ∈ U) (he : ‖p - X a‖ ≤ e) :
    ‖p + h • f p - X (a + h)‖ ≤ e * Real.exp (L * h) + h * ‖f p‖ * (Real.exp (L * h) - 1) := by
  have hν := norm_nonneg (f p)
  have hpU : p ∈ U := hball p (by rw [sub_self, norm_zero]; positivity)
  have line : ∀ t ∈ Set.Icc a (a + h), p + (t - a) • f p ∈ U := by
    intro t ht
    refine hball _ ?_
    rw [add_sub_cancel_left, norm_smul, Real.norm_eq_abs, abs_of_nonneg (by linarith [ht.1])]
    exact mul_le_mul_of_nonneg_right (by linarith [ht.2]) hν
  have sub : ∀ t ∈ Set.Ico a (a + h), t ∈ Set.Icc a (a + h) := fun t ht => ⟨ht.1, ht.2.le⟩
  have key := dist_le_of_approx_trajectories_ODE_of_mem (v := fun _ => f) (s := fun _ => U) (K := ⟨L, hL.le⟩) (a := a) (b := a + h)
    (f := fun t => p + (t - a) • f p) (f' := fun _ => f p) (g := X) (g' := fun t => f (X t)) (εf := L * (h * ‖f p‖)) (εg := 0) (δ := e)
    (fun t _ => LipschitzOnWith.of_dist_le_mul fun x hx y hy => by rw [dist_eq_norm, dist_eq_norm]; exact hlip x hx y hy)
    (Continuous.continuousOn (by fun_prop))
    (fun t _ => by
      have h1 : HasDerivAt (fun t : ℝ => p + (t - a) • f p) (f p) t := by
        have := (((hasDerivAt_id t).sub_const a).smul_const (f p)).const_add p
        simpa using this
      exact h1.hasDerivWithinAt)
    (fun t ht => by
      rw [dist_eq_norm]
      refine (hlip _ hpU _ (line t (sub t ht))).trans (mul_le_mul_of_nonneg_left ?_ hL.le)
      rw [norm_sub_rev, add_sub_cancel_left, norm_smul, Real.norm_eq_abs, abs_of_nonneg (by linarith [ht.1])]
      exact mul_le_mul_of_nonneg_right (by linarith [ht.2]) hν)
    (fun t ht => line t (sub t ht))
    (fun t ht => (hX t ht).1.continuousAt.continuousWithinAt)
    (fun t ht => (hX t (sub t ht)).1.hasDerivWithinAt)
    (fun t _ => by simp)
    (fun t ht => (hX t (sub t ht)).2)
    (by rw [dist_eq_norm]; simpa using he) (a + h) ⟨by linarith, le_rfl⟩
  rw [dist_eq_norm, add_sub_cancel_left, gronwallBound_of_K_ne_0 (by exact hL.ne')] at key
  rw [add_zero] at key
  change _ ≤ e * Real.exp (L * h) + L * (h * ‖f p‖) / L * (Real.exp (L * h) - 1) at key
  rw [show L * (h * ‖f p‖) / L = h * ‖f p‖ by field_simp] at key
  exact key

/-- the error after one more step -/
theorem step_error {L t h m ν E : ℝ} (hL : 0 < L) (hh : 0 ≤ h) (hz : h * L ≤ 1/100) (hm : 0 ≤ m) (hν : 0 ≤ ν) (hs : h * ν * (1 - 17 * (h * L)) ≤ m)
    (hE : E ≤ 22 * m * (Real.exp (L * t) - 1)) :
    E * Real.exp (L * h) + h * ν * (Real.exp (L * h) - 1) + 17 * (h * L * (h * ν)) ≤ 22 * m * (Real.exp (L * (t + h)) - 1) := by
  have hz0 : 0 ≤ h * L := by positivity
  have hx0 : 0 ≤ h * ν := by positivity
  have e1 : Real.exp (L * h) - 1 ≤ 102/100 * (h * L) := by
    have := Real.exp_bound_div_one_sub_of_interval hz0 (by linarith)
    have h2 : 1 / (1 - h * L) ≤ 1 + 102/100 * (h * L) := by
      rw [div_le_iff₀ (by linarith)]
      nlinarith
    rw [mul_comm L h]
    linarith
  have e2 : h * L ≤ Real.exp (L * h) - 1 := by
    have := Real.add_one_le_exp (L * h)
    linarith
  have hx : h * ν ≤ 100/83 * m := by nlinarith
  have e3 : h * ν * (Real.exp (L * h) - 1) + 17 * (h * L * (h * ν)) ≤ 22 * m * (h * L) := by
    have a1 := mul_le_mul_of_nonneg_left e1 hx0
    have a2 := mul_le_mul_of_nonneg_right hx hz0
    nlinarith
  have e4 : E * Real.exp (L * h) ≤ 22 * m * (Real.exp (L * t) - 1) * Real.exp (L * h) :=
    mul_le_mul_of_nonneg_right hE (Real.exp_pos _).le
  have e5 : 22 * m * (h * L) ≤ 22 * m * (Real.exp (L * h) - 1) := mul_le_mul_of_nonneg_left e2 (by positivity)
  have e6 : Real.exp (L * (t + h)) = Real.exp (L * t) * Real.exp (L * h) := by rw [← Real.exp_add]; ring_nf
  rw [e6]
  nlinarith

/-- the setting of the accuracy theorem -/
structure Accurate (fe : FEval) (f : ℝ × ℝ → ℝ × ℝ) (X : ℝ → ℝ × ℝ) (start : ℝ × ℝ) (D L M H ρ m : ℝ) : Prop where
  path : Pathline f start D X
  reg : Regular fe f (Tube X D ρ) L M
  L0 : 0 < L
  z : L * H ≤ 1/100
  M0 : 0 ≤ M
  H0 : 0 ≤ H
  m0 : 0 < m
  fits : 22 * m * (Real.exp (L * D) - 1) + 25 * H * M ≤ ρ

variable {fe : FEval} {f : ℝ × ℝ → ℝ × ℝ} {X : ℝ → ℝ × ℝ} {start : ℝ × ℝ} {D L M H ρ m : ℝ}

theorem Accurate.mono (A : Accurate fe f X start D L M H ρ m) {t : ℝ} (ht : t ≤ D) :
    22 * m * (Real.exp (L * t) - 1) ≤ 22 * m * (Real.exp (L * D) - 1) := by
  have := Real.exp_le_exp.mpr (mul_le_mul_of_nonneg_left ht A.L0.le)
  have := A.m0
  exact mul_le_mul_of_nonneg_left (by linarith) (by linarith)

theorem Accurate.bound0 (A : Accurate fe f X start D L M H ρ m) {t : ℝ} (ht : 0 ≤ t) : 0 ≤ 22 * m * (Real.exp (L * t) - 1) := by
  have := Real.one_le_exp (mul_nonneg A.L0.le ht)
  have := A.m0
  exact mul_nonneg (by linarith) (by linarith)

theorem Accurate.start_mem (A : Accurate fe f X start D L M H ρ m) (hD : 0 ≤ D) : start ∈ Tube X D ρ := by
  refine ⟨0, le_rfl, hD, ?_⟩
  rw [A.path.1, sub_self, norm_zero]
  have := A.bound0 hD
  have := A.fits
  have := mul_nonneg A.H0 A.M0
  linarith

theorem Accurate.ball (A : Accurate fe f X start D L M H ρ m) {t h : ℝ} {p : ℝ × ℝ} (t0 : 0 ≤ t) (tD : t ≤ D) (hh : 0 ≤ h) (hH : h ≤ H)
    (hp : ‖p - X t‖ ≤ 22 * m * (Real.exp (L * t) - 1)) : p ∈ Tube X D ρ ∧ ∀ q, ‖q - p‖ ≤ 25 * (h * ‖f p‖) → q ∈ Tube X D ρ := by
  have hB := A.mono tD
  have hfit := A.fits
  have hHM : 0 ≤ H * M := mul_nonneg (hh.trans hH) A.M0
  have hpU : p ∈ Tube X D ρ := ⟨t, t0, tD, by linarith⟩
  refine ⟨hpU, fun q hq => ⟨t, t0, tD, ?_⟩⟩
  have h1 : h * ‖f p‖ ≤ H * M := mul_le_mul hH (A.reg.bound p hpU) (norm_nonneg _) (hh.trans hH)
  have h2 : ‖q - X t‖ ≤ ‖q - p‖ + ‖p - X t‖ := by
    have := norm_add_le (q - p) (p - X t)
    rwa [sub_add_sub_cancel] at this
  linarith

theorem norm_le_euclid (a b : ℝ × ℝ) : ‖b - a‖ ≤ euclid a b := by
  rw [Prod.norm_def]
  unfold euclid
  refine max_le ?_ ?_ <;> rw [Real.norm_eq_abs] <;> refine Real.abs_le_sqrt ?_
  · exact le_add_of_nonneg_right (sq_nonneg _)
  · exact le_add_of_nonneg_left (sq_nonneg _)

/-- one trial step of the loop -/
theorem Accurate.step (A : Accurate fe f X start D L M H ρ m) {t h : ℝ} {p xyt k7 : ℝ × ℝ} {est ds : ℝ} {n : ℕ} (t0 : 0 ≤ t) (hh : 0 ≤ h) (hH : h ≤ H)
    (thD : t + h ≤ D) (hp : ‖p - X t‖ ≤ 22 * m * (Real.exp (L * t) - 1)) (ht : trial fe n p (f p) h = .ok (xyt, k7, est, ds)) :
    83/100 * (h * ‖f p‖) ≤ ds ∧ k7 = f xyt ∧ (ds < m → ‖xyt - X (t + h)‖ ≤ 22 * m * (Real.exp (L * (t + h)) - 1)) := by
  have hν := norm_nonneg (f p)
  have hz : h * L ≤ 1/100 := by
    have := mul_le_mul_of_nonneg_left hH A.L0.le
    linarith [A.z]
  have hz0 : 0 ≤ h * L := mul_nonneg hh A.L0.le
  have hx0 : 0 ≤ h * ‖f p‖ := by positivity
  obtain ⟨hpU, hball⟩ := A.ball t0 (by linarith) hh hH hp
  have near := trial_near A.L0.le hh hz A.reg.answers A.reg.lip hball ht
  obtain ⟨hds, hk7⟩ := trial_ds ht
  rw [norm2_euclid] at hds
  have hle := norm_le_euclid p xyt
  rw [← hds] at hle
  have hx : ‖h • f p‖ = h * ‖f p‖ := by rw [norm_smul, Real.norm_eq_abs, abs_of_nonneg hh]
  have hlow : h * ‖f p‖ * (1 - 17 * (h * L)) ≤ ds := by
    have : ‖h • f p‖ ≤ ‖xyt - p‖ + ‖xyt - (p + h • f p)‖ := by
      have := norm_sub_le (xyt - p) (xyt - (p + h • f p))
      rwa [show xyt - p - (xyt - (p + h • f p)) = h • f p by abel] at this
    rw [hx] at this
    linarith
  have hfar : ‖xyt - p‖ ≤ 25 * (h * ‖f p‖) := by
    have : ‖xyt - p‖ ≤ ‖xyt - (p + h • f p)‖ + ‖h • f p‖ := by
      have := norm_add_le (xyt - (p + h • f p)) (h • f p)
      rwa [show xyt - (p + h • f p) + h • f p = xyt - p by abel] at this
    rw [hx] at this
    have := mul_le_mul_of_nonneg_right hz hx0
    linarith
  refine ⟨?_, A.reg.answers _ _ _ (hball _ hfar) hk7, fun hacc => ?_⟩
  · have := mul_le_mul_of_nonneg_right hz hx0
    linarith
  · have hs := straight_near (f := f) (X := X) (U := Tube X D ρ) (a := t) (h := h) (p := p) A.L0 hh A.reg.lip
      (fun u hu => ⟨A.path.2 u (t0.trans hu.1) (hu.2.trans thD), ⟨u, t0.trans hu.1, hu.2.trans thD, by
        rw [sub_self, norm_zero]
        have h1 := (norm_nonneg _).trans hp
        have h2 := A.mono (t := t) (by linarith)
        have h3 := A.fits
        have h4 : 0 ≤ H * M := mul_nonneg (hh.trans hH) A.M0
        linarith⟩⟩)
      (fun q hq => hball q (by linarith)) le_rfl
    have htri : ‖xyt - X (t + h)‖ ≤ ‖xyt - (p + h • f p)‖ + ‖p + h • f p - X (t + h)‖ := by
      have := norm_add_le (xyt - (p + h • f p)) (p + h • f p - X (t + h))
      rwa [sub_add_sub_cancel] at this
    have := step_error (t := t) A.L0 hh hz A.m0.le hν (hlow.trans hacc.le) hp
    linarith

theorem clip_bounds {t dt : ℝ} (hD : 0 < D) (t0 : 0 ≤ t) (tD : t ≤ D) (h0 : 0 < dt) :
    0 ≤ clipDt D t dt ∧ clipDt D t dt ≤ dt ∧ t + clipDt D t dt ≤ D ∧ (t < D → 0 < clipDt D t dt) := by
  unfold clipDt
  simp only [PyMath.abs_real, abs_of_pos hD, abs_of_nonneg (by linarith : 0 ≤ t + dt)]
  split_ifs with hc <;> refine ⟨by linarith, by linarith, by linarith, fun _ => by linarith⟩

/-- the time after a step -/
def Accepted.end (a : Accepted ℝ) : ℝ := a.t + a.dt

/-- the time and place after a step -/
def Accepted.mark (a : Accepted ℝ) : ℝ × (ℝ × ℝ) := (a.end, a.vertex)

theorem chain_snoc {l : List ℝ} {a t x : ℝ} (hl : (a :: l).IsChain (· < ·)) (hlast : (a :: l).getLast? = some t) (hx : t < x) :
    (a :: (l ++ [x])).IsChain (· < ·) := by
  rw [← List.cons_append, List.isChain_append]
  refine ⟨hl, by simp, ?_⟩
  intro u hu v hv
  rw [hlast] at hu
  obtain rfl : t = u := by simpa using hu
  obtain rfl : x = v := by simpa using hv
  exact hx

/-- Accuracy, for traces all of whose steps are short. -/
theorem accuracy (A : Accurate fe f X start D L M H ρ m) (hD : 0 < D) {tol : ℝ} (htol : 0 < tol) {r : Trace ℝ}
    (h : computeBacktrace start.1 start.2 D tol m fe = some r) (hst : ∀ st ∈ r.steps, st.dt ≤ H) :
    (0 :: r.steps.map Accepted.end).IsChain (· < ·) ∧ (∀ st ∈ r.steps, 0 < st.dt ∧ st.end ≤ D ∧ ‖st.vertex - X st.end‖ ≤ 22 * m * (Real.exp (L * st.end) - 1)) ∧
      (r.warning = none → (r.steps.map Accepted.end).getLast? = some D) := by
  refine backtrace_inv
    (fun s => 0 ≤ s.t ∧ s.t ≤ D ∧ 0 < s.dt ∧ (0 :: s.ss.map Accepted.end).IsChain (· < ·) ∧ (0 :: s.ss.map Accepted.end).getLast? = some s.t ∧
      (∀ st ∈ s.ss, 0 < st.dt ∧ st.end ≤ D) ∧ ((∀ st ∈ s.ss, st.dt ≤ H) → s.k1 = f s.xy ∧ ‖s.xy - X s.t‖ ≤ 22 * m * (Real.exp (L * s.t) - 1) ∧
        ∀ st ∈ s.ss, ‖st.vertex - X st.end‖ ≤ 22 * m * (Real.exp (L * st.end) - 1)))
    (fun r => (∀ st ∈ r.steps, st.dt ≤ H) → (0 :: r.steps.map Accepted.end).IsChain (· < ·) ∧
      (∀ st ∈ r.steps, 0 < st.dt ∧ st.end ≤ D ∧ ‖st.vertex - X st.end‖ ≤ 22 * m * (Real.exp (L * st.end) - 1)) ∧
      (r.warning = none → (r.steps.map Accepted.end).getLast? = some D)) ?_ ?_ ?_ ?_ h hst
  · intro e _ _
    simp
  · intro k1 hk
    simp only [PyMath.q_real, PyMath.sign_real, Real.sign_of_pos hD, Rat.cast_zero]
    refine ⟨le_rfl, hD.le, by norm_num, by simp, by simp, by simp, fun _ => ⟨A.reg.answers _ _ _ (A.start_mem hD.le) hk, ?_, by simp⟩⟩
    rw [A.path.1]
    simp
  · intro s s' ⟨i1, i2, i3, i4, i5, i6, i7⟩ hp
    obtain ⟨c1, c2, c3, c4⟩ := clip_bounds hD i1 i2 i3
    cases hp with
    | accept hlt xyt k2 est ds he h1 h2 =>
      obtain ⟨e1, e2⟩ := trial_nonneg he
      rw [PyMath.abs_real, PyMath.abs_real, abs_of_nonneg i1, abs_of_pos hD] at hlt
      have c4 := c4 hlt
      refine ⟨by simp only; linarith, c3, nextDt_pos htol A.m0 e1 e2 c4, ?_, ?_, ?_, ?_⟩
      · rw [List.map_append]
        exact chain_snoc i4 i5 (by simp only [Accepted.end]; linarith)
      · rw [List.map_append, ← List.cons_append, List.getLast?_append]
        rfl
      · intro st hst
        rcases List.mem_append.mp hst with hst | hst
        · exact i6 st hst
        · obtain rfl := List.mem_singleton.mp hst
          exact ⟨c4, c3⟩
      · intro hall
        obtain ⟨j1, j2, j3⟩ := i7 fun st hst => hall st (List.mem_append_left _ hst)
        have hH : clipDt D s.t s.dt ≤ H := hall ⟨s.t, clipDt D s.t s.dt, est, xyt⟩ (by simp)
        rw [j1] at he
        obtain ⟨-, a2, a3⟩ := A.step i1 c1 hH c3 j2 he
        refine ⟨a2, a3 h2, ?_⟩
        intro st hst
        rcases List.mem_append.mp hst with hst | hst
        · exact j3 st hst
        · obtain rfl := List.mem_singleton.mp hst
          exact a3 h2
    | reject hlt xyt k2 est ds he h1 =>
      obtain ⟨e1, e2⟩ := trial_nonneg he
      rw [PyMath.abs_real, PyMath.abs_real, abs_of_nonneg i1, abs_of_pos hD] at hlt
      exact ⟨i1, i2, nextDt_pos htol A.m0 e1 e2 (c4 hlt), i4, i5, i6, i7⟩
  · intro s r ⟨i1, i2, i3, i4, i5, i6, i7⟩ hp
    cases hp with
    | done hd =>
      rw [PyMath.abs_real, PyMath.abs_real, abs_of_nonneg i1, abs_of_pos hD, not_lt] at hd
      intro hall
      refine ⟨i4, fun st hst => ⟨(i6 st hst).1, (i6 st hst).2, (i7 hall).2.2 st hst⟩, fun _ => ?_⟩
      obtain rfl : s.t = D := le_antisymm i2 hd
      simp only at i5 ⊢
      cases hs : s.ss.map Accepted.end with
      | nil => rw [hs] at i5; simp at i5; linarith
      | cons a l => rw [hs] at i5; simpa [List.getLast?_cons_cons] using i5
    | error => 
      intro hall
      exact ⟨i4, fun st hst => ⟨(i6 st hst).1, (i6 st hst).2, (i7 hall).2.2 st hst⟩, fun hw => by simp at hw⟩

/-- what holds along a trace with short steps -/
structure Short (f : ℝ × ℝ → ℝ × ℝ) (X : ℝ → ℝ × ℝ) (D L H m : ℝ) (s : TState ℝ) : Prop where
  t0 : 0 ≤ s.t
  tD : s.t ≤ D
  dt0 : 0 < s.dt
  dtH : s.dt ≤ H
  all : ∀ st ∈ s.ss, st.dt ≤ H
  k1 : s.k1 = f s.xy
  near : ‖s.xy - X s.t‖ ≤ 22 * m * (Real.exp (L * s.t) - 1)

theorem Accurate.first (A : Accurate fe f X start D L M H ρ m) (hD : 0 < D) (hH : 1/10 ≤ H) {k1 : ℝ × ℝ} {n : ℕ} (hk : k1 = f start) :
    Short f X D L H m ⟨PyMath.q 0, PyMath.q (1/10) * PyMath.sign D, start, k1, n, [start], []⟩ := by
  simp only [PyMath.q_real, PyMath.sign_real, Real.sign_of_pos hD, Rat.cast_zero]
  refine ⟨le_rfl, hD.le, by norm_num, by norm_num at hH ⊢; exact hH, by simp, hk, ?_⟩
  rw [A.path.1]
  simp

theorem Accurate.next (A : Accurate fe f X start D L M H ρ m) (hD : 0 < D) {tol : ℝ} (htol : 0 < tol)
    (hslow : ∀ q ∈ Tube X D ρ, 11/10 * m ≤ H * ‖f q‖) {s s' : TState ℝ} (hs : Short f X D L H m s) (hp : Pass ⟨D, tol, m, fe⟩ s (.inr s')) :
    Short f X D L H m s' := by
  obtain ⟨i1, i2, i3, i4, i5, i6, i7⟩ := hs
  obtain ⟨c1, c2, c3, c4⟩ := clip_bounds hD i1 i2 i3
  cases hp with
  | accept hlt xyt k2 est ds he h1 h2 =>
    obtain ⟨e1, e2⟩ := trial_nonneg he
    rw [PyMath.abs_real, PyMath.abs_real, abs_of_nonneg i1, abs_of_pos hD] at hlt
    have c4 := c4 hlt
    simp only at he h1 h2
    rw [i6] at he
    obtain ⟨a1, a2, a3⟩ := A.step i1 c1 (c2.trans i4) c3 i7 he
    refine ⟨by simp only; linarith, c3, nextDt_pos htol A.m0 e1 e2 c4, ?_, ?_, a2, a3 h2⟩
    · have hs := hslow _ (A.ball i1 i2 c1 (c2.trans i4) i7).1
      have hm := A.m0
      have hE := EPS_pos
      have hν : 0 < ‖f s.xy‖ := by
        by_contra hn
        have := mul_nonpos_of_nonneg_of_nonpos A.H0 (not_lt.mp hn)
        linarith
      have hds : 0 < ds := lt_of_lt_of_le (by positivity) a1
      simp only
      rw [nextDt_eq]
      have h3 : min (min ((tol / (est + EPS)) ^ ((1:ℝ)/5)) (m / (ds + EPS))) 10 ≤ m / ds :=
        (min_le_left _ _).trans ((min_le_right _ _).trans (div_le_div_of_nonneg_left hm.le hds (by linarith)))
      have h4 : m / ds * clipDt D s.t s.dt ≤ 10/9 * H := by
        rw [div_mul_eq_mul_div, div_le_iff₀ hds]
        have := mul_le_mul_of_nonneg_left hs c1
        have := mul_le_mul_of_nonneg_left a1 A.H0
        nlinarith
      have := mul_le_mul_of_nonneg_right h3 c1
      linarith
    · intro st hst
      rcases List.mem_append.mp hst with hst | hst
      · exact i5 st hst
      · obtain rfl := List.mem_singleton.mp hst
        exact c2.trans i4
  | reject hlt xyt k2 est ds he h1 =>
    obtain ⟨e1, e2⟩ := trial_nonneg he
    rw [PyMath.abs_real, PyMath.abs_real, abs_of_nonneg i1, abs_of_pos hD] at hlt
    refine ⟨i1, i2, nextDt_pos htol A.m0 e1 e2 (c4 hlt), ?_, i5, i6, i7⟩
    have := nextDt_reject htol A.m0 e1 e2 c1 h1
    simp only
    linarith

theorem Accurate.trial (A : Accurate fe f X start D L M H ρ m) (hD : 0 < D) (tot : ∀ n q, q ∈ Tube X D ρ → ∃ v, fe n q = .ok v) {s : TState ℝ}
    (hs : Short f X D L H m s) :
    Oneka.trial fe s.n s.xy s.k1 (clipDt D s.t s.dt) = Oneka.trial (steady f) s.n s.xy s.k1 (clipDt D s.t s.dt) ∧
      ∃ x, Oneka.trial fe s.n s.xy s.k1 (clipDt D s.t s.dt) = .ok x := by
  obtain ⟨i1, i2, i3, i4, i5, i6, i7⟩ := hs
  obtain ⟨c1, c2, c3, c4⟩ := clip_bounds hD i1 i2 i3
  have hz : clipDt D s.t s.dt * L ≤ 1/100 := by
    have := mul_le_mul_of_nonneg_left (c2.trans i4) A.L0.le
    linarith [A.z]
  rw [i6]
  exact trial_total (n := s.n) A.L0.le c1 hz A.reg.answers A.reg.lip (A.ball i1 i2 c1 (c2.trans i4) i7).2 tot

/-- If the velocity is nowhere too slow for `H`, all steps are at most `H`; and if no evaluation near the pathline raises, the trace is complete. -/
theorem steps_short (A : Accurate fe f X start D L M H ρ m) (hD : 0 < D) {tol : ℝ} (htol : 0 < tol) (hH : 1/10 ≤ H)
    (hslow : ∀ q ∈ Tube X D ρ, 11/10 * m ≤ H * ‖f q‖) {r : Trace ℝ} (h : computeBacktrace start.1 start.2 D tol m fe = some r) :
    (∀ st ∈ r.steps, st.dt ≤ H) ∧ ((∀ n q, q ∈ Tube X D ρ → ∃ v, fe n q = .ok v) → r.warning = none) := by
  refine backtrace_inv (Short f X D L H m)
    (fun r => (∀ st ∈ r.steps, st.dt ≤ H) ∧ ((∀ n q, q ∈ Tube X D ρ → ∃ v, fe n q = .ok v) → r.warning = none)) ?_ ?_ ?_ ?_ h
  · intro e he
    refine ⟨by simp, fun tot => ?_⟩
    obtain ⟨v, hv⟩ := tot 0 _ (A.start_mem hD.le)
    exact absurd (he.symm.trans hv) (by simp)
  · intro k1 hk
    exact A.first hD hH (A.reg.answers _ _ _ (A.start_mem hD.le) hk)
  · exact fun s s' hs hp => A.next hD htol hslow hs hp
  · intro s r hs hp
    cases hp with
    | done hd => exact ⟨hs.all, fun _ => rfl⟩
    | error _ e he =>
      refine ⟨hs.all, fun tot => ?_⟩
      obtain ⟨-, x, hx⟩ := A.trial hD tot hs
      exact absurd (he.symm.trans hx) (by simp)

theorem isChain_snoc {α : Type} {R : α → α → Prop} {l : List α} {a t x : α} (hl : (a :: l).IsChain R) (hlast : (a :: l).getLast? = some t) (hx : R t x) :
    (a :: (l ++ [x])).IsChain R := by
  rw [← List.cons_append, List.isChain_append]
  refine ⟨hl, by simp, ?_⟩
  intro u hu v hv
  rw [hlast] at hu
  obtain rfl : t = u := by simpa using hu
  obtain rfl : x = v := by simpa using hv
  exact hx

/-- where the velocity does not vanish, the vertices are different -/
theorem strides (A : Accurate fe f X start D L M H ρ m) (hD : 0 < D) {tol : ℝ} (htol : 0 < tol) (hfast : ∀ q ∈ Tube X D ρ, 0 < ‖f q‖) {r : Trace ℝ}
    (h : computeBacktrace start.1 start.2 D tol m fe = some r) (hst : ∀ st ∈ r.steps, st.dt ≤ H) : ((0, start) :: r.steps.map Accepted.mark).IsChain (Stride H m) := by
  refine backtrace_inv
    (fun s => 0 ≤ s.t ∧ s.t ≤ D ∧ 0 < s.dt ∧ ((∀ st ∈ s.ss, st.dt ≤ H) → s.k1 = f s.xy ∧ ‖s.xy - X s.t‖ ≤ 22 * m * (Real.exp (L * s.t) - 1) ∧
      ((0, start) :: s.ss.map Accepted.mark).IsChain (Stride H m) ∧ ((0, start) :: s.ss.map Accepted.mark).getLast? = some (s.t, s.xy)))
    (fun r => (∀ st ∈ r.steps, st.dt ≤ H) → ((0, start) :: r.steps.map Accepted.mark).IsChain (Stride H m)) ?_ ?_ ?_ ?_ h hst
  · intro e _ _
    simp
  · intro k1 hk
    simp only [PyMath.q_real, PyMath.sign_real, Real.sign_of_pos hD, Rat.cast_zero]
    refine ⟨le_rfl, hD.le, by norm_num, fun _ => ⟨A.reg.answers _ _ _ (A.start_mem hD.le) hk, ?_, by simp, by simp⟩⟩
    rw [A.path.1]
    simp
  · intro s s' ⟨i1, i2, i3, i7⟩ hp
    obtain ⟨c1, c2, c3, c4⟩ := clip_bounds hD i1 i2 i3
    cases hp with
    | accept hlt xyt k2 est ds he h1 h2 =>
      obtain ⟨e1, e2⟩ := trial_nonneg he
      rw [PyMath.abs_real, PyMath.abs_real, abs_of_nonneg i1, abs_of_pos hD] at hlt
      have c4 := c4 hlt
      refine ⟨by simp only; linarith, c3, nextDt_pos htol A.m0 e1 e2 c4, ?_⟩
      intro hall
      obtain ⟨j1, j2, j3, j4⟩ := i7 fun st hst => hall st (List.mem_append_left _ hst)
      have hH : clipDt D s.t s.dt ≤ H := hall ⟨s.t, clipDt D s.t s.dt, est, xyt⟩ (by simp)
      rw [j1] at he
      obtain ⟨a1, a2, a3⟩ := A.step i1 c1 hH c3 j2 he
      have hds : ds = euclid s.xy xyt := by
        have := (trial_ds he).1
        rwa [norm2_euclid] at this
      refine ⟨a2, a3 h2, ?_, ?_⟩
      · rw [List.map_append]
        refine isChain_snoc j3 j4 ⟨?_, ?_, ?_, ?_⟩
        · simp only [Accepted.mark, Accepted.end]; linarith
        · simp only [Accepted.mark, Accepted.end]; linarith
        · simp only [Accepted.mark]
          intro hxy
          have hf := hfast s.xy (A.ball i1 i2 c1 hH j2).1
          have : 0 < 83/100 * (clipDt D s.t s.dt * ‖f s.xy‖) := by positivity
          rw [hds, hxy] at a1
          have z : euclid xyt xyt = 0 := by unfold euclid; simp
          rw [z] at a1
          rw [hxy] at this
          linarith
        · simp only [Accepted.mark]
          rw [← hds]; exact h2
      · rw [List.map_append, ← List.cons_append, List.getLast?_append]
        rfl
    | reject hlt xyt k2 est ds he h1 =>
      obtain ⟨e1, e2⟩ := trial_nonneg he
      rw [PyMath.abs_real, PyMath.abs_real, abs_of_nonneg i1, abs_of_pos hD] at hlt
      exact ⟨i1, i2, nextDt_pos htol A.m0 e1 e2 (c4 hlt), i7⟩
  · intro s r ⟨i1, i2, i3, i7⟩ hp
    cases hp with
    | done hd => exact fun hall => (i7 hall).2.2.1
    | error => exact fun hall => (i7 hall).2.2.1

theorem tfuel_congr {c c' : TCfg ℝ} (I : TState ℝ → Prop) (hstep : ∀ s s', I s → titer c s = .inr s' → I s') (heq : ∀ s, I s → titer c' s = titer c s)
    (k : ℕ) (s : TState ℝ) (hs : I s) : tfuel c' k s = tfuel c k s := by
  induction k generalizing s with
  | zero => rfl
  | succ k ih =>
    simp only [tfuel]
    rw [heq s hs]
    cases h : titer c s with
    | inl r => rfl
    | inr s' => exact ih s' (hstep s s' hs h)

/-- Near the pathline the trace is that of the velocity, whatever happens elsewhere; so it returns. -/
theorem returns_short (A : Accurate fe f X start D L M H ρ m) (hD : 0 < D) {tol : ℝ} (htol : (10/9)^5 * EPS < tol) (hm : 10/9 * EPS < m) (hH : 1/10 ≤ H)
    (hslow : ∀ q ∈ Tube X D ρ, 11/10 * m ≤ H * ‖f q‖) (tot : ∀ n q, q ∈ Tube X D ρ → ∃ v, fe n q = .ok v) :
    ∃ r, computeBacktrace start.1 start.2 D tol m fe = some r := by
  classical
  have htol0 : 0 < tol := lt_trans (by have := EPS_pos; positivity) htol
  let g : ℝ × ℝ → ℝ × ℝ := fun q => if q ∈ Tube X D ρ then f q else 0
  have hg : ∀ q ∈ Tube X D ρ, g q = f q := fun q hq => if_pos hq
  have A' : Accurate (steady g) f X start D L M H ρ m :=
    { A with reg := ⟨A.reg.lip, A.reg.bound, fun n q v hq hv => by rw [← hg q hq]; exact (Except.ok.inj hv).symm⟩ }
  have hst := A.start_mem hD.le
  obtain ⟨r, hr⟩ := terminates (xs := start.1) (ys := start.2) (D := D) (tol := tol) (maxstep := m) (M := M) (L := 0) (fe := steady g) A.M0 le_rfl
    (fun n p v hv => by
      obtain rfl := Except.ok.inj hv
      rw [zero_mul, add_zero]
      by_cases hp : p ∈ Tube X D ρ
      · rw [hg p hp]; exact A.reg.bound p hp
      · simp only [g, if_neg hp, norm_zero]; exact A.M0) htol hm
  have hk : steady g 0 (start.1, start.2) = .ok (f start) := congrArg Except.ok (hg start hst)
  have hk' : fe 0 (start.1, start.2) = .ok (f start) := by
    obtain ⟨v, hv⟩ := tot 0 start hst
    rw [A.reg.answers 0 start v hst hv] at hv
    exact hv
  rw [computeBacktrace_ok _ _ _ _ _ _ _ hk] at hr
  rw [computeBacktrace_ok _ _ _ _ _ _ _ hk']
  obtain ⟨k, hr⟩ := (tloop_eq_some _ _ _).mp hr
  refine ⟨r, (tloop_eq_some _ _ _).mpr ⟨k, ?_⟩⟩
  rw [← hr]
  refine tfuel_congr (Short f X D L H m) (fun s s' hs e => A'.next hD htol0 hslow hs (pass_of_titer e)) ?_ k _ (A.first hD hH rfl)
  intro s hs
  have e1 := (A.trial hD tot hs).1
  have e2 := (A'.trial hD (fun n q _ => ⟨g q, rfl⟩) hs).1
  unfold titer
  simp only
  rw [e1, ← e2]

end Oneka
