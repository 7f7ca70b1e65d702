import Verif.Lemmas.FlAccuracy

/-! # Floating-point traces return -/

namespace Oneka

theorem round53_up {x : ℝ} (h : 0 ≤ x) : round53 x ≤ 1001/1000 * x := by
  have := (abs_le.mp (round53_accurate x)).2
  rw [abs_of_nonneg h] at this
  have e : (2:ℝ) ^ (-53:ℤ) = eps := rfl
  rw [e] at this
  have := mul_le_mul_of_nonneg_right eps_small h
  linarith

theorem round53_down {x : ℝ} (h : 0 ≤ x) : 999/1000 * x ≤ round53 x := by
  have := (abs_le.mp (round53_accurate x)).1
  rw [abs_of_nonneg h] at this
  have e : (2:ℝ) ^ (-53:ℤ) = eps := rfl
  rw [e] at this
  have := mul_le_mul_of_nonneg_right eps_small h
  linarith

section
variable [LibM]

theorem RootAccurate.pos (h : RootAccurate) : PowPositive := by
  intro x hx
  have h0 := Real.rpow_pos_of_pos hx ((1:ℝ)/5)
  have := (abs_le.mp (h x hx)).1
  linarith

theorem normInf_fl (v : Fl × Fl) : (normInf v).val = ‖fv v‖ := by
  unfold normInf
  rw [fmax_val, abs_val, abs_val]
  rfl

theorem ds_le_fl (a b : Fl × Fl) : (norm2 (a - b)).val ≤ 3 * ‖fv a - fv b‖ := by
  set n := ‖fv a - fv b‖ with hn
  have n0 : 0 ≤ n := norm_nonneg _
  have e' := eps_small
  have comp : ∀ x y : Fl, |x.val - y.val| ≤ n → round53 ((x - y).val * (x - y).val) ≤ 11/10 * n ^ 2 := by
    intro x y h
    have h1 : |(x - y).val| ≤ 101/100 * n := by
      rw [Fl.sub_val]
      have h2 := round53_accurate (x.val - y.val)
      have e2 : (2:ℝ) ^ (-53:ℤ) = eps := rfl
      rw [e2] at h2
      have h3 := abs_sub_abs_le_abs_sub (round53 (x.val - y.val)) (x.val - y.val)
      have h4 : eps * |x.val - y.val| ≤ 1/1000000 * |x.val - y.val| := mul_le_mul_of_nonneg_right e' (abs_nonneg _)
      linarith
    have h5 : (x - y).val * (x - y).val ≤ (101/100 * n) ^ 2 := by
      rw [← pow_two, ← sq_abs]
      exact pow_le_pow_left₀ (abs_nonneg _) h1 2
    have h6 := round53_up (mul_self_nonneg (x - y).val)
    have := sq_nonneg n
    nlinarith
  have c1 := comp a.1 b.1 (norm_fst_le (fv a - fv b))
  have c2 := comp a.2 b.2 (norm_snd_le (fv a - fv b))
  have hd : (norm2 (a - b)).val = round53 (Real.sqrt (round53 (round53 ((a.1 - b.1).val * (a.1 - b.1).val) + round53 ((a.2 - b.2).val * (a.2 - b.2).val)))) := rfl
  rw [hd]
  have s0 := round53_nonneg (mul_self_nonneg (a.1 - b.1).val)
  have s1 := round53_nonneg (mul_self_nonneg (a.2 - b.2).val)
  have h1 := round53_up (add_nonneg s0 s1)
  have h2 : Real.sqrt (round53 (round53 ((a.1 - b.1).val * (a.1 - b.1).val) + round53 ((a.2 - b.2).val * (a.2 - b.2).val))) ≤ 2 * n :=
    Real.sqrt_le_iff.mpr ⟨by linarith, by nlinarith [sq_nonneg n]⟩
  have h3 := round53_up (Real.sqrt_nonneg (round53 (round53 ((a.1 - b.1).val * (a.1 - b.1).val) + round53 ((a.2 - b.2).val * (a.2 - b.2).val))))
  linarith

/-- What a step can do with velocities bounded by `M`. -/
theorem trial_bounds_fl {fe : ℕ → Fl × Fl → Except PyErr (Fl × Fl)} {M : ℝ} (hb : ∀ n q v, fe n q = .ok v → ‖fv v‖ ≤ M) {p k1 xyt k7 : Fl × Fl} {d est ds : Fl} {n : ℕ}
    (hd : 0 ≤ d.val) (hk1 : ‖fv k1‖ ≤ M) (ht : trial fe n p k1 d = .ok (xyt, k7, est, ds)) :
    est.val ≤ d.val * M ∧ ds.val ≤ 9 * (d.val * M) + 3 * (eps * ‖fv p‖) ∧ ‖fv k7‖ ≤ M := by
  obtain ⟨k2, k3, k4, k5, k6, h2, h3, h4, h5, h6, hx, h7, he, hds⟩ := trial_evals ht
  have e := eps_pos; have e' := eps_small
  have M0 : 0 ≤ M := (norm_nonneg _).trans hk1
  have b2 := hb _ _ _ h2
  have b3 := hb _ _ _ h3
  have b4 := hb _ _ _ h4
  have b5 := hb _ _ _ h5
  have b6 := hb _ _ _ h6
  have b7 := hb _ _ _ h7
  have hw : VOff 13 (2 * M) (scq (35/384) k1 + scq (500/1113) k3 + scq (125/192) k4 + scq (-2187/6784) k5 + scq (11/84) k6)
      (((35/384 : ℚ) : ℝ) • fv k1 + ((500/1113 : ℚ) : ℝ) • fv k3 + ((125/192 : ℚ) : ℝ) • fv k4 + ((-2187/6784 : ℚ) : ℝ) • fv k5 + ((11/84 : ℚ) : ℝ) • fv k6) :=
    ((((((scq_off (35/384) (35/384) (by norm_num) hk1).more (500/1113) (500/1113) (by norm_num) b3 (by norm_num) (by norm_num)).more (125/192) (125/192) (by norm_num) b4
      (by norm_num) (by norm_num)).more (-2187/6784) (2187/6784) (by norm_num) b5 (by norm_num) (by norm_num)).more (11/84) (11/84) (by norm_num) b6
      (by norm_num) (by norm_num)).weaken (by norm_num) (by norm_num) (by linarith))
  have hE : VOff 13 (1/2 * M) (scq (71/57600) k1 + scq (-1/40) k7 + scq (-71/16695) k3 + scq (71/1920) k4 + scq (-17253/339200) k5 + scq (22/525) k6)
      (((71/57600 : ℚ) : ℝ) • fv k1 + ((-1/40 : ℚ) : ℝ) • fv k7 + ((-71/16695 : ℚ) : ℝ) • fv k3 + ((71/1920 : ℚ) : ℝ) • fv k4 + ((-17253/339200 : ℚ) : ℝ) • fv k5 +
        ((22/525 : ℚ) : ℝ) • fv k6) :=
    (((((((scq_off (71/57600) (71/57600) (by norm_num) hk1).more (-1/40) (1/40) (by norm_num) b7 (by norm_num) (by norm_num)).more (-71/16695) (71/16695) (by norm_num) b3
      (by norm_num) (by norm_num)).more (71/1920) (71/1920) (by norm_num) b4 (by norm_num) (by norm_num)).more (-17253/339200) (17253/339200) (by norm_num) b5
      (by norm_num) (by norm_num)).more (22/525) (22/525) (by norm_num) b6 (by norm_num) (by norm_num)).weaken (by norm_num) (by norm_num) (by linarith))
  have hdM := mul_nonneg hd M0
  refine ⟨?_, ?_, b7⟩
  · rw [he, normInf_fl]
    have := (hE.sc (by norm_num) hd).norm_le (by norm_num)
    linarith
  · rw [hds]
    refine (ds_le_fl _ _).trans ?_
    have hpos := position_off (p := p) hd hw
    rw [← hx] at hpos
    have n1 := hw.2
    set w := (((35/384 : ℚ) : ℝ) • fv k1 + ((500/1113 : ℚ) : ℝ) • fv k3 + ((125/192 : ℚ) : ℝ) • fv k4 + ((-2187/6784 : ℚ) : ℝ) • fv k5 + ((11/84 : ℚ) : ℝ) • fv k6)
    have e1 : fv xyt - fv p = (fv xyt - (fv p + d.val • w)) + d.val • w := by abel
    have e2 : ‖fv xyt - fv p‖ ≤ ‖fv xyt - (fv p + d.val • w)‖ + d.val * ‖w‖ := by
      rw [e1]
      refine (norm_add_le _ _).trans_eq ?_
      rw [norm_smul, Real.norm_eq_abs, abs_of_nonneg hd]
    have e3 := mul_le_mul_of_nonneg_left n1 hd
    have e4 : eps * (d.val * M) ≤ 1/1000000 * (d.val * M) := mul_le_mul_of_nonneg_right e' hdM
    have e5 : eps * (‖fv p‖ + 17 * (d.val * (2 * M))) = eps * ‖fv p‖ + 34 * (eps * (d.val * M)) := by ring
    rw [e5] at hpos
    linarith

/-! ## Factors -/

/-- the next step, without the roundings -/
theorem nextDt_fl_between (hpow : PowPositive) {tol maxstep est ds h : Fl} (ht : 0 < tol.val) (hm : 0 < maxstep.val) (he : 0 ≤ est.val) (hd : 0 ≤ ds.val) (hh : 0 ≤ h.val) {φ : ℝ}
    (hφ : φ = min (min (LibM.root5 (tol / (est + EPS))).val (maxstep / (ds + EPS)).val) 10) :
    897/1000 * (φ * h.val) ≤ (nextDt tol maxstep est ds h).val ∧ (nextDt tol maxstep est ds h).val ≤ 903/1000 * (φ * h.val) := by
  have e0 := EPS_fl_pos
  have pos : ∀ {a b : Fl}, 0 ≤ a.val → 0 < b.val → 0 < (a + b).val := fun ha hb => round53_pos (add_pos_of_nonneg_of_pos ha hb)
  have q10 : (PyMath.q 10 : Fl).val = 10 := by
    rw [q_val]
    have := round53_exact 10 0 (by norm_num)
    simpa using this
  have φ0 : 0 ≤ φ := by
    rw [hφ]
    refine le_min (le_min ?_ ?_) (by norm_num)
    · exact (hpow _ (by rw [Fl.div_val]; exact round53_pos (div_pos ht (pos he e0)))).le
    · rw [Fl.div_val]; exact round53_nonneg (div_pos hm (pos hd e0)).le
  have e : (nextDt tol maxstep est ds h).val = round53 (round53 (round53 (((9/10 : ℚ) : ℝ)) * φ) * h.val) := by
    unfold nextDt
    rw [Fl.mul_val, Fl.mul_val, pyMin3_fl, q10, q_val, hφ]
    rfl
  rw [e]
  have a1 : round53 (((9/10 : ℚ) : ℝ)) ≤ 1001/1000 * (9/10) := by
    have := round53_up (x := ((9/10 : ℚ) : ℝ)) (by norm_num); push_cast at this ⊢; linarith
  have a2 : 999/1000 * (9/10) ≤ round53 (((9/10 : ℚ) : ℝ)) := by
    have := round53_down (x := ((9/10 : ℚ) : ℝ)) (by norm_num); push_cast at this ⊢; linarith
  set c := round53 (((9/10 : ℚ) : ℝ))
  have c0 : 0 ≤ c := by linarith
  have b1 := round53_up (mul_nonneg c0 φ0)
  have b2 := round53_down (mul_nonneg c0 φ0)
  have r0 := round53_nonneg (mul_nonneg c0 φ0)
  set k := round53 (c * φ)
  have c1 := round53_up (mul_nonneg r0 hh)
  have c2 := round53_down (mul_nonneg r0 hh)
  have d1 : c * φ ≤ 1001/1000 * (9/10) * φ := mul_le_mul_of_nonneg_right a1 φ0
  have d2 : 999/1000 * (9/10) * φ ≤ c * φ := mul_le_mul_of_nonneg_right a2 φ0
  have f1 : k * h.val ≤ 902/1000 * φ * h.val := mul_le_mul_of_nonneg_right (by linarith) hh
  have f2 : 898/1000 * φ * h.val ≤ k * h.val := mul_le_mul_of_nonneg_right (by linarith) hh
  have := mul_nonneg φ0 hh
  constructor <;> linarith

omit [LibM] in
theorem root5_two {x : ℝ} (h : 199/100 ≤ x) : 114/100 ≤ x ^ ((1:ℝ)/5) := by
  have h1 : ((114/100 : ℝ)^5) ^ ((1:ℝ)/5) = 114/100 := by
    rw [← Real.rpow_natCast, ← Real.rpow_mul (by norm_num)]
    norm_num
  rw [← h1]
  exact Real.rpow_le_rpow (by positivity) (le_trans (by norm_num) h) (by norm_num)

omit [LibM] in
theorem root5_min {x : ℝ} (h : 0 < x) : min x 1 ≤ x ^ ((1:ℝ)/5) := by
  rcases le_total x 1 with h1 | h1
  · rw [min_eq_left h1]
    have := Real.rpow_le_rpow_of_exponent_ge h h1 (by norm_num : (1:ℝ)/5 ≤ 1)
    rwa [Real.rpow_one] at this
  · rw [min_eq_right h1]
    exact Real.one_le_rpow h1 (by norm_num)

/-- Small estimates do not shrink the step. -/
theorem nextDt_fl_ge (hroot : RootAccurate) {tol maxstep est ds h : Fl} (ht : 0 < tol.val) (hm : 0 < maxstep.val) (he0 : 0 ≤ est.val) (hd0 : 0 ≤ ds.val) (hh : 0 ≤ h.val)
    (he : 2 * (est.val + EPS (F := Fl).val) ≤ tol.val) (hd : 2 * (ds.val + EPS (F := Fl).val) ≤ maxstep.val) : h.val ≤ (nextDt tol maxstep est ds h).val := by
  obtain ⟨a, -⟩ := nextDt_fl_between hroot.pos ht hm he0 hd0 hh rfl
  have e0 := EPS_fl_pos
  have quot : ∀ {x y : Fl}, 0 < x.val → 0 ≤ y.val → 2 * (y.val + (EPS : Fl).val) ≤ x.val → 199/100 ≤ (x / (y + EPS)).val := by
    intro x y hx hy h
    rw [Fl.div_val, Fl.add_val]
    have s0 : 0 < y.val + (EPS : Fl).val := by linarith
    have h1 := round53_up s0.le
    have h0 := round53_pos s0
    have h2 : 1997/1000 ≤ x.val / round53 (y.val + (EPS : Fl).val) := by
      rw [le_div_iff₀ h0]; linarith
    have := round53_down (x := x.val / round53 (y.val + (EPS : Fl).val)) (by positivity)
    linarith
  have q1 := quot ht he0 he
  have q2 := quot hm hd0 hd
  have r1 := root5_two q1
  have r2 := (abs_le.mp (hroot (tol / (est + EPS)) (by linarith))).1
  have : 112/100 ≤ min (min (LibM.root5 (tol / (est + EPS))).val (maxstep / (ds + EPS)).val) 10 :=
    le_min (le_min (by linarith) (by linarith)) (by norm_num)
  have := mul_le_mul_of_nonneg_right this hh
  linarith

/-- A rejected step shrinks. -/
theorem nextDt_fl_reject (hroot : RootAccurate) {tol maxstep est ds h : Fl} (ht : 0 < tol.val) (hm : 0 < maxstep.val) (he0 : 0 ≤ est.val) (hd0 : 0 ≤ ds.val) (hh : 0 ≤ h.val)
    (hr : ¬ (est.val < tol.val ∧ ds.val < maxstep.val)) : (nextDt tol maxstep est ds h).val ≤ 19/20 * h.val := by
  obtain ⟨-, a⟩ := nextDt_fl_between hroot.pos ht hm he0 hd0 hh rfl
  have e0 := EPS_fl_pos
  have quot : ∀ {x y : Fl}, 0 < x.val → x.val ≤ y.val → 0 < (x / (y + EPS)).val ∧ (x / (y + EPS)).val ≤ 1 := by
    intro x y hx h
    rw [Fl.div_val, Fl.add_val]
    have h1 : x.val ≤ round53 (y.val + (EPS : Fl).val) := by
      refine h.trans ?_
      conv_lhs => rw [← y.isFloat]
      exact round53_mono (by linarith)
    refine ⟨round53_pos (div_pos hx (hx.trans_le h1)), ?_⟩
    have : round53 (x.val / round53 (y.val + (EPS : Fl).val)) ≤ round53 1 := round53_mono (by rw [div_le_one (hx.trans_le h1)]; exact h1)
    rwa [round53_one] at this
  have : min (min (LibM.root5 (tol / (est + EPS))).val (maxstep / (ds + EPS)).val) 10 ≤ 101/100 := by
    rcases not_and_or.mp hr with h1 | h1
    · obtain ⟨q0, q1⟩ := quot ht (not_lt.mp h1)
      refine (min_le_left _ _).trans ((min_le_left _ _).trans ?_)
      have r1 := root5_le_one q0.le q1
      have r2 := (abs_le.mp (hroot (tol / (est + EPS)) q0)).2
      linarith
    · obtain ⟨q0, q1⟩ := quot hm (not_lt.mp h1)
      refine (min_le_left _ _).trans ((min_le_right _ _).trans ?_)
      linarith
  have := mul_le_mul_of_nonneg_right this hh
  linarith

omit [LibM] in
theorem large_quot {a b c h δ M : ℝ} (hδ : 0 < δ) (hh : δ ≤ h) (hM : 0 ≤ M) (hc0 : 0 < c) (h1 : c * M * δ + b ≤ a / 2) (hb : 0 < b) : 2 * δ ≤ a * h / (c * (h * M) + b) := by
  have hh0 : 0 < h := hδ.trans_le hh
  have : 0 < c * (h * M) + b := by positivity
  rw [le_div_iff₀ this]
  have e1 : 2 * δ * (c * (h * M) + b) ≤ 2 * (h * (c * M * δ + b)) := by
    have := mul_le_mul_of_nonneg_right hh hb.le
    nlinarith
  have e2 := mul_le_mul_of_nonneg_left h1 hh0.le
  linarith

/-- A long step is not shrunk below a fixed length. -/
theorem nextDt_fl_lower (hroot : RootAccurate) {tol maxstep est ds h : Fl} {δ M : ℝ} (ht : 0 < tol.val) (hm : 0 < maxstep.val) (he0 : 0 ≤ est.val) (hd0 : 0 ≤ ds.val)
    (hδ : 0 < δ) (hh : δ ≤ h.val) (hM : 0 ≤ M) (hE1 : 4 * (EPS : Fl).val ≤ tol.val) (hE2 : 4 * (EPS : Fl).val ≤ maxstep.val) (h1 : 4 * (M * δ) ≤ tol.val) (h2 : 72 * (M * δ) ≤ maxstep.val)
    (he : est.val ≤ h.val * M) (hd : ds.val ≤ 9 * (h.val * M) + maxstep.val / 8) : 1/2 * δ ≤ (nextDt tol maxstep est ds h).val := by
  have hh0 : 0 < h.val := hδ.trans_le hh
  obtain ⟨a, -⟩ := nextDt_fl_between hroot.pos ht hm he0 hd0 hh0.le rfl
  have e0 := EPS_fl_pos
  have quot : ∀ {x y : Fl} {b c : ℝ}, 0 < x.val → 0 ≤ y.val → 0 < c → 0 < b → c * M * δ + b ≤ x.val / 2 → y.val + (EPS : Fl).val ≤ c * (h.val * M) + b →
      0 < (x / (y + EPS)).val ∧ 199/100 * δ ≤ (x / (y + EPS)).val * h.val := by
    intro x y b c hx hy hc hb k1 k2
    have k3 := large_quot hδ hh hM hc k1 hb
    rw [Fl.div_val, Fl.add_val]
    have s0 : 0 < y.val + (EPS : Fl).val := by linarith
    have p0 := round53_pos s0
    have p1 := round53_up s0.le
    refine ⟨round53_pos (div_pos hx p0), ?_⟩
    have p2 := round53_down (x := x.val / round53 (y.val + (EPS : Fl).val)) (by positivity)
    have c0 : 0 < c * (h.val * M) + b := lt_of_lt_of_le s0 k2
    have p3 : x.val / (1001/1000 * (c * (h.val * M) + b)) ≤ x.val / round53 (y.val + (EPS : Fl).val) :=
      div_le_div_of_nonneg_left hx.le p0 (p1.trans (by linarith))
    have p4 : x.val / (1001/1000 * (c * (h.val * M) + b)) * h.val = 1000/1001 * (x.val * h.val / (c * (h.val * M) + b)) := by
      field_simp
    have p5 := mul_le_mul_of_nonneg_right p2 hh0.le
    have p6 := mul_le_mul_of_nonneg_right p3 hh0.le
    rw [p4] at p6
    linarith
  obtain ⟨q0, q1⟩ := quot (x := tol) (y := est) (b := tol.val / 4) (c := 1) ht he0 one_pos (by linarith) (by linarith) (by linarith)
  obtain ⟨_, q2⟩ := quot (x := maxstep) (y := ds) (b := 3/8 * maxstep.val) (c := 9) hm hd0 (by norm_num) (by linarith) (by linarith) (by linarith)
  have r1 := root5_min q0
  have r2 := (abs_le.mp (hroot (tol / (est + EPS)) q0)).1
  have r3 : 6/10 * δ ≤ (LibM.root5 (tol / (est + EPS))).val * h.val := by
    have r4 : 99/100 * min (tol / (est + EPS)).val 1 ≤ (LibM.root5 (tol / (est + EPS))).val := by
      have := lt_min q0 one_pos
      linarith
    refine le_trans ?_ (mul_le_mul_of_nonneg_right r4 hh0.le)
    rcases le_total (tol / (est + EPS)).val 1 with k | k
    · rw [min_eq_left k]; linarith
    · rw [min_eq_right k]; linarith
  have : 6/10 * δ ≤ min (min (LibM.root5 (tol / (est + EPS))).val (maxstep / (ds + EPS)).val) 10 * h.val := by
    rw [min_mul_of_nonneg _ _ hh0.le, min_mul_of_nonneg _ _ hh0.le]
    exact le_min (le_min r3 (by linarith)) (by linarith)
  linarith

/-! ## Termination -/

/-- Each pass either advances the time by `δ1` (or ends the trace), or shrinks a step that is not yet below `δ0`. -/
theorem two_counters_fl {c : TCfg Fl} {δ0 δ1 : ℝ} (hD : 0 < c.duration.val) (hδ0 : 0 < δ0) (hδ1 : 0 < δ1)
    (I : TState Fl → Prop) (h0 : ∀ s, I s → 0 ≤ s.t.val) (keep : ∀ s s', I s → Pass c s (.inr s') → I s')
    (prog : ∀ s s', I s → Pass c s (.inr s') →
      (c.duration.val ≤ s'.t.val ∨ s.t.val + δ1 ≤ s'.t.val) ∨ (s'.t = s.t ∧ δ0 < s.dt.val ∧ s'.dt.val ≤ 19/20 * s.dt.val))
    {s : TState Fl} (hs : I s) : ∃ r, tloop c s = some r := by
  have main : ∀ N K : ℕ, ∀ s, I s → c.duration.val - s.t.val ≤ N * δ1 → s.dt.val ≤ δ0 * (20/19)^K → ∃ r, tloop c s = some r := by
    intro N
    induction N with
    | zero =>
      intro K s hI hN _
      refine ⟨⟨s.vs, s.ss, none⟩, ?_⟩
      rw [tloop_unfold]
      have : titer c s = .inl ⟨s.vs, s.ss, none⟩ := by
        unfold titer
        rw [if_neg]
        rw [Fl.lt_iff, abs_val, abs_val, abs_of_nonneg (h0 s hI), abs_of_pos hD]
        have : c.duration.val - s.t.val ≤ 0 := by simpa using hN
        linarith
      rw [this]
    | succ N ihN =>
      have acc : ∀ s s', I s → Pass c s (.inr s') → c.duration.val - s.t.val ≤ (N+1 : ℕ) * δ1 → (c.duration.val ≤ s'.t.val ∨ s.t.val + δ1 ≤ s'.t.val) →
          ∃ r, tloop c s' = some r := by
        intro s s' hI hp hN hor
        obtain ⟨K, hK⟩ := pow_unbounded_of_one_lt (s'.dt.val / δ0) (by norm_num : (1:ℝ) < 20/19)
        rw [div_lt_iff₀ hδ0] at hK
        refine ihN K s' (keep s s' hI hp) ?_ (by linarith)
        rcases hor with h | h
        · have : 0 ≤ (N : ℝ) * δ1 := by positivity
          linarith
        · push_cast at hN; linarith
      intro K
      induction K with
      | zero =>
        intro s hI hN hK
        rw [tloop_unfold]
        cases hx : titer c s with
        | inl r => exact ⟨r, rfl⟩
        | inr s' =>
          have hp := pass_of_titer hx
          rcases prog s s' hI hp with h | ⟨_, h, _⟩
          · exact acc s s' hI hp hN h
          · simp only [pow_zero, mul_one] at hK; linarith
      | succ K ihK =>
        intro s hI hN hK
        rw [tloop_unfold]
        cases hx : titer c s with
        | inl r => exact ⟨r, rfl⟩
        | inr s' =>
          have hp := pass_of_titer hx
          rcases prog s s' hI hp with h | ⟨h1, _, h2⟩
          · exact acc s s' hI hp hN h
          · refine ihK s' (keep s s' hI hp) (by rw [h1]; exact hN) ?_
            rw [pow_succ] at hK
            linarith
  obtain ⟨N, hN⟩ := exists_nat_gt ((c.duration.val - s.t.val) / δ1)
  obtain ⟨K, hK⟩ := pow_unbounded_of_one_lt (s.dt.val / δ0) (by norm_num : (1:ℝ) < 20/19)
  rw [div_lt_iff₀ hδ1] at hN
  rw [div_lt_iff₀ hδ0] at hK
  exact main N K s hs hN.le (by linarith)

omit [LibM] in
/-- Sterbenz: the difference of two numbers within a factor of two is exact. -/
theorem sub_exact_fl {D t : Fl} (h0 : D.val / 2 ≤ t.val) (h1 : t.val < D.val) : (D - t).val = D.val - t.val := by
  rw [Fl.sub_val]
  have ht : 0 < t.val := by linarith
  have hu := ulp_pos t.val
  obtain ⟨n, hn⟩ : ∃ n : ℤ, t.val = n * ulp t.val := ⟨_, by have := t.isFloat; unfold round53 at this; exact this.symm⟩
  obtain ⟨k, hk⟩ : ∃ k : ℤ, D.val = k * ulp D.val := ⟨_, by have := D.isFloat; unfold round53 at this; exact this.symm⟩
  -- the last place of `D` is a multiple of that of `t`
  have hlog : Int.log 2 t.val ≤ Int.log 2 D.val := Int.log_mono_right ht h1.le
  obtain ⟨m, hm⟩ : ∃ m : ℤ, ulp D.val = m * ulp t.val := by
    refine ⟨2 ^ (Int.log 2 D.val - Int.log 2 t.val).toNat, ?_⟩
    unfold ulp
    rw [abs_of_pos ht, abs_of_pos (ht.trans h1)]
    push_cast
    rw [← zpow_natCast, Int.toNat_of_nonneg (by omega), ← zpow_add₀ (by norm_num)]
    congr 1; ring
  have e : D.val - t.val = ((k * m - n : ℤ) : ℝ) * 2 ^ (Int.log 2 |t.val| - 52) := by
    conv_lhs => rw [hk, hm, hn]
    have hn' : ulp (n * ulp t.val) = ulp t.val := by rw [← hn]
    rw [hn']
    push_cast
    unfold ulp
    ring
  have b : |(k * m - n : ℤ)| ≤ 2 ^ 53 := by
    have h2 : ((k * m - n : ℤ) : ℝ) * ulp t.val < 2 ^ 53 * ulp t.val := by
      have h3 := abs_lt_zpow t.val
      rw [abs_of_pos ht] at h3
      have h4 : (2:ℝ) ^ (Int.log 2 t.val + 1) = 2 ^ 53 * ulp t.val := by
        unfold ulp; rw [abs_of_pos ht, ← zpow_natCast, ← zpow_add₀ (by norm_num)]; congr 1; push_cast; ring
      rw [h4] at h3
      have h5 : D.val - t.val = ((k * m - n : ℤ) : ℝ) * ulp t.val := by rw [e]; rfl
      rw [← h5]; linarith
    have h6 : 0 < ((k * m - n : ℤ) : ℝ) * ulp t.val := by
      have h5 : D.val - t.val = ((k * m - n : ℤ) : ℝ) * ulp t.val := by rw [e]; rfl
      rw [← h5]; linarith
    have h7 := lt_of_mul_lt_mul_right h2 hu.le
    have h8 : 0 < ((k * m - n : ℤ) : ℝ) := pos_of_mul_pos_left h6 hu.le
    have h9 : (k * m - n : ℤ) < 2 ^ 53 := by exact_mod_cast h7
    have h10 : 0 < (k * m - n : ℤ) := by exact_mod_cast h8
    rw [abs_of_pos h10]
    exact h9.le
  rw [e]
  exact round53_exact _ _ b

/-- the setting -/
structure Bounded (fe : ℕ → Fl × Fl → Except PyErr (Fl × Fl)) (D tol m M S δ d : ℝ) : Prop where
  bound : ∀ n q v, fe n q = .ok v → ‖fv v‖ ≤ M
  D0 : 0 < D
  M0 : 0 ≤ M
  δ0 : 0 < δ
  E1 : 4 * (EPS : Fl).val ≤ tol
  E2 : 4 * (EPS : Fl).val ≤ m
  h1 : 4 * (M * δ) ≤ tol
  h2 : 72 * (M * δ) ≤ m
  d0 : 0 < d
  dδ : d ≤ 1/2 * δ
  d20 : d ≤ 1/20
  dD : d ≤ D / 4
  slow : 2 ^ 3 * (eps * D) ≤ d
  near : 24 * (eps * (S + 4 * (m * D / d))) ≤ m
  S0 : 0 ≤ S

/-- the invariant -/
structure Going (D m M S d : ℝ) (s : TState Fl) : Prop where
  t0 : 0 ≤ s.t.val
  dt0 : 0 < s.dt.val
  dt : s.t.val < D → d ≤ s.dt.val
  k1 : ‖fv s.k1‖ ≤ M
  xy : s.t.val < D → ‖fv s.xy‖ ≤ S + 4 * (m * s.t.val / d)
  count : s.t.val < D → s.ss.length * (d / 2) ≤ s.t.val
  total : s.ss.length * (d / 2) ≤ D + d / 2

variable {fe : ℕ → Fl × Fl → Except PyErr (Fl × Fl)} {D tol m : Fl} {M S δ d : ℝ}

theorem Bounded.tol0 (B : Bounded fe D.val tol.val m.val M S δ d) : 0 < tol.val := by have := B.E1; have := EPS_fl_pos; linarith
theorem Bounded.m0 (B : Bounded fe D.val tol.val m.val M S δ d) : 0 < m.val := by have := B.E2; have := EPS_fl_pos; linarith

/-- facts about a pass -/
theorem Bounded.facts (B : Bounded fe D.val tol.val m.val M S δ d) {s : TState Fl} (I : Going D.val m.val M S d s) (hlt : s.t.val < D.val) {xyt k2 : Fl × Fl} {est ds : Fl}
    (he : trial fe s.n s.xy s.k1 (clipDt D s.t s.dt) = .ok (xyt, k2, est, ds)) :
    0 < (clipDt D s.t s.dt).val ∧ est.val ≤ (clipDt D s.t s.dt).val * M ∧ ds.val ≤ 9 * ((clipDt D s.t s.dt).val * M) + m.val / 8 ∧ ‖fv k2‖ ≤ M := by
  obtain ⟨c1, -, -⟩ := clip_fl B.D0 I.t0 hlt I.dt0
  obtain ⟨b1, b2, b3⟩ := trial_bounds_fl B.bound c1.le I.k1 he
  refine ⟨c1, b1, b2.trans ?_, b3⟩
  have e := eps_pos
  have h1 : ‖fv s.xy‖ ≤ S + 4 * (m.val * D.val / d) := by
    refine (I.xy hlt).trans ?_
    have : m.val * s.t.val / d ≤ m.val * D.val / d := div_le_div_of_nonneg_right (mul_le_mul_of_nonneg_left hlt.le B.m0.le) B.d0.le
    linarith
  have h2 := mul_le_mul_of_nonneg_left h1 e.le
  have := B.near
  linarith

theorem Bounded.small (B : Bounded fe D.val tol.val m.val M S δ d) {est ds h : Fl} (h0 : 0 ≤ h.val) (hle : h.val ≤ δ) (he : est.val ≤ h.val * M)
    (hd : ds.val ≤ 9 * (h.val * M) + m.val / 8) : 2 * (est.val + (EPS : Fl).val) ≤ tol.val ∧ 2 * (ds.val + (EPS : Fl).val) ≤ m.val := by
  have h3 : h.val * M ≤ M * δ := by
    have := mul_le_mul_of_nonneg_right hle B.M0
    linarith
  have := B.E1; have := B.E2; have := B.h1; have := B.h2
  constructor <;> linarith

/-- a step of at least `d` is followed by one -/
theorem Bounded.next (hroot : RootAccurate) (B : Bounded fe D.val tol.val m.val M S δ d) {est ds h : Fl} (h0 : d ≤ h.val ∨ δ < h.val) (he0 : 0 ≤ est.val) (hd0 : 0 ≤ ds.val)
    (he : est.val ≤ h.val * M) (hd : ds.val ≤ 9 * (h.val * M) + m.val / 8) : d ≤ (nextDt tol m est ds h).val := by
  have hpos : 0 < h.val := by
    rcases h0 with h0 | h0
    · exact B.d0.trans_le h0
    · exact B.δ0.trans h0
  rcases le_or_gt h.val δ with hle | hgt
  · obtain ⟨s1, s2⟩ := B.small hpos.le hle he hd
    have := nextDt_fl_ge hroot B.tol0 B.m0 he0 hd0 hpos.le s1 s2
    rcases h0 with h0 | h0 <;> linarith
  · have := nextDt_fl_lower hroot B.tol0 B.m0 he0 hd0 B.δ0 hgt.le B.M0 B.E1 B.E2 B.h1 B.h2 he hd
    linarith [B.dδ]

/-- either the last step or one of at least `d` -/
theorem Bounded.clip (B : Bounded fe D.val tol.val m.val M S δ d) {s : TState Fl} (I : Going D.val m.val M S d s) (hlt : s.t.val < D.val) :
    (s.t + clipDt D s.t s.dt).val = D.val ∨ (d ≤ (clipDt D s.t s.dt).val ∧ s.t.val + d / 2 ≤ (s.t + clipDt D s.t s.dt).val) := by
  have e := eps_pos
  obtain ⟨c1, c2, c3⟩ := clip_fl B.D0 I.t0 hlt I.dt0
  have gain : d ≤ (clipDt D s.t s.dt).val → s.t.val + d / 2 ≤ (s.t + clipDt D s.t s.dt).val := by
    intro hd
    rw [Fl.add_val]
    have h1 : s.t.val + d ≤ s.t.val + (clipDt D s.t s.dt).val := by linarith
    refine le_trans ?_ (round53_mono h1)
    have h2 := (abs_le.mp (round53_accurate (s.t.val + d))).1
    rw [abs_of_nonneg (by linarith [I.t0, B.d0])] at h2
    have e2 : (2:ℝ) ^ (-53:ℤ) = eps := rfl
    rw [e2] at h2
    have h3 : eps * (s.t.val + d) ≤ eps * (2 * D.val) := mul_le_mul_of_nonneg_left (by linarith [B.dD, B.D0]) e.le
    have := B.slow
    have := mul_pos e B.D0
    linarith
  by_cases hc : PyMath.abs D < PyMath.abs (s.t + s.dt)
  · have hcl : clipDt D s.t s.dt = D - s.t := by unfold clipDt; rw [if_pos hc]
    rcases le_or_gt (D.val / 2) s.t.val with hh | hh
    · left
      rw [hcl, Fl.add_val, sub_exact_fl hh hlt, add_sub_cancel, D.isFloat]
    · right
      have hd : d ≤ (clipDt D s.t s.dt).val := by
        rw [hcl, Fl.sub_val]
        have := round53_down (x := D.val - s.t.val) (by linarith)
        linarith [B.dD, B.D0]
      exact ⟨hd, gain hd⟩
  · right
    have hcl : clipDt D s.t s.dt = s.dt := by unfold clipDt; rw [if_neg hc]
    have hd : d ≤ (clipDt D s.t s.dt).val := by rw [hcl]; exact I.dt hlt
    exact ⟨hd, gain hd⟩

theorem Bounded.lt (B : Bounded fe D.val tol.val m.val M S δ d) {s : TState Fl} (I : Going D.val m.val M S d s) (h : PyMath.abs s.t < PyMath.abs D) : s.t.val < D.val := by
  rw [Fl.lt_iff, abs_val, abs_val, abs_of_nonneg I.t0, abs_of_pos B.D0] at h
  exact h

theorem Bounded.rejected (B : Bounded fe D.val tol.val m.val M S δ d) {est ds h : Fl} (h0 : 0 < h.val) (he : est.val ≤ h.val * M)
    (hd : ds.val ≤ 9 * (h.val * M) + m.val / 8) (hr : ¬ (est < tol ∧ ds < m)) : δ < h.val := by
  by_contra hcon
  obtain ⟨s1, s2⟩ := B.small h0.le (not_lt.mp hcon) he hd
  have e0 := EPS_fl_pos
  refine hr ⟨?_, ?_⟩ <;> rw [Fl.lt_iff]
  · have := B.tol0; linarith
  · have := B.m0; linarith

theorem Bounded.keep (hroot : RootAccurate) (B : Bounded fe D.val tol.val m.val M S δ d) {s s' : TState Fl} (I : Going D.val m.val M S d s) (hp : Pass ⟨D, tol, m, fe⟩ s (.inr s')) :
    Going D.val m.val M S d s' := by
  cases hp with
  | accept hlt xyt k2 est ds he h1 h2 =>
    have hlt := B.lt I hlt
    simp only at he h1 h2
    obtain ⟨f1, f2, f3, f4⟩ := B.facts I hlt he
    obtain ⟨e1, e2⟩ := trial_nonneg_fl he
    obtain ⟨c1, c2, c3⟩ := clip_fl B.D0 I.t0 hlt I.dt0
    have hcl := B.clip I hlt
    have go : (s.t + clipDt D s.t s.dt).val < D.val → d ≤ (clipDt D s.t s.dt).val ∧ s.t.val + d / 2 ≤ (s.t + clipDt D s.t s.dt).val := by
      intro h
      rcases hcl with h' | h'
      · exact absurd h' h.ne
      · exact h'
    refine ⟨I.t0.trans c2, nextDt_fl_pos hroot.pos B.tol0 B.m0 e1 e2 f1, ?_, f4, ?_, ?_, ?_⟩
    · intro h
      exact B.next hroot (Or.inl (go h).1) e1 e2 f2 f3
    · intro h
      have hg := (go h).2
      obtain ⟨_, _, _, _, _, -, -, -, -, -, -, -, -, hds⟩ := trial_evals he
      rw [Fl.lt_iff, hds] at h2
      have hs := step_le_fl h2
      have e' := eps_small
      have hn : ‖fv xyt‖ ≤ ‖fv xyt - fv s.xy‖ + ‖fv s.xy‖ := by
        have := norm_add_le (fv xyt - fv s.xy) (fv s.xy)
        rwa [sub_add_cancel] at this
      have hm : m.val * (1 + 4 * eps) ≤ 2 * m.val := by
        have := B.m0
        nlinarith
      have hx := I.xy hlt
      have hq : m.val * s.t.val / d + m.val / 2 ≤ m.val * (s.t + clipDt D s.t s.dt).val / d := by
        rw [le_div_iff₀ B.d0, add_mul, div_mul_cancel₀ _ B.d0.ne']
        have := mul_le_mul_of_nonneg_left hg B.m0.le
        linarith
      simp only
      linarith
    · intro h
      have := I.count hlt
      have := (go h).2
      simp only [List.length_append, List.length_cons, List.length_nil, zero_add, Nat.cast_add, Nat.cast_one]
      linarith
    · have := I.count hlt
      simp only [List.length_append, List.length_cons, List.length_nil, zero_add, Nat.cast_add, Nat.cast_one]
      linarith
  | reject hlt xyt k2 est ds he h1 =>
    have hlt := B.lt I hlt
    simp only at he h1
    obtain ⟨f1, f2, f3, f4⟩ := B.facts I hlt he
    obtain ⟨e1, e2⟩ := trial_nonneg_fl he
    refine ⟨I.t0, nextDt_fl_pos hroot.pos B.tol0 B.m0 e1 e2 f1, ?_, I.k1, I.xy, I.count, I.total⟩
    intro _
    exact B.next hroot (Or.inr (B.rejected f1 f2 f3 h1)) e1 e2 f2 f3

theorem clip_le_fl {D t dt : Fl} (hD : 0 < D.val) (t0 : 0 ≤ t.val) (h0 : 0 < dt.val) : (clipDt D t dt).val ≤ dt.val := by
  unfold clipDt
  split_ifs with hc
  · rw [Fl.lt_iff, abs_val, abs_val, abs_of_pos hD, Fl.add_val, abs_of_nonneg (round53_nonneg (by linarith))] at hc
    have h1 : D.val < t.val + dt.val := by
      by_contra hcon
      have := round53_mono (not_lt.mp hcon)
      rw [D.isFloat] at this
      linarith
    rw [Fl.sub_val]
    conv_rhs => rw [← dt.isFloat]
    exact round53_mono (by linarith)
  · exact le_rfl

theorem Bounded.start (B : Bounded fe D.val tol.val m.val M S δ d) {p k1 : Fl × Fl} {n : ℕ} {vs : List (Fl × Fl)} (hk : ‖fv k1‖ ≤ M) (hp : ‖fv p‖ ≤ S) :
    Going D.val m.val M S d ⟨PyMath.q 0, PyMath.q (1/10) * PyMath.sign D, p, k1, n, vs, []⟩ := by
  have hdt : 5/100 ≤ (PyMath.q (1/10) * PyMath.sign D : Fl).val := by
    rw [Fl.mul_val, sign_pos_val B.D0, q_val, mul_one, round53_idem]
    have := round53_down (x := ((1/10 : ℚ) : ℝ)) (by norm_num)
    push_cast at this ⊢
    linarith
  have z : (PyMath.q 0 : Fl).val = 0 := by rw [q_val]; simp [round53_zero]
  have := B.D0; have := B.d0
  refine ⟨z.ge, lt_of_lt_of_le (by norm_num) hdt, fun _ => B.d20.trans (le_trans (by norm_num) hdt), hk, ?_, ?_, ?_⟩
  · intro _
    simp only [z]
    simpa using hp
  · intro _; simp only [z]; simp
  · simp only [List.length_nil, Nat.cast_zero, zero_mul]; linarith

theorem returns_fl (hroot : RootAccurate) (B : Bounded fe D.val tol.val m.val M S δ d) {xs ys : Fl} (hp : ‖fv (xs, ys)‖ ≤ S) :
    ∃ r, computeBacktrace xs ys D tol m fe = some r ∧ r.steps.length * (d / 2) ≤ D.val + d / 2 := by
  have key : ∀ r, computeBacktrace xs ys D tol m fe = some r → r.steps.length * (d / 2) ≤ D.val + d / 2 := by
    intro r h
    refine backtrace_inv (Going D.val m.val M S d) (fun r => r.steps.length * (d / 2) ≤ D.val + d / 2) ?_ ?_ ?_ ?_ h
    · intro _ _
      have := B.D0; have := B.d0
      simp only [List.length_nil, Nat.cast_zero, zero_mul]; linarith
    · intro k1 hk; exact B.start (B.bound _ _ _ hk) hp
    · intro s s' I hp; exact B.keep hroot I hp
    · intro s r I hp
      cases hp <;> exact I.total
  suffices h : ∃ r, computeBacktrace xs ys D tol m fe = some r by
    obtain ⟨r, hr⟩ := h
    exact ⟨r, hr, key r hr⟩
  cases hk : fe 0 (xs, ys) with
  | error e => exact ⟨_, by unfold computeBacktrace; rw [hk]⟩
  | ok k1 =>
  rw [computeBacktrace_ok _ _ _ _ _ _ _ hk]
  refine two_counters_fl (c := ⟨D, tol, m, fe⟩) B.D0 B.δ0 (half_pos B.d0) (Going D.val m.val M S d) (fun s I => I.t0) (fun s s' I hp => B.keep hroot I hp) ?_
    (B.start (B.bound _ _ _ hk) hp)
  intro s s' I hp
  cases hp with
  | accept hlt xyt k2 est ds he h1 h2 =>
    left
    rcases B.clip I (B.lt I hlt) with h | h
    · exact Or.inl h.ge
    · exact Or.inr h.2
  | reject hlt xyt k2 est ds he h1 =>
    right
    have hlt := B.lt I hlt
    simp only at he h1
    obtain ⟨f1, f2, f3, f4⟩ := B.facts I hlt he
    obtain ⟨e1, e2⟩ := trial_nonneg_fl he
    have hcl := clip_le_fl B.D0 I.t0 I.dt0
    refine ⟨rfl, (B.rejected f1 f2 f3 h1).trans_le hcl, ?_⟩
    have := nextDt_fl_reject (h := clipDt D s.t s.dt) hroot B.tol0 B.m0 e1 e2 f1.le (by rw [← Fl.lt_iff, ← Fl.lt_iff]; exact h1)
    change (nextDt tol m est ds (clipDt D s.t s.dt)).val ≤ _
    linarith

/-- the conditions in terms of the arguments -/
theorem bounded_of {D tol maxstep : Fl} {M : ℝ} {feval : ℕ → Fl × Fl → Except PyErr (Fl × Fl)} (hb : ∀ n q v, feval n q = .ok v → ‖fv v‖ ≤ M)
    (hM : 0 ≤ M) (hD : 0 < D.val) (hD40 : D.val ≤ 2 ^ 40) (htol : 2 ^ (-50 : ℤ) ≤ tol.val) (hmax : 2 ^ (-50 : ℤ) ≤ maxstep.val) (h1 : M * D.val ≤ 2 ^ 37 * tol.val)
    (h2 : M * D.val ≤ 2 ^ 37 * maxstep.val) :
    ∃ δ d, Bounded feval D.val tol.val maxstep.val M (2 ^ 47 * maxstep.val) δ d ∧
      ∀ n : ℕ, (n : ℝ) * (d / 2) ≤ D.val + d / 2 → (n : ℝ) ≤ 9 + 40 * D.val + 16 * (M * D.val / tol.val) + 288 * (M * D.val / maxstep.val) := by
  have ht0 : 0 < tol.val := lt_of_lt_of_le (by positivity) htol
  have hm0 : 0 < maxstep.val := lt_of_lt_of_le (by positivity) hmax
  set u := 4 * (M / tol.val) + 72 * (M / maxstep.val) + 10 with hu
  have hu0 : 10 ≤ u := by have : 0 ≤ 4 * (M / tol.val) + 72 * (M / maxstep.val) := by positivity
                          linarith
  set d := 1 / (2 * u + 4 / D.val) with hd
  have hw : 0 < 2 * u + 4 / D.val := by positivity
  have hd0 : 0 < d := by positivity
  have hDd : D.val / d = 2 * (u * D.val) + 4 := by rw [hd]; field_simp
  have huD : u * D.val = 4 * (M * D.val / tol.val) + 72 * (M * D.val / maxstep.val) + 10 * D.val := by rw [hu]; ring
  have q1 : M * D.val / tol.val ≤ 2 ^ 37 := by rw [div_le_iff₀ ht0]; exact h1
  have q2 : M * D.val / maxstep.val ≤ 2 ^ 37 := by rw [div_le_iff₀ hm0]; exact h2
  have hE : (EPS : Fl).val = 2 ^ (-52 : ℤ) := EPS_fl
  have he : eps = 2 ^ (-53 : ℤ) := rfl
  have e4 : 4 * (2:ℝ) ^ (-52 : ℤ) = 2 ^ (-50 : ℤ) := by norm_num [zpow_neg]
  have B : Bounded feval D.val tol.val maxstep.val M (2 ^ 47 * maxstep.val) (1 / u) d := by
    refine ⟨hb, hD, hM, by positivity, by rw [hE, e4]; exact htol, by rw [hE, e4]; exact hmax, ?_, ?_, hd0, ?_, ?_, ?_, ?_, ?_, by positivity⟩
    · rw [mul_one_div, mul_div_assoc', div_le_iff₀ (by linarith)]
      have : 4 * M = tol.val * (4 * (M / tol.val)) := by field_simp
      rw [this]
      refine mul_le_mul_of_nonneg_left ?_ ht0.le
      have : 0 ≤ 72 * (M / maxstep.val) := by positivity
      linarith
    · rw [mul_one_div, mul_div_assoc', div_le_iff₀ (by linarith)]
      have : 72 * M = maxstep.val * (72 * (M / maxstep.val)) := by field_simp
      rw [this]
      refine mul_le_mul_of_nonneg_left ?_ hm0.le
      have : 0 ≤ 4 * (M / tol.val) := by positivity
      linarith
    · rw [hd, show (1:ℝ) / 2 * (1 / u) = 1 / (2 * u) by field_simp]
      exact one_div_le_one_div_of_le (by linarith) (by have : 0 < 4 / D.val := by positivity
                                                       linarith)
    · rw [hd]
      exact one_div_le_one_div_of_le (by norm_num) (by have : 0 < 4 / D.val := by positivity
                                                       linarith)
    · rw [hd, show D.val / 4 = 1 / (4 / D.val) by field_simp]
      exact one_div_le_one_div_of_le (by positivity) (by linarith)
    · have : 2 ^ 3 * (eps * (D.val / d)) ≤ 1 := by
        rw [hDd, huD, he]
        norm_num [zpow_neg] at q1 q2 hD40 ⊢
        linarith
      have e3 : 2 ^ 3 * (eps * D.val) = 2 ^ 3 * (eps * (D.val / d)) * d := by field_simp
      rw [e3]
      exact mul_le_of_le_one_left hd0.le this
    · have e3 : maxstep.val * D.val / d = maxstep.val * (2 * (u * D.val) + 4) := by rw [mul_div_assoc, hDd]
      rw [e3, show 24 * (eps * (2 ^ 47 * maxstep.val + 4 * (maxstep.val * (2 * (u * D.val) + 4)))) = 24 * (eps * (2 ^ 47 + 4 * (2 * (u * D.val) + 4))) * maxstep.val by ring]
      refine mul_le_of_le_one_left hm0.le ?_
      rw [huD, he]
      norm_num [zpow_neg] at q1 q2 hD40 ⊢
      linarith
  refine ⟨_, d, B, fun n hc => ?_⟩
  have h3 : (n : ℝ) ≤ 2 * (D.val / d) + 1 := by
    have h4 : (n : ℝ) * (d / 2) ≤ (2 * (D.val / d) + 1) * (d / 2) := by
      refine hc.trans_eq ?_
      field_simp
    exact le_of_mul_le_mul_right h4 (by positivity)
  rw [hDd, huD] at h3
  linarith

end
end Oneka
