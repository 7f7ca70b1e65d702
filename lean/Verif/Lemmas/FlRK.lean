import Verif.Lemmas.FlTime
import Verif.Lemmas.Accuracy

/-!
# A Runge–Kutta step in floating-point arithmetic

Positions carry a rounding error `η`, velocities an error `ν` (the rounding errors of the velocity function). The step is compared with the straight step `p + h f(p)`.
-/

namespace Oneka

theorem norm_round (a x : ℝ × ℝ) (h1 : a.1 = round53 x.1) (h2 : a.2 = round53 x.2) : ‖a - x‖ ≤ eps * ‖x‖ := by
  have e := eps_pos
  rw [Prod.norm_def]
  refine max_le ?_ ?_
  · rw [Prod.fst_sub, h1, Real.norm_eq_abs]
    exact (round53_accurate x.1).trans (mul_le_mul_of_nonneg_left (norm_fst_le x) e.le)
  · rw [Prod.snd_sub, h2, Real.norm_eq_abs]
    exact (round53_accurate x.2).trans (mul_le_mul_of_nonneg_left (norm_snd_le x) e.le)

theorem fv_add (a b : Fl × Fl) : ‖fv (a + b) - (fv a + fv b)‖ ≤ eps * ‖fv a + fv b‖ := norm_round _ _ rfl rfl
theorem fv_sub (a b : Fl × Fl) : ‖fv (a - b) - (fv a - fv b)‖ ≤ eps * ‖fv a - fv b‖ := norm_round _ _ rfl rfl
theorem fv_sc (c : Fl) (a : Fl × Fl) : ‖fv (sc c a) - c.val • fv a‖ ≤ eps * ‖c.val • fv a‖ := norm_round _ _ rfl rfl

/-- `a'` differs from `a` by at most `c` roundings of size `S`. -/
def VOff (c S : ℝ) (a' : Fl × Fl) (a : ℝ × ℝ) : Prop := ‖fv a' - a‖ ≤ c * eps * S ∧ ‖a‖ ≤ S

theorem VOff.weaken {c d S T : ℝ} {a' : Fl × Fl} {a : ℝ × ℝ} (h : VOff c S a' a) (hc : 0 ≤ c) (hd : c ≤ d) (hT : S ≤ T) : VOff d T a' a := by
  have e := eps_pos
  have s0 : 0 ≤ S := (norm_nonneg _).trans h.2
  exact ⟨h.1.trans (mul_le_mul (mul_le_mul_of_nonneg_right hd e.le) hT s0 (by have := hc.trans hd; positivity)), h.2.trans hT⟩

theorem VOff.norm_le {c S : ℝ} {a' : Fl × Fl} {a : ℝ × ℝ} (h : VOff c S a' a) (hc : c ≤ 1000) : ‖fv a'‖ ≤ 2 * S := by
  have e := eps_pos; have e' := eps_small
  have s0 : 0 ≤ S := (norm_nonneg _).trans h.2
  have h1 : ‖fv a'‖ ≤ ‖fv a' - a‖ + ‖a‖ := by
    have := norm_add_le (fv a' - a) a
    rwa [sub_add_cancel] at this
  have h2 : c * eps * S ≤ 1 * S := mul_le_mul_of_nonneg_right (by nlinarith) s0
  linarith [h.1, h.2]

theorem VOff.add {c S T : ℝ} {a' b' : Fl × Fl} {a b : ℝ × ℝ} (h : VOff c S a' a) (g : VOff c T b' b) (hc' : c ≤ 1000) :
    VOff (c + 2) (S + T) (a' + b') (a + b) := by
  have e := eps_pos
  have n1 := h.norm_le hc'
  have n2 := g.norm_le hc'
  refine ⟨?_, (norm_add_le _ _).trans (add_le_add h.2 g.2)⟩
  have h1 := fv_add a' b'
  have h2 : ‖fv a' + fv b'‖ ≤ 2 * (S + T) := (norm_add_le _ _).trans (by linarith)
  have h3 : fv (a' + b') - (a + b) = (fv (a' + b') - (fv a' + fv b')) + ((fv a' - a) + (fv b' - b)) := by abel
  rw [h3]
  refine (norm_add_le _ _).trans ((add_le_add (h1.trans (mul_le_mul_of_nonneg_left h2 e.le)) ((norm_add_le _ _).trans (add_le_add h.1 g.1))).trans_eq ?_)
  ring

theorem VOff.sc {c S : ℝ} {a' : Fl × Fl} {a : ℝ × ℝ} (h : VOff c S a' a) (hc' : c ≤ 1000) {d : Fl} (hd : 0 ≤ d.val) :
    VOff (c + 2) (d.val * S) (sc d a') (d.val • a) := by
  have e := eps_pos
  have n1 := h.norm_le hc'
  have hn : ∀ x : ℝ × ℝ, ‖d.val • x‖ = d.val * ‖x‖ := fun x => by rw [norm_smul, Real.norm_eq_abs, abs_of_nonneg hd]
  refine ⟨?_, by rw [hn]; exact mul_le_mul_of_nonneg_left h.2 hd⟩
  have h1 := fv_sc d a'
  rw [hn] at h1
  have h3 : fv (Oneka.sc d a') - d.val • a = (fv (Oneka.sc d a') - d.val • fv a') + d.val • (fv a' - a) := by rw [smul_sub]; abel
  rw [h3]
  refine (norm_add_le _ _).trans ?_
  rw [hn]
  have h4 := mul_le_mul_of_nonneg_left h.1 hd
  have h5 := mul_le_mul_of_nonneg_left n1 hd
  have h6 := mul_le_mul_of_nonneg_left h5 e.le
  linarith

section
variable [LibM]

theorem scq_off (q : ℚ) (c : ℝ) (hq : |(q : ℝ)| = c) {k : Fl × Fl} {B : ℝ} (h : ‖fv k‖ ≤ B) : VOff 3 (c * B) (scq q k) ((q : ℝ) • fv k) := by
  have e := eps_pos; have e' := eps_small
  have c0 : 0 ≤ c := hq ▸ abs_nonneg _
  have b0 : 0 ≤ B := (norm_nonneg _).trans h
  have hr : |round53 (q : ℝ) - q| ≤ eps * c := hq ▸ round53_accurate (q : ℝ)
  have ha : |round53 (q : ℝ)| ≤ 2 * c := by
    have := abs_sub_abs_le_abs_sub (round53 (q : ℝ)) q
    rw [hq] at this
    nlinarith
  refine ⟨?_, by rw [norm_smul, Real.norm_eq_abs, hq]; exact mul_le_mul_of_nonneg_left h c0⟩
  have h1 := fv_sc (PyMath.q q) k
  rw [q_val, norm_smul, Real.norm_eq_abs] at h1
  have h3 : fv (scq q k) - (q : ℝ) • fv k = (fv (scq q k) - round53 (q : ℝ) • fv k) + (round53 (q : ℝ) - q) • fv k := by rw [sub_smul]; abel
  rw [h3]
  refine (norm_add_le _ _).trans ?_
  rw [norm_smul, Real.norm_eq_abs]
  have a1 : |round53 (q : ℝ)| * ‖fv k‖ ≤ 2 * c * B := mul_le_mul ha h (norm_nonneg _) (by positivity)
  have a2 : |round53 (q : ℝ) - q| * ‖fv k‖ ≤ eps * c * B := mul_le_mul hr h (norm_nonneg _) (by positivity)
  have a3 := mul_le_mul_of_nonneg_left a1 e.le
  have : ‖fv (scq q k) - round53 (q : ℝ) • fv k‖ ≤ eps * (2 * c * B) := h1.trans a3
  linarith

/-- a further term of a linear combination -/
theorem VOff.more {c S : ℝ} {a' : Fl × Fl} {a : ℝ × ℝ} (h : VOff c S a' a) (q : ℚ) (r : ℝ) (hq : |(q : ℝ)| = r) {k : Fl × Fl} {B : ℝ} (hk : ‖fv k‖ ≤ B)
    (h3 : 3 ≤ c) (hc : c ≤ 1000) : VOff (c + 2) (S + r * B) (a' + scq q k) (a + (q : ℝ) • fv k) :=
  h.add ((scq_off q r hq hk).weaken (by norm_num) h3 le_rfl) hc

omit [LibM] in
/-- A position that is computed. -/
theorem position_off {p w' : Fl × Fl} {w : ℝ × ℝ} {S : ℝ} {d : Fl} (hd : 0 ≤ d.val) (h : VOff 13 S w' w) :
    ‖fv (p + sc d w') - (fv p + d.val • w)‖ ≤ eps * (‖fv p‖ + 17 * (d.val * S)) := by
  have e := eps_pos
  have h1 := h.sc (by norm_num) hd
  have n1 := h1.norm_le (by norm_num)
  have h2 := fv_add p (sc d w')
  have h3 : fv (p + sc d w') - (fv p + d.val • w) = (fv (p + sc d w') - (fv p + fv (sc d w'))) + (fv (sc d w') - d.val • w) := by abel
  rw [h3]
  refine (norm_add_le _ _).trans ?_
  have h4 : eps * ‖fv p + fv (sc d w')‖ ≤ eps * (‖fv p‖ + 2 * (d.val * S)) :=
    mul_le_mul_of_nonneg_left ((norm_add_le _ _).trans (by linarith)) e.le
  have h5 := h1.1
  linarith

variable {fe : ℕ → Fl × Fl → Except PyErr (Fl × Fl)} {f : ℝ × ℝ → ℝ × ℝ} {U : Set (ℝ × ℝ)} {L ν η : ℝ}

/-- the velocity at a stage -/
theorem stage_near_fl {p w' k : Fl × Fl} {w : ℝ × ℝ} {d : Fl} {c G : ℝ} {n : ℕ} (hL : 0 ≤ L) (hd : 0 ≤ d.val) (hz : d.val * L ≤ 1/100) (hc : 0 ≤ c) (hc25 : c ≤ 25)
    (hfe : Approximates fe f U ν) (hlip : ∀ a ∈ U, ∀ b ∈ U, ‖f a - f b‖ ≤ L * ‖a - b‖) (hG : ‖f (fv p)‖ + (ν + L * η) ≤ G)
    (hball : ∀ q, ‖q - fv p‖ ≤ 25 * (d.val * G) + η → q ∈ U) (hη : eps * (‖fv p‖ + 425 * (d.val * G)) ≤ η)
    (hν : 0 ≤ ν) (hη0 : 0 ≤ η) (hw : VOff 13 (c * G) w' w) (hk : fe n (p + sc d w') = .ok k) :
    ‖fv k - f (fv p)‖ ≤ c * (d.val * L * G) + (ν + L * η) ∧ ‖fv k‖ ≤ (1 + c / 100) * G := by
  have e := eps_pos
  have g0 : 0 ≤ G := le_trans (by have := norm_nonneg (f (fv p)); positivity) hG
  have h1 := position_off (p := p) hd hw
  have h2 : ‖fv (p + sc d w') - (fv p + d.val • w)‖ ≤ η := by
    refine h1.trans (le_trans (mul_le_mul_of_nonneg_left ?_ e.le) hη)
    have : d.val * (c * G) ≤ d.val * (25 * G) := mul_le_mul_of_nonneg_left (mul_le_mul_of_nonneg_right hc25 g0) hd
    linarith
  have h3 : ‖fv (p + sc d w') - fv p‖ ≤ c * (d.val * G) + η := by
    have e1 : fv (p + sc d w') - fv p = (fv (p + sc d w') - (fv p + d.val • w)) + d.val • w := by abel
    rw [e1]
    refine (norm_add_le _ _).trans ?_
    rw [norm_smul, Real.norm_eq_abs, abs_of_nonneg hd]
    have := mul_le_mul_of_nonneg_left hw.2 hd
    linarith
  have hpU : fv p ∈ U := hball _ (by rw [sub_self, norm_zero]; positivity)
  have hqU : fv (p + sc d w') ∈ U := hball _ (h3.trans (by have := mul_le_mul_of_nonneg_right hc25 (mul_nonneg hd g0); linarith))
  have h4 := hfe n _ k hqU hk
  have h5 := (hlip _ hqU _ hpU).trans (mul_le_mul_of_nonneg_left h3 hL)
  have h6 : ‖fv k - f (fv p)‖ ≤ c * (d.val * L * G) + (ν + L * η) := by
    have e1 : fv k - f (fv p) = (fv k - f (fv (p + sc d w'))) + (f (fv (p + sc d w')) - f (fv p)) := by abel
    rw [e1]
    refine (norm_add_le _ _).trans ?_
    linarith
  refine ⟨h6, ?_⟩
  have h7 : ‖fv k‖ ≤ ‖fv k - f (fv p)‖ + ‖f (fv p)‖ := by
    have := norm_add_le (fv k - f (fv p)) (f (fv p))
    rwa [sub_add_cancel] at this
  have h8 : d.val * L * G ≤ 1/100 * G := mul_le_mul_of_nonneg_right hz g0
  have h9 := mul_le_mul_of_nonneg_left h8 hc
  linarith

/-- A short step is almost straight. -/
theorem trial_near_fl {p k1 xyt k7 : Fl × Fl} {d est ds : Fl} {G : ℝ} {n : ℕ} (hL : 0 ≤ L) (hd : 0 ≤ d.val) (hz : d.val * L ≤ 1/100)
    (hfe : Approximates fe f U ν) (hlip : ∀ a ∈ U, ∀ b ∈ U, ‖f a - f b‖ ≤ L * ‖a - b‖) (hG : ‖f (fv p)‖ + (ν + L * η) ≤ G)
    (hball : ∀ q, ‖q - fv p‖ ≤ 25 * (d.val * G) + η → q ∈ U) (hη : eps * (‖fv p‖ + 425 * (d.val * G)) ≤ η)
    (hν : 0 ≤ ν) (hη0 : 0 ≤ η) (hk1 : ‖fv k1 - f (fv p)‖ ≤ ν) (ht : trial fe n p k1 d = .ok (xyt, k7, est, ds)) :
    ‖fv xyt - (fv p + d.val • f (fv p))‖ ≤ 17 * (d.val * L * (d.val * G)) + 2 * (d.val * (ν + L * η)) + η ∧ fv xyt ∈ U ∧ ‖fv k7 - f (fv xyt)‖ ≤ ν := by
  obtain ⟨k2, k3, k4, k5, k6, h2, h3, h4, h5, h6, hx, h7, he, hds⟩ := trial_evals ht
  have e := eps_pos
  have hLη : 0 ≤ L * η := mul_nonneg hL hη0
  have g0 : 0 ≤ G := le_trans (by have := norm_nonneg (f (fv p)); positivity) hG
  have near : ∀ {c : ℝ} {w' k : Fl × Fl} {w : ℝ × ℝ} {n : ℕ}, 0 ≤ c → c ≤ 25 → VOff 13 (c * G) w' w → fe n (p + sc d w') = .ok k →
      ‖fv k - f (fv p)‖ ≤ c * (d.val * L * G) + (ν + L * η) ∧ ‖fv k‖ ≤ (1 + c / 100) * G :=
    fun a b c d => stage_near_fl hL hd hz a b hfe hlip hG hball hη hν hη0 c d
  have b1 : ‖fv k1‖ ≤ 1 * G := by
    have := norm_add_le (fv k1 - f (fv p)) (f (fv p))
    rw [sub_add_cancel] at this
    linarith
  obtain ⟨d2, b2⟩ := near (c := 1/5) (by norm_num) (by norm_num) ((scq_off (1/5) (1/5) (by norm_num) b1).weaken (by norm_num) (by norm_num) (by linarith)) h2
  obtain ⟨d3, b3⟩ := near (c := 301/1000) (by norm_num) (by norm_num)
    (((scq_off (3/40) (3/40) (by norm_num) b1).more (9/40) (9/40) (by norm_num) b2 (by norm_num) (by norm_num)).weaken (by norm_num) (by norm_num) (by linarith)) h3
  obtain ⟨d4, b4⟩ := near (c := 829/100) (by norm_num) (by norm_num)
    ((((scq_off (44/45) (44/45) (by norm_num) b1).more (-56/15) (56/15) (by norm_num) b2 (by norm_num) (by norm_num)).more (32/9) (32/9) (by norm_num) b3
      (by norm_num) (by norm_num)).weaken (by norm_num) (by norm_num) (by linarith)) h4
  obtain ⟨d5, b5⟩ := near (c := 99/4) (by norm_num) (by norm_num)
    (((((scq_off (19372/6561) (19372/6561) (by norm_num) b1).more (-25360/2187) (25360/2187) (by norm_num) b2 (by norm_num) (by norm_num)).more (64448/6561) (64448/6561) (by norm_num) b3
      (by norm_num) (by norm_num)).more (-212/729) (212/729) (by norm_num) b4 (by norm_num) (by norm_num)).weaken (by norm_num) (by norm_num) (by linarith)) h5
  obtain ⟨d6, b6⟩ := near (c := 2321/100) (by norm_num) (by norm_num)
    ((((((scq_off (9017/3168) (9017/3168) (by norm_num) b1).more (-355/33) (355/33) (by norm_num) b2 (by norm_num) (by norm_num)).more (46732/5247) (46732/5247) (by norm_num) b3
      (by norm_num) (by norm_num)).more (49/176) (49/176) (by norm_num) b4 (by norm_num) (by norm_num)).more (-5103/18656) (5103/18656) (by norm_num) b5
      (by norm_num) (by norm_num)).weaken (by norm_num) (by norm_num) (by linarith)) h6
  have hw : VOff 13 (2 * G) (scq (35/384) k1 + scq (500/1113) k3 + scq (125/192) k4 + scq (-2187/6784) k5 + scq (11/84) k6)
      (((35/384 : ℚ) : ℝ) • fv k1 + ((500/1113 : ℚ) : ℝ) • fv k3 + ((125/192 : ℚ) : ℝ) • fv k4 + ((-2187/6784 : ℚ) : ℝ) • fv k5 + ((11/84 : ℚ) : ℝ) • fv k6) :=
    ((((((scq_off (35/384) (35/384) (by norm_num) b1).more (500/1113) (500/1113) (by norm_num) b3 (by norm_num) (by norm_num)).more (125/192) (125/192) (by norm_num) b4
      (by norm_num) (by norm_num)).more (-2187/6784) (2187/6784) (by norm_num) b5 (by norm_num) (by norm_num)).more (11/84) (11/84) (by norm_num) b6
      (by norm_num) (by norm_num)).weaken (by norm_num) (by norm_num) (by linarith))
  have hpos := position_off (p := p) hd hw
  rw [← hx] at hpos
  have hη' : eps * (‖fv p‖ + 17 * (d.val * (2 * G))) ≤ η := by
    refine le_trans (mul_le_mul_of_nonneg_left ?_ e.le) hη
    have := mul_nonneg hd g0
    linarith
  replace hpos := hpos.trans hη'
  set w := (((35/384 : ℚ) : ℝ) • fv k1 + ((500/1113 : ℚ) : ℝ) • fv k3 + ((125/192 : ℚ) : ℝ) • fv k4 + ((-2187/6784 : ℚ) : ℝ) • fv k5 + ((11/84 : ℚ) : ℝ) • fv k6) with hwd
  have hs : ‖w - f (fv p)‖ ≤ 17 * (d.val * L * G) + 2 * (ν + L * η) := by
    set F := f (fv p)
    have e1 : w - F = ((35/384 : ℚ) : ℝ) • (fv k1 - F) + ((500/1113 : ℚ) : ℝ) • (fv k3 - F) + ((125/192 : ℚ) : ℝ) • (fv k4 - F) +
        ((-2187/6784 : ℚ) : ℝ) • (fv k5 - F) + ((11/84 : ℚ) : ℝ) • (fv k6 - F) := by
      rw [hwd]; push_cast; module
    rw [e1]
    refine (norm_add_le _ _).trans ((add_le_add_left norm_add₄_le _).trans ?_)
    have sm : ∀ (q : ℚ) (c : ℝ), |(q : ℝ)| = c → ∀ {v : ℝ × ℝ} {B : ℝ}, ‖v‖ ≤ B → ‖(q : ℝ) • v‖ ≤ c * B := by
      intro q c hq v B hv
      rw [norm_smul, Real.norm_eq_abs, hq]
      exact mul_le_mul_of_nonneg_left hv (hq ▸ abs_nonneg _)
    have := sm (35/384) (35/384) (by norm_num) hk1
    have := sm (500/1113) (500/1113) (by norm_num) d3
    have := sm (125/192) (125/192) (by norm_num) d4
    have := sm (-2187/6784) (2187/6784) (by norm_num) d5
    have := sm (11/84) (11/84) (by norm_num) d6
    have : 0 ≤ d.val * L * G := by positivity
    linarith
  have main : ‖fv xyt - (fv p + d.val • f (fv p))‖ ≤ 17 * (d.val * L * (d.val * G)) + 2 * (d.val * (ν + L * η)) + η := by
    have e1 : fv xyt - (fv p + d.val • f (fv p)) = (fv xyt - (fv p + d.val • w)) + d.val • (w - f (fv p)) := by rw [smul_sub]; abel
    rw [e1]
    refine (norm_add_le _ _).trans ?_
    rw [norm_smul, Real.norm_eq_abs, abs_of_nonneg hd]
    have := mul_le_mul_of_nonneg_left hs hd
    linarith
  have hxU : fv xyt ∈ U := by
    refine hball _ ?_
    have e1 : fv xyt - fv p = (fv xyt - (fv p + d.val • w)) + d.val • w := by abel
    rw [e1]
    refine (norm_add_le _ _).trans ?_
    rw [norm_smul, Real.norm_eq_abs, abs_of_nonneg hd]
    have := mul_le_mul_of_nonneg_left hw.2 hd
    have := mul_nonneg hd g0
    linarith
  exact ⟨main, hxU, hfe _ _ _ hxU h7⟩

end
end Oneka
