import Verif.Lemmas.TraceInv
import Mathlib.Analysis.Normed.Group.Constructions
import Mathlib.Analysis.Normed.Module.Basic
import Mathlib.Analysis.SpecialFunctions.Exp

/-! Termination of the tracer when the velocity grows at most linearly. -/

set_option linter.unusedSectionVars false

namespace Oneka

/-- growth bound -/
def GrowthBound (fe : FEval) (M L : ℝ) : Prop := ∀ n p v, fe n p = .ok v → ‖v‖ ≤ M + L * ‖p‖

theorem normInf_eq (v : ℝ × ℝ) : normInf v = ‖v‖ := by
  simp [normInf, Prod.norm_def]

theorem norm2_le (v : ℝ × ℝ) : norm2 v ≤ 2 * ‖v‖ := by
  have h1 : |v.1| ≤ ‖v‖ := norm_fst_le v
  have h2 : |v.2| ≤ ‖v‖ := norm_snd_le v
  have h0 : 0 ≤ ‖v‖ := norm_nonneg v
  simp only [norm2, PyMath.sqrt_real]
  refine Real.sqrt_le_iff.mpr ⟨by linarith, ?_⟩
  have a1 := abs_le.mp h1
  have a2 := abs_le.mp h2
  nlinarith [sq_abs v.1, sq_abs v.2, abs_nonneg v.1, abs_nonneg v.2, mul_self_nonneg (‖v‖), mul_le_mul h1 h1 (abs_nonneg _) h0, mul_le_mul h2 h2 (abs_nonneg _) h0]

/-- A linear combination of vectors of norm at most `B`. -/
theorem norm_sm_le {q : ℚ} {v : ℝ × ℝ} {B : ℝ} (h : ‖v‖ ≤ B) : ‖scq q v‖ ≤ |(q : ℝ)| * B := by
  rw [scq_real, norm_smul, Real.norm_eq_abs]
  exact mul_le_mul_of_nonneg_left h (abs_nonneg _)

theorem scq_le_pos (q : ℚ) (c : ℝ) (hq : |(q : ℝ)| = c) {v : ℝ × ℝ} {B : ℝ} (h : ‖v‖ ≤ B) : ‖scq q v‖ ≤ c * B :=
  hq ▸ norm_sm_le h

theorem growth_shift {fe : FEval} {M L D dt B V : ℝ} (hg : GrowthBound fe M L) (hL : 0 ≤ L) (hdt : |dt| ≤ D)
    {n : ℕ} {xy w v : ℝ × ℝ} (hV : M + L * ‖xy‖ ≤ V) (hw : ‖w‖ ≤ 25 * B) (h : fe n (xy + sc dt w) = .ok v) :
    ‖v‖ ≤ V + 25 * L * D * B := by
  have h1 := hg n _ v h
  have h2 : ‖xy + sc dt w‖ ≤ ‖xy‖ + |dt| * ‖w‖ := by
    refine (norm_add_le _ _).trans ?_
    rw [sc_real, norm_smul, Real.norm_eq_abs]
  have h3 : |dt| * ‖w‖ ≤ D * (25 * B) := mul_le_mul hdt hw (norm_nonneg _) ((abs_nonneg _).trans hdt)
  have h4 := mul_le_mul_of_nonneg_left (h2.trans (add_le_add_right h3 _)) hL
  nlinarith

/-- Bounds for one trial. `V` bounds the velocity at the current point. -/
theorem trial_bounds {fe : FEval} {M L D dt V : ℝ} (hg : GrowthBound fe M L) (hL : 0 ≤ L) (hD : 0 ≤ D) (hdt : |dt| ≤ D)
    {n : ℕ} {xy k1 xyt k7 : ℝ × ℝ} {est ds : ℝ} (hV : M + L * ‖xy‖ ≤ V) (hk1 : ‖k1‖ ≤ V)
    (h : trial fe n xy k1 dt = .ok (xyt, k7, est, ds)) :
    est ≤ (1 + 25 * L * D) ^ 6 * V * |dt| ∧ ds ≤ 50 * ((1 + 25 * L * D) ^ 6 * V) * |dt| ∧
      ‖xyt‖ ≤ ‖xy‖ + 25 * ((1 + 25 * L * D) ^ 6 * V) * |dt| := by
  obtain ⟨k2, k3, k4, k5, k6, h2, h3, h4, h5, h6, hx, h7, he, hd⟩ := trial_evals h
  set g := 25 * L * D with hgdef
  have hg0 : 0 ≤ g := by positivity
  have hV0 : 0 ≤ V := (norm_nonneg _).trans hk1
  have one : 1 ≤ 1 + g := by linarith
  have mono : ∀ i, (1 + g) ^ i * V ≤ (1 + g) ^ (i+1) * V := fun i =>
    mul_le_mul_of_nonneg_right (pow_le_pow_right₀ one (Nat.le_succ i)) hV0
  have grow : ∀ i, V + g * ((1 + g) ^ i * V) ≤ (1 + g) ^ (i+1) * V := by
    intro i
    have : 1 ≤ (1 + g) ^ i := one_le_pow₀ one
    have e : (1 + g) ^ (i+1) * V = (1 + g) ^ i * V + g * ((1 + g) ^ i * V) := by ring
    rw [e]
    nlinarith
  have pos : ∀ i, 0 ≤ (1 + g) ^ i * V := fun i => by positivity
  -- stage bounds
  have b1 : ‖k1‖ ≤ (1+g)^0 * V := by simpa using hk1
  have b2 : ‖k2‖ ≤ (1+g)^1 * V := by
    refine (growth_shift hg hL hdt hV (B := (1+g)^0 * V) ?_ h2).trans (grow 0)
    have := scq_le_pos (1/5) (1/5) (by norm_num) b1
    have := pos 0
    linarith
  have b1' := b1.trans (mono 0)
  have b3 : ‖k3‖ ≤ (1+g)^2 * V := by
    refine (growth_shift hg hL hdt hV (B := (1+g)^1 * V) ?_ h3).trans (grow 1)
    refine (norm_add_le _ _).trans ?_
    have := scq_le_pos (3/40) (3/40) (by norm_num) b1'
    have := scq_le_pos (9/40) (9/40) (by norm_num) b2
    have := pos 1
    linarith
  have b1'' := b1'.trans (mono 1)
  have b2'' := b2.trans (mono 1)
  have b4 : ‖k4‖ ≤ (1+g)^3 * V := by
    refine (growth_shift hg hL hdt hV (B := (1+g)^2 * V) ?_ h4).trans (grow 2)
    refine (norm_add₃_le).trans ?_
    have := scq_le_pos (44/45) (44/45) (by norm_num) b1''
    have := scq_le_pos (-56/15) (56/15) (by norm_num) b2''
    have := scq_le_pos (32/9) (32/9) (by norm_num) b3
    have := pos 2
    linarith
  have c1 := b1''.trans (mono 2)
  have c2 := b2''.trans (mono 2)
  have c3 := b3.trans (mono 2)
  have b5 : ‖k5‖ ≤ (1+g)^4 * V := by
    refine (growth_shift hg hL hdt hV (B := (1+g)^3 * V) ?_ h5).trans (grow 3)
    refine (norm_add₄_le).trans ?_
    have := scq_le_pos (19372/6561) (19372/6561) (by norm_num) c1
    have := scq_le_pos (-25360/2187) (25360/2187) (by norm_num) c2
    have := scq_le_pos (64448/6561) (64448/6561) (by norm_num) c3
    have := scq_le_pos (-212/729) (212/729) (by norm_num) b4
    have := pos 3
    linarith
  have d1 := c1.trans (mono 3)
  have d2 := c2.trans (mono 3)
  have d3 := c3.trans (mono 3)
  have d4 := b4.trans (mono 3)
  have b6 : ‖k6‖ ≤ (1+g)^5 * V := by
    refine (growth_shift hg hL hdt hV (B := (1+g)^4 * V) ?_ h6).trans (grow 4)
    refine (norm_add_le _ _).trans ((add_le_add_left norm_add₄_le _).trans ?_)
    have := scq_le_pos (9017/3168) (9017/3168) (by norm_num) d1
    have := scq_le_pos (-355/33) (355/33) (by norm_num) d2
    have := scq_le_pos (46732/5247) (46732/5247) (by norm_num) d3
    have := scq_le_pos (49/176) (49/176) (by norm_num) d4
    have := scq_le_pos (-5103/18656) (5103/18656) (by norm_num) b5
    have := pos 4
    linarith
  have e1 := d1.trans (mono 4)
  have e3 := d3.trans (mono 4)
  have e4 := d4.trans (mono 4)
  have e5 := b5.trans (mono 4)
  have hw : ‖scq (35/384) k1 + scq (500/1113) k3 + scq (125/192) k4 + scq (-2187/6784) k5 + scq (11/84) k6‖
      ≤ 25 * ((1+g)^5 * V) := by
    refine (norm_add_le _ _).trans ((add_le_add_left norm_add₄_le _).trans ?_)
    have := scq_le_pos (35/384) (35/384) (by norm_num) e1
    have := scq_le_pos (500/1113) (500/1113) (by norm_num) e3
    have := scq_le_pos (125/192) (125/192) (by norm_num) e4
    have := scq_le_pos (-2187/6784) (2187/6784) (by norm_num) e5
    have := scq_le_pos (11/84) (11/84) (by norm_num) b6
    have := pos 5
    linarith
  have b7 : ‖k7‖ ≤ (1+g)^6 * V := by
    rw [hx] at h7
    exact (growth_shift hg hL hdt hV (B := (1+g)^5 * V) hw h7).trans (grow 5)
  have f1 := e1.trans (mono 5)
  have f3 := e3.trans (mono 5)
  have f4 := e4.trans (mono 5)
  have f5 := e5.trans (mono 5)
  have f6 := b6.trans (mono 5)
  have hw' := hw.trans (mul_le_mul_of_nonneg_left (mono 5) (by norm_num : (0:ℝ) ≤ 25))
  have hdt0 := abs_nonneg dt
  have hmove : ‖sc dt (scq (35/384) k1 + scq (500/1113) k3 + scq (125/192) k4 + scq (-2187/6784) k5 + scq (11/84) k6)‖
      ≤ 25 * ((1+g)^6 * V) * |dt| := by
    rw [sc_real, norm_smul, Real.norm_eq_abs, mul_comm]
    exact mul_le_mul_of_nonneg_right hw' hdt0
  refine ⟨?_, ?_, ?_⟩
  · rw [he, normInf_eq, sc_real, norm_smul, Real.norm_eq_abs, mul_comm]
    refine mul_le_mul_of_nonneg_right ?_ hdt0
    refine (norm_add_le _ _).trans ((add_le_add_left (norm_add_le _ _) _).trans
      ((add_le_add_left (add_le_add_left norm_add₄_le _) _).trans ?_))
    have := scq_le_pos (71/57600) (71/57600) (by norm_num) f1
    have := scq_le_pos (-1/40) (1/40) (by norm_num) b7
    have := scq_le_pos (-71/16695) (71/16695) (by norm_num) f3
    have := scq_le_pos (71/1920) (71/1920) (by norm_num) f4
    have := scq_le_pos (-17253/339200) (17253/339200) (by norm_num) f5
    have := scq_le_pos (22/525) (22/525) (by norm_num) f6
    have := pos 6
    linarith
  · rw [hd, hx, add_sub_cancel_left]
    have := norm2_le (sc dt (scq (35/384) k1 + scq (500/1113) k3 + scq (125/192) k4 + scq (-2187/6784) k5 + scq (11/84) k6))
    linarith
  · rw [hx]
    exact (norm_add_le _ _).trans (add_le_add_right hmove _)

/-! ## Factors -/

theorem root5_ge {x : ℝ} (h : (10/9 : ℝ)^5 ≤ x) : 10/9 ≤ x ^ ((1:ℝ)/5) := by
  have h1 : ((10/9 : ℝ)^5) ^ ((1:ℝ)/5) = 10/9 := by
    rw [← Real.rpow_natCast, ← Real.rpow_mul (by norm_num)]
    norm_num
  rw [← h1]
  exact Real.rpow_le_rpow (by positivity) h (by norm_num)

theorem root5_le_one {x : ℝ} (h0 : 0 ≤ x) (h : x ≤ 1) : x ^ ((1:ℝ)/5) ≤ 1 := Real.rpow_le_one h0 h (by norm_num)

/-- Small estimates do not shrink the step. -/
theorem nextDt_ge {tol maxstep est ds h : ℝ} (he0 : 0 ≤ est) (hd0 : 0 ≤ ds) (hh : 0 ≤ h)
    (he : (10/9 : ℝ)^5 * (est + EPS) ≤ tol) (hd : 10/9 * (ds + EPS) ≤ maxstep) : h ≤ nextDt tol maxstep est ds h := by
  rw [nextDt_eq]
  have := EPS_pos
  have a : 10/9 ≤ (tol / (est + EPS)) ^ ((1:ℝ)/5) := root5_ge (by rw [le_div_iff₀ (by linarith)]; exact he)
  have b : 10/9 ≤ maxstep / (ds + EPS) := by rw [le_div_iff₀ (by linarith)]; exact hd
  have c : (10/9 : ℝ) ≤ min (min ((tol / (est + EPS)) ^ ((1:ℝ)/5)) (maxstep / (ds + EPS))) 10 :=
    le_min (le_min a b) (by norm_num)
  nlinarith

/-- The step shrinks by a bounded factor at most. -/
theorem nextDt_lower {tol maxstep est ds h E S : ℝ} (ht : 0 < tol) (hm : 0 < maxstep) (he0 : 0 ≤ est) (hd0 : 0 ≤ ds)
    (hh : 0 ≤ h) (he : est ≤ E) (hd : ds ≤ S) :
    9/10 * min (min ((tol / (E + EPS)) ^ ((1:ℝ)/5)) (maxstep / (S + EPS))) 10 * h ≤ nextDt tol maxstep est ds h := by
  rw [nextDt_eq]
  have := EPS_pos
  have hE0 : 0 ≤ E := he0.trans he
  have hS0 : 0 ≤ S := hd0.trans hd
  refine mul_le_mul_of_nonneg_right ?_ hh
  refine mul_le_mul_of_nonneg_left ?_ (by norm_num)
  refine min_le_min (min_le_min ?_ ?_) le_rfl
  · refine Real.rpow_le_rpow (by positivity) ?_ (by norm_num)
    exact div_le_div_of_nonneg_left ht.le (by positivity) (by linarith)
  · exact div_le_div_of_nonneg_left hm.le (by positivity) (by linarith)

/-- A rejected step shrinks by at least 10 %. -/
theorem nextDt_reject {tol maxstep est ds h : ℝ} (ht : 0 < tol) (hm : 0 < maxstep) (he0 : 0 ≤ est) (hd0 : 0 ≤ ds)
    (hh : 0 ≤ h) (hr : ¬ (est < tol ∧ ds < maxstep)) : nextDt tol maxstep est ds h ≤ 9/10 * h := by
  rw [nextDt_eq]
  have := EPS_pos
  have hmin : min (min ((tol / (est + EPS)) ^ ((1:ℝ)/5)) (maxstep / (ds + EPS))) 10 ≤ 1 := by
    rcases not_and_or.mp hr with h1 | h1
    · refine (min_le_left _ _).trans ((min_le_left _ _).trans ?_)
      refine root5_le_one (by positivity) ?_
      rw [div_le_one (by linarith)]
      linarith
    · refine (min_le_left _ _).trans ((min_le_right _ _).trans ?_)
      rw [div_le_one (by linarith)]
      linarith
  nlinarith

/-! ## Termination -/

theorem exp_step {G h : ℝ} : 1 + G * h ≤ Real.exp (G * h) := by
  have := Real.add_one_le_exp (G * h); linarith

/-- Each pass either advances the time by `δ1` (or ends the trace), or shrinks a step that is not yet below `δ0`. -/
theorem two_counters {c : TCfg ℝ} {D δ0 δ1 : ℝ} (hD : 0 < D) (hδ0 : 0 < δ0) (hδ1 : 0 < δ1) (hcD : c.duration = D)
    (I : TState ℝ → Prop) (h0 : ∀ s, I s → 0 ≤ s.t) (keep : ∀ s s', I s → Pass c s (.inr s') → I s')
    (prog : ∀ s s', I s → Pass c s (.inr s') →
      (s'.t = D ∨ s.t + δ1 ≤ s'.t) ∨ (s'.t = s.t ∧ δ0 < s.dt ∧ s'.dt ≤ 9/10 * s.dt))
    {s : TState ℝ} (hs : I s) : ∃ r, tloop c s = some r := by
  have main : ∀ N K : ℕ, ∀ s, I s → D - s.t ≤ N * δ1 → s.dt ≤ δ0 * (10/9)^K → ∃ r, tloop c s = some r := by
    intro N
    induction N with
    | zero =>
      intro K s hI hN _
      refine ⟨⟨s.vs, s.ss, none⟩, ?_⟩
      rw [tloop_unfold]
      have : titer c s = .inl ⟨s.vs, s.ss, none⟩ := by
        unfold titer
        rw [if_neg]
        simp only [PyMath.abs_real, hcD]
        rw [abs_of_nonneg (h0 s hI), abs_of_pos hD]
        have : D - s.t ≤ 0 := by simpa using hN
        linarith
      rw [this]
    | succ N ihN =>
      have acc : ∀ s s', I s → Pass c s (.inr s') → D - s.t ≤ (N+1 : ℕ) * δ1 → (s'.t = D ∨ s.t + δ1 ≤ s'.t) →
          ∃ r, tloop c s' = some r := by
        intro s s' hI hp hN hor
        obtain ⟨K, hK⟩ := pow_unbounded_of_one_lt (s'.dt / δ0) (by norm_num : (1:ℝ) < 10/9)
        rw [div_lt_iff₀ hδ0] at hK
        refine ihN K s' (keep s s' hI hp) ?_ (by linarith)
        rcases hor with h | h
        · rw [h, sub_self]; positivity
        · push_cast at hN; linarith
      intro K
      induction K with
      | zero =>
        intro s hI hN hK
        rw [tloop_unfold]
        cases hx : titer c s with
        | inl r => exact ⟨r, rfl⟩
        | inr s' =>
          have hp := pass_of_titer hx
          rcases prog s s' hI hp with h | ⟨_, h, _⟩
          · exact acc s s' hI hp hN h
          · simp only [pow_zero, mul_one] at hK; linarith
      | succ K ihK =>
        intro s hI hN hK
        rw [tloop_unfold]
        cases hx : titer c s with
        | inl r => exact ⟨r, rfl⟩
        | inr s' =>
          have hp := pass_of_titer hx
          rcases prog s s' hI hp with h | ⟨h1, _, h2⟩
          · exact acc s s' hI hp hN h
          · refine ihK s' (keep s s' hI hp) (by rw [h1]; exact hN) ?_
            rw [pow_succ] at hK
            linarith
  obtain ⟨N, hN⟩ := exists_nat_gt ((D - s.t) / δ1)
  obtain ⟨K, hK⟩ := pow_unbounded_of_one_lt (s.dt / δ0) (by norm_num : (1:ℝ) < 10/9)
  rw [div_lt_iff₀ hδ1] at hN
  rw [div_lt_iff₀ hδ0] at hK
  exact main N K s hs hN.le (by linarith)

set_option maxHeartbeats 800000 in
theorem terminates_pos {xs ys D tol maxstep M L : ℝ} {fe : FEval} (hD : 0 < D) (hM : 0 ≤ M) (hL : 0 ≤ L)
    (hg : GrowthBound fe M L) (htol : (10/9 : ℝ)^5 * EPS < tol) (hms : 10/9 * EPS < maxstep) :
    ∃ r, computeBacktrace xs ys D tol maxstep fe = some r := by
  have hE := EPS_pos
  have ht0 : 0 < tol := lt_trans (by positivity) htol
  have hm0 : 0 < maxstep := lt_trans (by positivity) hms
  cases hk : fe 0 (xs, ys) with
  | error e => exact ⟨_, by unfold computeBacktrace; rw [hk]⟩
  | ok k1 =>
  rw [computeBacktrace_ok _ _ _ _ _ _ _ hk]
  -- constants
  set C := (1 + 25 * L * D) ^ 6 with hC
  have hC0 : 0 < C := by positivity
  set G := 25 * L * C with hG
  have hG0 : 0 ≤ G := by positivity
  set V0 := M + L * ‖((xs, ys) : ℝ × ℝ)‖ with hV0
  have hV00 : 0 ≤ V0 := by positivity
  set W := V0 * Real.exp (G * D) with hW
  have hW0 : 0 ≤ W := by positivity
  set B := C * W + 1 with hB
  have hB0 : 0 < B := by positivity
  -- δ0
  set δ0 := min ((tol / (10/9 : ℝ)^5 - EPS) / B) ((maxstep / (10/9) - EPS) / (50 * B)) with hδ0
  have hδ0pos : 0 < δ0 := by
    refine lt_min (div_pos ?_ hB0) (div_pos ?_ (by positivity))
    · rw [sub_pos, lt_div_iff₀ (by positivity)]; linarith
    · rw [sub_pos, lt_div_iff₀ (by positivity)]; linarith
  set φ := 9/10 * min (min ((tol / (B * D + EPS)) ^ ((1:ℝ)/5)) (maxstep / (50 * B * D + EPS))) 10 with hφ
  have hφ0 : 0 < φ := by
    have a : 0 < (tol / (B * D + EPS)) ^ ((1:ℝ)/5) := Real.rpow_pos_of_pos (by positivity) _
    have b : 0 < maxstep / (50 * B * D + EPS) := by positivity
    have : 0 < min (min ((tol / (B * D + EPS)) ^ ((1:ℝ)/5)) (maxstep / (50 * B * D + EPS))) 10 :=
      lt_min (lt_min a b) (by norm_num)
    positivity
  set δ1 := min (min δ0 (φ * δ0)) (1/10) with hδ1
  have hδ1pos : 0 < δ1 := lt_min (lt_min hδ0pos (by positivity)) (by norm_num)
  set c : TCfg ℝ := ⟨D, tol, maxstep, fe⟩ with hc
  -- the invariant
  let I : TState ℝ → Prop := fun s => 0 ≤ s.t ∧ s.t ≤ D ∧ 0 < s.dt ∧ (s.t < D → δ1 ≤ s.dt) ∧
    M + L * ‖s.xy‖ ≤ V0 * Real.exp (G * s.t) ∧ ‖s.k1‖ ≤ M + L * ‖s.xy‖
  -- facts about a pass
  have facts : ∀ s xyt k2 est ds, I s → s.t < D → trial fe s.n s.xy s.k1 (clipDt D s.t s.dt) = .ok (xyt, k2, est, ds) →
      0 < clipDt D s.t s.dt ∧ est ≤ B * clipDt D s.t s.dt ∧ ds ≤ 50 * B * clipDt D s.t s.dt ∧
      M + L * ‖xyt‖ ≤ V0 * Real.exp (G * (s.t + clipDt D s.t s.dt)) ∧ ‖k2‖ ≤ M + L * ‖xyt‖ := by
    intro s xyt k2 est ds ⟨i1, i2, i3, i4, i5, i6⟩ hlt he
    have hcp := clip_pos hlt i3
    have hcl := clip_le i1 hlt i3
    have habs : |clipDt D s.t s.dt| = clipDt D s.t s.dt := abs_of_pos hcp
    obtain ⟨b1, b2, b3⟩ := trial_bounds hg hL hD.le (by rw [habs]; linarith) le_rfl i6 he
    rw [habs] at b1 b2 b3
    set h := clipDt D s.t s.dt
    set V := M + L * ‖s.xy‖ with hV
    have hVn : 0 ≤ V := by positivity
    have hVW : V ≤ W := i5.trans (mul_le_mul_of_nonneg_left (Real.exp_le_exp.mpr (mul_le_mul_of_nonneg_left i2 hG0)) hV00)
    have hCV : C * V ≤ B := by
      have := mul_le_mul_of_nonneg_left hVW hC0.le
      linarith
    refine ⟨hcp, b1.trans (mul_le_mul_of_nonneg_right hCV hcp.le), b2.trans (mul_le_mul_of_nonneg_right (by linarith) hcp.le), ?_, ?_⟩
    · have h1 : M + L * ‖xyt‖ ≤ V * (1 + G * h) := by
        have := mul_le_mul_of_nonneg_left b3 hL
        have e : V * (1 + G * h) = V + L * (25 * (C * V) * h) := by rw [hG]; ring
        rw [e]
        have e2 : L * (‖s.xy‖ + 25 * (C * V) * h) = L * ‖s.xy‖ + L * (25 * (C * V) * h) := by ring
        rw [e2] at this
        rw [hV] at *
        linarith
      have h2 : V * (1 + G * h) ≤ V * Real.exp (G * h) := mul_le_mul_of_nonneg_left exp_step hVn
      have h3 : V * Real.exp (G * h) ≤ V0 * Real.exp (G * s.t) * Real.exp (G * h) :=
        mul_le_mul_of_nonneg_right i5 (Real.exp_pos _).le
      have h4 : V0 * Real.exp (G * s.t) * Real.exp (G * h) = V0 * Real.exp (G * (s.t + h)) := by
        rw [mul_assoc, ← Real.exp_add]; ring_nf
      linarith
    · exact hg _ _ _ (trial_ds he).2
  -- small steps are accepted and do not shrink
  have small : ∀ est ds h, 0 < h → h ≤ δ0 → est ≤ B * h → ds ≤ 50 * B * h → 
      (10/9 : ℝ)^5 * (est + EPS) ≤ tol ∧ 10/9 * (ds + EPS) ≤ maxstep := by
    intro est ds h hh hle he hd
    have h1 : B * h ≤ tol / (10/9 : ℝ)^5 - EPS := by
      have := hle.trans (min_le_left _ _)
      rw [le_div_iff₀ hB0] at this; linarith
    have h2 : 50 * B * h ≤ maxstep / (10/9) - EPS := by
      have := hle.trans (min_le_right _ _)
      rw [le_div_iff₀ (by positivity)] at this; linarith
    constructor
    · have : est + EPS ≤ tol / (10/9 : ℝ)^5 := by linarith
      rw [le_div_iff₀ (by positivity)] at this; linarith
    · have : ds + EPS ≤ maxstep / (10/9) := by linarith
      rw [le_div_iff₀ (by positivity)] at this; linarith
  -- the invariant is kept
  have keep : ∀ s s', I s → Pass c s (.inr s') → I s' := by
    intro s s' hI hp
    have hI' := hI
    obtain ⟨i1, i2, i3, i4, i5, i6⟩ := hI
    have stepLower : ∀ xyt k2 est ds, s.t < D → trial fe s.n s.xy s.k1 (clipDt D s.t s.dt) = .ok (xyt, k2, est, ds) →
        clipDt D s.t s.dt = s.dt ∨ δ0 < clipDt D s.t s.dt → δ1 ≤ nextDt tol maxstep est ds (clipDt D s.t s.dt) := by
      intro xyt k2 est ds hlt he hor
      obtain ⟨f1, f2, f3, f4, f5⟩ := facts s xyt k2 est ds hI' hlt he
      obtain ⟨e1, e2⟩ := trial_nonneg he
      rcases le_or_gt (clipDt D s.t s.dt) δ0 with hle | hgt
      · obtain ⟨s1, s2⟩ := small est ds _ f1 hle f2 f3
        have := nextDt_ge e1 e2 f1.le s1 s2
        rcases hor with h | h
        · have i4' := i4 hlt
          rw [← h] at i4'
          exact i4'.trans this
        · linarith
      · have hcl := clip_le i1 hlt i3
        have hD' : clipDt D s.t s.dt ≤ D := by linarith
        have := nextDt_lower (h := clipDt D s.t s.dt) ht0 hm0 e1 e2 f1.le
          (f2.trans (mul_le_mul_of_nonneg_left hD' hB0.le))
          (f3.trans (mul_le_mul_of_nonneg_left hD' (by positivity)))
        rw [← hφ] at this
        have h2 : φ * δ0 ≤ φ * clipDt D s.t s.dt := mul_le_mul_of_nonneg_left hgt.le hφ0.le
        exact ((min_le_left _ _).trans (min_le_right _ _)).trans (h2.trans this)
    have clipCase : clipDt D s.t s.dt = s.dt ∨ clipDt D s.t s.dt = D - s.t := by
      unfold clipDt; split_ifs
      · exact Or.inr rfl
      · exact Or.inl rfl
    cases hp with
    | accept hlt xyt k2 est ds he ht hd =>
      simp only [PyMath.abs_real, hc] at hlt
      rw [abs_of_nonneg i1, abs_of_pos hD] at hlt
      obtain ⟨f1, f2, f3, f4, f5⟩ := facts s xyt k2 est ds hI' hlt he
      obtain ⟨e1, e2⟩ := trial_nonneg he
      refine ⟨?_, clip_le i1 hlt i3, nextDt_pos ht0 hm0 e1 e2 f1, ?_, f4, f5⟩
      · have : 0 < clipDt c.duration s.t s.dt := f1
        dsimp only; linarith
      · intro hlt'
        refine stepLower xyt k2 est ds hlt he (Or.inl ?_)
        rcases clipCase with h | h
        · exact h
        · exfalso
          have : s.t + clipDt D s.t s.dt < D := hlt'
          linarith
    | reject hlt xyt k2 est ds he ht =>
      simp only [PyMath.abs_real, hc] at hlt
      rw [abs_of_nonneg i1, abs_of_pos hD] at hlt
      obtain ⟨f1, f2, f3, f4, f5⟩ := facts s xyt k2 est ds hI' hlt he
      obtain ⟨e1, e2⟩ := trial_nonneg he
      refine ⟨i1, i2, nextDt_pos ht0 hm0 e1 e2 f1, ?_, i5, i6⟩
      intro _
      refine stepLower xyt k2 est ds hlt he (Or.inr ?_)
      by_contra hcon
      obtain ⟨s1, s2⟩ := small est ds _ f1 (not_lt.mp hcon) f2 f3
      refine ht ⟨?_, ?_⟩
      · have : est + EPS ≤ (10/9:ℝ)^5 * (est + EPS) := by nlinarith
        change est < tol
        linarith
      · change ds < maxstep
        linarith
  have prog : ∀ s s', I s → Pass c s (.inr s') →
      (s'.t = D ∨ s.t + δ1 ≤ s'.t) ∨ (s'.t = s.t ∧ δ0 < s.dt ∧ s'.dt ≤ 9/10 * s.dt) := by
    intro s s' hI hp
    cases hp with
    | accept hlt xyt k2 est ds he ht hd =>
      left
      simp only [PyMath.abs_real, hc] at hlt
      rw [abs_of_nonneg hI.1, abs_of_pos hD] at hlt
      change s.t + clipDt D s.t s.dt = D ∨ s.t + δ1 ≤ s.t + clipDt D s.t s.dt
      unfold clipDt
      split_ifs
      · left; ring
      · right; linarith [hI.2.2.2.1 hlt]
    | reject hlt xyt k2 est ds he ht =>
      right
      simp only [PyMath.abs_real, hc] at hlt
      rw [abs_of_nonneg hI.1, abs_of_pos hD] at hlt
      obtain ⟨f1, f2, f3, f4, f5⟩ := facts s xyt k2 est ds hI hlt he
      obtain ⟨e1, e2⟩ := trial_nonneg he
      have hcl := clip_le' hI.1 hlt hI.2.2.1
      refine ⟨rfl, ?_, ?_⟩
      · by_contra hcon
        obtain ⟨s1, s2⟩ := small est ds _ f1 (hcl.trans (not_lt.mp hcon)) f2 f3
        refine ht ⟨?_, ?_⟩
        · have : est + EPS ≤ (10/9:ℝ)^5 * (est + EPS) := by nlinarith
          change est < tol
          linarith
        · change ds < maxstep
          linarith
      · change nextDt tol maxstep est ds (clipDt D s.t s.dt) ≤ _
        have h1 := nextDt_reject (h := clipDt D s.t s.dt) ht0 hm0 e1 e2 f1.le ht
        linarith
  refine two_counters hD hδ0pos hδ1pos (c := c) rfl I (fun s h => h.1) keep prog ?_
  refine ⟨by simp, by simpa using hD.le, by simp [Real.sign_of_pos hD], ?_, ?_, hg _ _ _ hk⟩
  · intro _
    simp only [PyMath.q_real, PyMath.sign_real, Real.sign_of_pos hD]
    refine (min_le_right _ _).trans (by norm_num)
  · simp [hV0]

theorem growth_neg {fe : FEval} {M L : ℝ} (h : GrowthBound fe M L) : GrowthBound (FEval.neg fe) M L := by
  intro n p v hv
  unfold FEval.neg at hv
  cases hf : fe n p with
  | error e => rw [hf] at hv; simp [Except.map] at hv
  | ok w =>
    rw [hf] at hv
    obtain rfl : -w = v := by simpa [Except.map] using hv
    rw [norm_neg]
    exact h n p w hf

theorem terminates {xs ys D tol maxstep M L : ℝ} {fe : FEval} (hM : 0 ≤ M) (hL : 0 ≤ L)
    (hg : GrowthBound fe M L) (htol : (10/9 : ℝ)^5 * EPS < tol) (hms : 10/9 * EPS < maxstep) :
    ∃ r, computeBacktrace xs ys D tol maxstep fe = some r := by
  rcases lt_trichotomy D 0 with h | h | h
  · obtain ⟨r, hr⟩ := terminates_pos (xs := xs) (ys := ys) (by linarith : 0 < -D) hM hL (growth_neg hg) htol hms
    rw [computeBacktrace_neg] at hr
    cases hx : computeBacktrace xs ys D tol maxstep fe with
    | none => rw [hx] at hr; simp at hr
    | some r => exact ⟨r, rfl⟩
  · subst h
    cases hk : fe 0 (xs, ys) with
    | error e => exact ⟨_, by unfold computeBacktrace; rw [hk]⟩
    | ok k1 =>
      rw [computeBacktrace_ok _ _ _ _ _ _ _ hk, tloop_unfold]
      refine ⟨⟨[(xs, ys)], [], none⟩, ?_⟩
      have : ∀ s, titer (⟨0, tol, maxstep, fe⟩ : TCfg ℝ) s = .inl ⟨s.vs, s.ss, none⟩ := by
        intro s
        unfold titer
        rw [if_neg]
        simp
      rw [this]
  · exact terminates_pos h hM hL hg htol hms

end Oneka
