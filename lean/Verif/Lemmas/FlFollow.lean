import Verif.Lemmas.FlTerminate

/-! # Floating-point traces of velocities that do not vanish -/

namespace Oneka
section
variable [LibM]
variable {fe fe' : ℕ → Fl × Fl → Except PyErr (Fl × Fl)} {f : ℝ × ℝ → ℝ × ℝ} {U : Set (ℝ × ℝ)} {L ν η : ℝ}

omit [LibM] in
/-- the place of a stage -/
theorem stage_mem_fl {p w' : Fl × Fl} {w : ℝ × ℝ} {d : Fl} {c G : ℝ} (hd : 0 ≤ d.val) (hc25 : c ≤ 25) (g0 : 0 ≤ G)
    (hball : ∀ q, ‖q - fv p‖ ≤ 25 * (d.val * G) + η → q ∈ U) (hη : eps * (‖fv p‖ + 425 * (d.val * G)) ≤ η) (hw : VOff 13 (c * G) w' w) : fv (p + sc d w') ∈ U := by
  have e := eps_pos
  have h1 := position_off (p := p) hd hw
  have hcc : d.val * (c * G) ≤ d.val * (25 * G) := mul_le_mul_of_nonneg_left (mul_le_mul_of_nonneg_right hc25 g0) hd
  have h2 : ‖fv (p + sc d w') - (fv p + d.val • w)‖ ≤ η := by
    refine h1.trans (le_trans (mul_le_mul_of_nonneg_left ?_ e.le) hη)
    linarith
  refine hball _ ?_
  have e1 : fv (p + sc d w') - fv p = (fv (p + sc d w') - (fv p + d.val • w)) + d.val • w := by abel
  rw [e1]
  refine (norm_add_le _ _).trans ?_
  rw [norm_smul, Real.norm_eq_abs, abs_of_nonneg hd]
  have := mul_le_mul_of_nonneg_left hw.2 hd
  linarith

/-- A short step evaluates the velocity in `U` only. -/
theorem trial_total_fl {p k1 : Fl × Fl} {d : Fl} {G : ℝ} {n : ℕ} (hL : 0 ≤ L) (hd : 0 ≤ d.val) (hz : d.val * L ≤ 1/100)
    (hfe : Approximates fe f U ν) (hlip : ∀ a ∈ U, ∀ b ∈ U, ‖f a - f b‖ ≤ L * ‖a - b‖) (hG : ‖f (fv p)‖ + (ν + L * η) ≤ G)
    (hball : ∀ q, ‖q - fv p‖ ≤ 25 * (d.val * G) + η → q ∈ U) (hη : eps * (‖fv p‖ + 425 * (d.val * G)) ≤ η)
    (hν : 0 ≤ ν) (hη0 : 0 ≤ η) (hk1 : ‖fv k1 - f (fv p)‖ ≤ ν) (agree : ∀ n q, fv q ∈ U → fe' n q = fe n q) (tot : ∀ n q, fv q ∈ U → ∃ v, fe n q = .ok v) :
    trial fe' n p k1 d = trial fe n p k1 d ∧ ∃ x, trial fe n p k1 d = .ok x := by
  have hLη : 0 ≤ L * η := mul_nonneg hL hη0
  have g0 : 0 ≤ G := le_trans (by have := norm_nonneg (f (fv p)); positivity) hG
  have near : ∀ {c : ℝ} {w' : Fl × Fl} {w : ℝ × ℝ} (n : ℕ), 0 ≤ c → c ≤ 25 → VOff 13 (c * G) w' w →
      ∃ k, fe n (p + sc d w') = .ok k ∧ fe' n (p + sc d w') = .ok k ∧ ‖fv k‖ ≤ (1 + c / 100) * G := by
    intro c w' w n a b h
    have hm := stage_mem_fl hd b g0 hball hη h
    obtain ⟨k, hk⟩ := tot n _ hm
    exact ⟨k, hk, (agree n _ hm).trans hk, (stage_near_fl hL hd hz a b hfe hlip hG hball hη hν hη0 h hk).2⟩
  have b1 : ‖fv k1‖ ≤ 1 * G := by
    have := norm_add_le (fv k1 - f (fv p)) (f (fv p))
    rw [sub_add_cancel] at this
    linarith
  obtain ⟨k2, h2, g2, b2⟩ := near (c := 1/5) n (by norm_num) (by norm_num) ((scq_off (1/5) (1/5) (by norm_num) b1).weaken (by norm_num) (by norm_num) (by linarith))
  obtain ⟨k3, h3, g3, b3⟩ := near (c := 301/1000) (n+1) (by norm_num) (by norm_num)
    (((scq_off (3/40) (3/40) (by norm_num) b1).more (9/40) (9/40) (by norm_num) b2 (by norm_num) (by norm_num)).weaken (by norm_num) (by norm_num) (by linarith))
  obtain ⟨k4, h4, g4, b4⟩ := near (c := 829/100) (n+2) (by norm_num) (by norm_num)
    ((((scq_off (44/45) (44/45) (by norm_num) b1).more (-56/15) (56/15) (by norm_num) b2 (by norm_num) (by norm_num)).more (32/9) (32/9) (by norm_num) b3
      (by norm_num) (by norm_num)).weaken (by norm_num) (by norm_num) (by linarith))
  obtain ⟨k5, h5, g5, b5⟩ := near (c := 99/4) (n+3) (by norm_num) (by norm_num)
    (((((scq_off (19372/6561) (19372/6561) (by norm_num) b1).more (-25360/2187) (25360/2187) (by norm_num) b2 (by norm_num) (by norm_num)).more (64448/6561) (64448/6561) (by norm_num) b3
      (by norm_num) (by norm_num)).more (-212/729) (212/729) (by norm_num) b4 (by norm_num) (by norm_num)).weaken (by norm_num) (by norm_num) (by linarith))
  obtain ⟨k6, h6, g6, b6⟩ := near (c := 2321/100) (n+4) (by norm_num) (by norm_num)
    ((((((scq_off (9017/3168) (9017/3168) (by norm_num) b1).more (-355/33) (355/33) (by norm_num) b2 (by norm_num) (by norm_num)).more (46732/5247) (46732/5247) (by norm_num) b3
      (by norm_num) (by norm_num)).more (49/176) (49/176) (by norm_num) b4 (by norm_num) (by norm_num)).more (-5103/18656) (5103/18656) (by norm_num) b5
      (by norm_num) (by norm_num)).weaken (by norm_num) (by norm_num) (by linarith))
  obtain ⟨k7, h7, g7, b7⟩ := near (c := 2) (n+5) (by norm_num) (by norm_num)
    ((((((scq_off (35/384) (35/384) (by norm_num) b1).more (500/1113) (500/1113) (by norm_num) b3 (by norm_num) (by norm_num)).more (125/192) (125/192) (by norm_num) b4
      (by norm_num) (by norm_num)).more (-2187/6784) (2187/6784) (by norm_num) b5 (by norm_num) (by norm_num)).more (11/84) (11/84) (by norm_num) b6
      (by norm_num) (by norm_num)).weaken (by norm_num) (by norm_num) (by linarith))
  unfold trial
  simp only [h2, h3, h4, h5, h6, h7, g2, g3, g4, g5, g6, g7, bind, Except.bind, pure, Except.pure]
  exact ⟨trivial, _, rfl⟩

variable {X : ℝ → ℝ × ℝ} {start : ℝ × ℝ} {T M H ρ m' m R μ : ℝ} {N : ℕ}

omit [LibM] in
/-- there is room for a step -/
theorem AccurateFl.room (A : AccurateFl fe f X start T L M H ρ m' m R ν η μ N) {t : ℝ} {d : Fl} {p : Fl × Fl} {k : ℕ} (hk : k ≤ N) (t0 : 0 ≤ t) (tT : t ≤ T)
    (hd : 0 ≤ d.val) (hH : d.val ≤ H) (hp : ‖fv p - X t‖ ≤ errBound L m' η μ k t) :
    fv p ∈ Tube X T ρ ∧ d.val * L ≤ 1/100 ∧ (∀ q, ‖q - fv p‖ ≤ 25 * (d.val * (‖f (fv p)‖ + μ)) + η → q ∈ Tube X T ρ) ∧
      eps * (‖fv p‖ + 425 * (d.val * (‖f (fv p)‖ + μ))) ≤ η := by
  have hL := A.L0
  have μ0 := A.μ0
  have η0 := A.η0
  have m'0 := A.m'0
  have e := eps_pos
  have hB := errBound_mono hL.le m'0 η0 μ0 t0 tT hk
  have hHM : 0 ≤ H * (M + μ) := mul_nonneg A.H0 (add_nonneg A.M0 μ0)
  have hfit := A.fits
  have hpU : fv p ∈ Tube X T ρ := ⟨t, t0, tT, by linarith⟩
  have hMp := A.tame.bound _ hpU
  have hν := norm_nonneg (f (fv p))
  have hdG : d.val * (‖f (fv p)‖ + μ) ≤ H * (M + μ) := mul_le_mul hH (by linarith) (by positivity) A.H0
  refine ⟨hpU, ?_, ?_, ?_⟩
  · have := mul_le_mul_of_nonneg_left hH hL.le
    linarith [A.z]
  · intro q hq
    refine ⟨t, t0, tT, ?_⟩
    have h2 : ‖q - X t‖ ≤ ‖q - fv p‖ + ‖fv p - X t‖ := by
      have := norm_add_le (q - fv p) (fv p - X t)
      rwa [sub_add_sub_cancel] at this
    linarith
  · rw [A.hη]
    refine mul_le_mul_of_nonneg_left ?_ e.le
    have h1 : ‖fv p‖ ≤ ‖fv p - X t‖ + ‖X t‖ := by
      have := norm_add_le (fv p - X t) (X t)
      rwa [sub_add_cancel] at this
    have h2 := A.hR t t0 tT
    have h3 := errBound_nonneg (k := N) hL.le m'0 η0 μ0 (t0.trans tT)
    linarith

/-- the length of a step, from below -/
theorem AccurateFl.ds_low (A : AccurateFl fe f X start T L M H ρ m' m R ν η μ N) {t : ℝ} {d est ds : Fl} {p k1 xyt k7 : Fl × Fl} {n k : ℕ} (hk : k ≤ N) (t0 : 0 ≤ t) (tT : t ≤ T)
    (hd : 0 ≤ d.val) (hH : d.val ≤ H) (hk1 : ‖fv k1 - f (fv p)‖ ≤ ν) (hp : ‖fv p - X t‖ ≤ errBound L m' η μ k t)
    (ht : trial fe n p k1 d = .ok (xyt, k7, est, ds)) : 99/100 * (83/100 * (d.val * ‖f (fv p)‖) - 3 * (d.val * μ) - η) ≤ ds.val := by
  obtain ⟨hpU, hz, hball, hη⟩ := A.room hk t0 tT hd hH hp
  have μ0 := A.μ0
  obtain ⟨near, -, -⟩ := trial_near_fl A.L0.le hd hz A.approx A.tame.lip (by rw [← A.hμ]) hball hη A.ν0 A.η0 hk1 ht
  rw [← A.hμ] at near
  obtain ⟨_, _, _, _, _, -, -, -, -, -, -, -, -, hds⟩ := trial_evals ht
  have hlow := ds_ge_fl xyt p
  rw [← hds] at hlow
  have hn := norm_nonneg (fv xyt - fv p)
  have e := eps_pos; have e' := eps_small
  have h99 : 99/100 * ‖fv xyt - fv p‖ ≤ ds.val := by
    refine le_trans (mul_le_mul_of_nonneg_right ?_ hn) hlow
    have : (1 - eps) ^ 3 - (1 - 3 * eps) = eps ^ 2 * (3 - eps) := by ring
    have : 0 ≤ eps ^ 2 * (3 - eps) := mul_nonneg (sq_nonneg _) (by linarith)
    linarith
  have hx : ‖d.val • f (fv p)‖ = d.val * ‖f (fv p)‖ := by rw [norm_smul, Real.norm_eq_abs, abs_of_nonneg hd]
  have h1 : ‖d.val • f (fv p)‖ ≤ ‖fv xyt - fv p‖ + ‖fv xyt - (fv p + d.val • f (fv p))‖ := by
    have := norm_sub_le (fv xyt - fv p) (fv xyt - (fv p + d.val • f (fv p)))
    rwa [show fv xyt - fv p - (fv xyt - (fv p + d.val • f (fv p))) = d.val • f (fv p) by abel] at this
  rw [hx] at h1
  have h2 : d.val * L * (d.val * (‖f (fv p)‖ + μ)) ≤ 1/100 * (d.val * (‖f (fv p)‖ + μ)) :=
    mul_le_mul_of_nonneg_right hz (by have := norm_nonneg (f (fv p)); positivity)
  have h3 : 0 ≤ d.val * μ := mul_nonneg hd μ0
  linarith

theorem next_short {tol maxstep est ds h : Fl} {H : ℝ} (hpow : PowPositive) (ht : 0 < tol.val) (hm : 0 < maxstep.val) (he : 0 ≤ est.val) (hd : 0 ≤ ds.val) (hh : 0 ≤ h.val) (hH : h.val ≤ H)
    (hlow : H / 10 < h.val → 96/100 * (h.val * maxstep.val) ≤ ds.val * H) : (nextDt tol maxstep est ds h).val ≤ H := by
  obtain ⟨-, a⟩ := nextDt_fl_between hpow ht hm he hd hh rfl
  have e0 := EPS_fl_pos
  rcases le_or_gt h.val (H / 10) with h1 | h1
  · have : min (min (LibM.root5 (tol / (est + EPS))).val (maxstep / (ds + EPS)).val) 10 ≤ 10 := min_le_right _ _
    have := mul_le_mul_of_nonneg_right this hh
    linarith
  · have hlow := hlow h1
    have hh0 : 0 < h.val := by linarith [hh.trans hH]
    have hH0 : 0 < H := hh0.trans_le hH
    have hds : 0 < ds.val := by
      have : 0 < ds.val * H := lt_of_lt_of_le (by positivity) hlow
      exact pos_of_mul_pos_left this hH0.le
    have h2 : (maxstep / (ds + EPS)).val ≤ 1001/1000 * (maxstep.val / ds.val) := by
      rw [Fl.div_val, Fl.add_val]
      have k1 : ds.val ≤ round53 (ds.val + (EPS : Fl).val) := by
        conv_lhs => rw [← ds.isFloat]
        exact round53_mono (by linarith)
      refine (round53_up (div_nonneg hm.le (hds.le.trans k1))).trans ?_
      exact mul_le_mul_of_nonneg_left (div_le_div_of_nonneg_left hm.le hds k1) (by norm_num)
    have h3 : min (min (LibM.root5 (tol / (est + EPS))).val (maxstep / (ds + EPS)).val) 10 ≤ 1001/1000 * (maxstep.val / ds.val) :=
      (min_le_left _ _).trans ((min_le_right _ _).trans h2)
    have h4 := mul_le_mul_of_nonneg_right h3 hh
    have h5 : maxstep.val / ds.val * h.val ≤ 100/96 * H := by
      rw [div_mul_eq_mul_div, div_le_iff₀ hds]
      linarith
    linarith

theorem tfuel_congr' {c c' : TCfg Fl} (I : TState Fl → Prop) (hstep : ∀ s s', I s → titer c s = .inr s' → I s') (heq : ∀ s, I s → titer c' s = titer c s)
    (k : ℕ) (s : TState Fl) (hs : I s) : tfuel c' k s = tfuel c k s := by
  induction k generalizing s with
  | zero => rfl
  | succ k ih =>
    simp only [tfuel]
    rw [heq s hs]
    cases h : titer c s with
    | inl r => rfl
    | inr s' => exact ih s' (hstep s s' hs h)

/-- what holds along a trace with short steps -/
structure FollowsFl (f : ℝ × ℝ → ℝ × ℝ) (X : ℝ → ℝ × ℝ) (D : Fl) (L H ν η μ m' m M' S d : ℝ) (s : TState Fl) : Prop where
  time : OnTime D s
  going : Going D.val m M' S d s
  dtH : s.dt.val ≤ H
  all : ∀ st ∈ s.ss, st.dt.val ≤ H
  k1 : ‖fv s.k1 - f (fv s.xy)‖ ≤ ν
  near : ‖fv s.xy - X (timeOf s.ss)‖ ≤ errBound L m' η μ s.ss.length (timeOf s.ss)

/-- the whole setting -/
structure FastFl (fe : ℕ → Fl × Fl → Except PyErr (Fl × Fl)) (f : ℝ × ℝ → ℝ × ℝ) (X : ℝ → ℝ × ℝ) (start : ℝ × ℝ) (D tol maxstep : Fl)
    (T L M H ρ m' R ν η μ M' S δ d : ℝ) (N : ℕ) : Prop where
  acc : AccurateFl fe f X start T L M H ρ m' maxstep.val R ν η μ N
  bdd : Bounded fe D.val tol.val maxstep.val M' S δ d
  T' : D.val * (1 + (N + 1) * (2 * eps)) ≤ T
  N' : ∀ n : ℕ, (n : ℝ) * (d / 2) ≤ D.val + d / 2 → n ≤ N
  H' : 11/100 ≤ H
  fast : ∀ q ∈ Tube X T ρ, 6/5 * maxstep.val ≤ H * ‖f q‖
  fine : 3 * (H * μ) + 10 * η ≤ maxstep.val / 100

variable {D tol maxstep : Fl} {p : Fl × Fl} {M' S δ d : ℝ}

omit [LibM] in
theorem timeOf_le {s : TState Fl} (hD : 0 < D.val) (hT : D.val * (1 + (N + 1) * (2 * eps)) ≤ T) (I : OnTime D s) (hN : s.ss.length ≤ N) : timeOf s.ss ≤ T := by
  refine (I.time hD).trans (le_trans ?_ hT)
  have : ((s.ss.length : ℕ) : ℝ) ≤ N := by exact_mod_cast hN
  have e := eps_pos
  exact mul_le_mul_of_nonneg_left (by nlinarith) hD.le

theorem FastFl.next (hroot : RootAccurate) (A : FastFl fe f X start D tol maxstep T L M H ρ m' R ν η μ M' S δ d N) {s s' : TState Fl}
    (I : FollowsFl f X D L H ν η μ m' maxstep.val M' S d s) (hp : Pass ⟨D, tol, maxstep, fe⟩ s (.inr s')) : FollowsFl f X D L H ν η μ m' maxstep.val M' S d s' := by
  have hD := A.bdd.D0
  have ht0 := A.bdd.tol0
  have hm0 := A.bdd.m0
  have time' := I.time.pass hroot.pos (c := ⟨D, tol, maxstep, fe⟩) hD ht0 hm0 hp
  have going' := A.bdd.keep hroot I.going hp
  have hN := A.N' _ I.going.total
  have hN' := A.N' _ going'.total
  have t0 := timeOf_nonneg I.time.pos
  have tT := timeOf_le hD A.T' I.time hN
  have tT' := timeOf_le hD A.T' time' hN'
  cases hp with
  | accept hlt xyt k2 est ds he h1 h2 =>
    simp only at he h1 h2
    have hlt := A.bdd.lt I.going hlt
    obtain ⟨c1, c2, c3⟩ := clip_fl hD I.time.t0 hlt I.time.h0
    have hH := (clip_le_fl hD I.time.t0 I.time.h0).trans I.dtH
    obtain ⟨e1, e2⟩ := trial_nonneg_fl he
    simp only [List.length_append, List.length_cons, List.length_nil, zero_add] at hN'
    simp only at tT'
    rw [timeOf_snoc] at tT'
    obtain ⟨a2, a3⟩ := A.acc.step hN t0 c1.le hH tT' I.k1 I.near he
    rw [Fl.lt_iff] at h2
    refine ⟨time', going', ?_, ?_, a2, ?_⟩
    · refine next_short hroot.pos ht0 hm0 e1 e2 c1.le hH fun hbig => ?_
      have hlow := A.acc.ds_low hN t0 tT c1.le hH I.k1 I.near he
      obtain ⟨hpU, -, -, -⟩ := A.acc.room hN t0 tT c1.le hH I.near
      have hf := A.fast _ hpU
      have hfine := A.fine
      have H0 : 0 < H := lt_of_lt_of_le (by norm_num) A.H'
      set c := clipDt D s.t s.dt
      have k1 := mul_le_mul_of_nonneg_left hf c1.le
      have k2 := mul_le_mul_of_nonneg_left hfine c1.le
      have k3 : H * η ≤ 10 * c.val * η := mul_le_mul_of_nonneg_right (by linarith) A.acc.η0
      have k4 := mul_le_mul_of_nonneg_right hlow H0.le
      have k5 := mul_nonneg c1.le hm0.le
      change 96/100 * (c.val * maxstep.val) ≤ ds.val * H
      nlinarith
    · intro st hst
      rcases List.mem_append.mp hst with hst | hst
      · exact I.all st hst
      · obtain rfl := List.mem_singleton.mp hst
        exact hH
    · simp only [List.length_append, List.length_cons, List.length_nil, zero_add]
      rw [timeOf_snoc]
      exact a3 h2
  | reject hlt xyt k2 est ds he h1 =>
    simp only at he h1
    have hlt := A.bdd.lt I.going hlt
    obtain ⟨c1, c2, c3⟩ := clip_fl hD I.time.t0 hlt I.time.h0
    have hH := (clip_le_fl hD I.time.t0 I.time.h0).trans I.dtH
    obtain ⟨e1, e2⟩ := trial_nonneg_fl he
    refine ⟨time', going', ?_, I.all, I.k1, I.near⟩
    have := nextDt_fl_reject (h := clipDt D s.t s.dt) hroot ht0 hm0 e1 e2 c1.le (by rw [← Fl.lt_iff, ← Fl.lt_iff]; exact h1)
    simp only
    linarith

theorem FastFl.first (A : FastFl fe f X start D tol maxstep T L M H ρ m' R ν η μ M' S δ d N) {p k1 : Fl × Fl} (hp : fv p = start) (hS : ‖fv p‖ ≤ S)
    (hk : fe 0 p = .ok k1) : FollowsFl f X D L H ν η μ m' maxstep.val M' S d ⟨PyMath.q 0, PyMath.q (1/10) * PyMath.sign D, p, k1, 1, [p], []⟩ := by
  have hD := A.bdd.D0
  have hT0 : 0 ≤ T := le_trans (by have := eps_pos; positivity) A.T'
  refine ⟨OnTime.start hD _ _ _, A.bdd.start (A.bdd.bound _ _ _ hk) hS, ?_, by simp, ?_, ?_⟩
  · simp only
    rw [Fl.mul_val, sign_pos_val hD, q_val, mul_one, round53_idem]
    have := round53_up (x := ((1/10 : ℚ) : ℝ)) (by norm_num)
    refine le_trans ?_ A.H'
    push_cast at this ⊢
    linarith
  · refine A.acc.approx _ _ _ ⟨0, le_rfl, hT0, ?_⟩ hk
    rw [A.acc.path.1, hp, sub_self, norm_zero]
    have := errBound_nonneg (k := N) A.acc.L0.le A.acc.m'0 A.acc.η0 A.acc.μ0 hT0
    have := A.acc.fits
    have := mul_nonneg A.acc.H0 (add_nonneg A.acc.M0 A.acc.μ0)
    linarith [A.acc.η0]
  · simp [timeOf, A.acc.path.1, errBound, hp]

/-- a trial step near the pathline -/
theorem FastFl.trial (A : FastFl fe f X start D tol maxstep T L M H ρ m' R ν η μ M' S δ d N) (agree : ∀ n q, fv q ∈ Tube X T ρ → fe' n q = fe n q)
    (tot : ∀ n q, fv q ∈ Tube X T ρ → ∃ v, fe n q = .ok v) {s : TState Fl} (I : FollowsFl f X D L H ν η μ m' maxstep.val M' S d s) (hlt : s.t.val < D.val) :
    Oneka.trial fe' s.n s.xy s.k1 (clipDt D s.t s.dt) = Oneka.trial fe s.n s.xy s.k1 (clipDt D s.t s.dt) ∧
      ∃ x, Oneka.trial fe s.n s.xy s.k1 (clipDt D s.t s.dt) = .ok x := by
  have hD := A.bdd.D0
  have hN := A.N' _ I.going.total
  have t0 := timeOf_nonneg I.time.pos
  have tT := timeOf_le hD A.T' I.time hN
  obtain ⟨c1, c2, c3⟩ := clip_fl hD I.time.t0 hlt I.time.h0
  have hH := (clip_le_fl hD I.time.t0 I.time.h0).trans I.dtH
  obtain ⟨hpU, hz, hball, hη⟩ := A.acc.room hN t0 tT c1.le hH I.near
  exact trial_total_fl A.acc.L0.le c1.le hz A.acc.approx A.acc.tame.lip (by rw [← A.acc.hμ]) hball hη A.acc.ν0 A.acc.η0 I.k1 agree tot

/-- The trace of a program that is only known near the pathline. -/
theorem FastFl.returns (hroot : RootAccurate) (A : FastFl fe f X (fv p) D tol maxstep T L M H ρ m' R ν η μ M' S δ d N) (hS : ‖fv p‖ ≤ S)
    (agree : ∀ n q, fv q ∈ Tube X T ρ → fe' n q = fe n q) (tot : ∀ n q, fv q ∈ Tube X T ρ → ∃ v, fe n q = .ok v) :
    ∃ r, computeBacktrace p.1 p.2 D tol maxstep fe' = some r ∧ r.warning = none ∧ r.steps.length ≤ N ∧ ∀ st ∈ r.steps, st.dt.val ≤ H := by
  have hT0 : 0 ≤ T := le_trans (by have := eps_pos; have := A.bdd.D0; positivity) A.T'
  have hst : fv p ∈ Tube X T ρ := by
    refine ⟨0, le_rfl, hT0, ?_⟩
    rw [A.acc.path.1, sub_self, norm_zero]
    have := errBound_nonneg (k := N) A.acc.L0.le A.acc.m'0 A.acc.η0 A.acc.μ0 hT0
    have := A.acc.fits
    have := mul_nonneg A.acc.H0 (add_nonneg A.acc.M0 A.acc.μ0)
    linarith [A.acc.η0]
  obtain ⟨k1, hk⟩ := tot 0 p hst
  have hk' : fe' 0 p = .ok k1 := (agree 0 p hst).trans hk
  obtain ⟨r, hr, -⟩ := returns_fl hroot A.bdd (xs := p.1) (ys := p.2) hS
  have props : r.warning = none ∧ r.steps.length ≤ N ∧ ∀ st ∈ r.steps, st.dt.val ≤ H := by
    refine backtrace_inv (FollowsFl f X D L H ν η μ m' maxstep.val M' S d) (fun r => r.warning = none ∧ r.steps.length ≤ N ∧ ∀ st ∈ r.steps, st.dt.val ≤ H) ?_ ?_ ?_ ?_ hr
    · intro e he
      exact absurd (he.symm.trans hk) (by simp)
    · intro k1 hk; exact A.first rfl hS hk
    · intro s s' I hp; exact A.next hroot I hp
    · intro s r I hp
      cases hp with
      | done hd => exact ⟨rfl, A.N' _ I.going.total, I.all⟩
      | error hlt e he =>
        obtain ⟨-, x, hx⟩ := A.trial (fe' := fe) (fun _ _ _ => rfl) tot I (A.bdd.lt I.going hlt)
        exact absurd (he.symm.trans hx) (by simp)
  refine ⟨r, ?_, props⟩
  rw [computeBacktrace_ok _ _ _ _ _ _ _ hk] at hr
  rw [computeBacktrace_ok _ _ _ _ _ _ _ hk']
  obtain ⟨k, hr⟩ := (tloop_eq_some _ _ _).mp hr
  refine (tloop_eq_some _ _ _).mpr ⟨k, ?_⟩
  rw [← hr]
  refine tfuel_congr' (FollowsFl f X D L H ν η μ m' maxstep.val M' S d) (fun s s' hs e => A.next hroot hs (pass_of_titer e)) ?_ k _ (A.first rfl hS hk)
  intro s I
  by_cases hlt : PyMath.abs s.t < PyMath.abs D
  · have e1 := (A.trial agree tot I (A.bdd.lt I.going hlt)).1
    unfold titer
    simp only
    rw [e1]
  · unfold titer
    rw [if_neg hlt, if_neg hlt]

end
end Oneka
