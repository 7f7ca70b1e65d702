import Verif.Lemmas.Terminate

/-!
# The tracing loop refines adaptive integration; the growth of the step size
-/

namespace Oneka

theorem nextDt_proposal (f : ℝ × ℝ → ℝ × ℝ) (tol maxstep h : ℝ) (p : ℝ × ℝ) :
    nextDt tol maxstep (localError f h p) (euclid p (rkStep f dpA dp5 h p)) h = proposal f tol maxstep h p := by
  have e : (EPS : ℝ) = 2 ^ (-52 : ℤ) := by rw [EPS_real]; norm_num
  rw [nextDt_eq, e]
  rfl

theorem clipDt_shortened (D t h : ℝ) : clipDt D t h = shortened D t h := rfl

/-- a pass of the loop for a steady velocity -/
theorem titer_steady (f : ℝ × ℝ → ℝ × ℝ) (tol maxstep D : ℝ) (s : TState ℝ) (hk : s.k1 = f s.xy) :
    titer ⟨D, tol, maxstep, steady f⟩ s =
      if |s.t| < |D| then
        if localError f (shortened D s.t s.dt) s.xy < tol ∧ euclid s.xy (rkStep f dpA dp5 (shortened D s.t s.dt) s.xy) < maxstep then
          .inr ⟨s.t + shortened D s.t s.dt, proposal f tol maxstep (shortened D s.t s.dt) s.xy, rkStep f dpA dp5 (shortened D s.t s.dt) s.xy,
            f (rkStep f dpA dp5 (shortened D s.t s.dt) s.xy), s.n + 6, s.vs ++ [rkStep f dpA dp5 (shortened D s.t s.dt) s.xy],
            s.ss ++ [⟨s.t, shortened D s.t s.dt, localError f (shortened D s.t s.dt) s.xy, rkStep f dpA dp5 (shortened D s.t s.dt) s.xy⟩]⟩
        else .inr ⟨s.t, proposal f tol maxstep (shortened D s.t s.dt) s.xy, s.xy, s.k1, s.n + 6, s.vs, s.ss⟩
      else .inl ⟨s.vs, s.ss, none⟩ := by
  have htr : trial (steady f) s.n s.xy (f s.xy) (shortened D s.t s.dt) = .ok (rkStep f dpA dp5 (shortened D s.t s.dt) s.xy,
      f (rkStep f dpA dp5 (shortened D s.t s.dt) s.xy), localError f (shortened D s.t s.dt) s.xy,
      euclid s.xy (rkStep f dpA dp5 (shortened D s.t s.dt) s.xy)) := trial_real f s.n s.xy _
  unfold titer
  simp only [PyMath.abs_real]
  split_ifs with h1 h2
  · rw [hk, clipDt_shortened, htr]
    simp only
    rw [if_pos h2, nextDt_proposal]
  · rw [hk, clipDt_shortened, htr]
    simp only
    rw [if_neg h2, nextDt_proposal]
  · rfl

theorem tfuel_adaptive (f : ℝ × ℝ → ℝ × ℝ) (tol maxstep D : ℝ) (k : ℕ) (s : TState ℝ) (hk : s.k1 = f s.xy) (r : Trace ℝ)
    (h : tfuel ⟨D, tol, maxstep, steady f⟩ k s = some r) :
    ∃ path, Adaptive f tol maxstep D s.t s.dt s.xy path ∧ r.vertices = s.vs ++ path.map Prod.snd := by
  induction k generalizing s with
  | zero => simp [tfuel] at h
  | succ k ih =>
    simp only [tfuel] at h
    rw [titer_steady f tol maxstep D s hk] at h
    by_cases h1 : |s.t| < |D|
    · rw [if_pos h1] at h
      by_cases h2 : localError f (shortened D s.t s.dt) s.xy < tol ∧ euclid s.xy (rkStep f dpA dp5 (shortened D s.t s.dt) s.xy) < maxstep
      · rw [if_pos h2] at h
        obtain ⟨path, p1, p2⟩ := ih _ rfl h
        exact ⟨_ :: path, .accept _ _ _ _ _ _ h1 rfl rfl h2.1 h2.2 p1, by simpa using p2⟩
      · rw [if_neg h2] at h
        obtain ⟨path, p1, p2⟩ := ih ⟨s.t, proposal f tol maxstep (shortened D s.t s.dt) s.xy, s.xy, s.k1, s.n + 6, s.vs, s.ss⟩ hk h
        exact ⟨path, .retry _ _ _ _ _ h1 rfl h2 p1, p2⟩
    · rw [if_neg h1] at h
      obtain rfl := Option.some.inj h
      exact ⟨[], .finish _ _ _ (not_lt.mp h1), by simp⟩

theorem adaptive_tloop (f : ℝ × ℝ → ℝ × ℝ) (tol maxstep D t h : ℝ) (p : ℝ × ℝ) (path : List (ℝ × (ℝ × ℝ)))
    (ha : Adaptive f tol maxstep D t h p path) (n : ℕ) (vs : List (ℝ × ℝ)) (ss : List (Accepted ℝ)) :
    ∃ r, tloop ⟨D, tol, maxstep, steady f⟩ ⟨t, h, p, f p, n, vs, ss⟩ = some r ∧ r.vertices = vs ++ path.map Prod.snd := by
  induction ha generalizing n vs ss with
  | finish t h p h1 =>
    rw [tloop_unfold, titer_steady _ _ _ _ _ rfl, if_neg (not_lt.mpr h1)]
    exact ⟨_, rfl, by simp⟩
  | accept t h h' p q path h1 h2 h3 h4 h5 _ ih =>
    rw [tloop_unfold, titer_steady _ _ _ _ _ rfl, if_pos h1]
    subst h2 h3
    simp only [h4, h5, and_self, if_true]
    obtain ⟨r, r1, r2⟩ := ih (n + 6) (vs ++ [rkStep f dpA dp5 (shortened D t h) p])
      (ss ++ [⟨t, shortened D t h, localError f (shortened D t h) p, rkStep f dpA dp5 (shortened D t h) p⟩])
    exact ⟨r, r1, by simpa using r2⟩
  | retry t h h' p path h1 h2 h3 _ ih =>
    rw [tloop_unfold, titer_steady _ _ _ _ _ rfl, if_pos h1]
    subst h2
    simp only [if_neg h3]
    exact ih (n + 6) vs ss

/-! ## Growth -/

theorem nextDt_growth {tol maxstep est ds h : ℝ} (hh : 0 ≤ h) : nextDt tol maxstep est ds h ≤ 9 * h := by
  rw [nextDt_eq]
  have : min (min ((tol / (est + EPS)) ^ ((1:ℝ)/5)) (maxstep / (ds + EPS))) 10 ≤ 10 := min_le_right _ _
  nlinarith

theorem growth_pos {xs ys D tol maxstep : ℝ} (hD : 0 < D) (htol : 0 < tol) (hmax : 0 < maxstep) {fe : FEval} {r : Trace ℝ}
    (h : computeBacktrace xs ys D tol maxstep fe = some r) (hw : r.warning = none) : 80 * D + 1 ≤ 9 ^ r.steps.length := by
  refine backtrace_inv (fun s => 0 ≤ s.t ∧ s.t ≤ D ∧ 0 < s.dt ∧ 80 * s.t + 1 ≤ 9 ^ s.ss.length ∧ s.dt ≤ 9 ^ s.ss.length / 10)
    (fun r => r.warning = none → 80 * D + 1 ≤ 9 ^ r.steps.length) (fun _ _ hw => by simp at hw) ?_ ?_ ?_ h hw
  · intro k1 _
    simp only [PyMath.q_real, PyMath.sign_real, Real.sign_of_pos hD]
    norm_num
    exact hD.le
  · intro s s' ⟨i1, i2, i3, i4, i5⟩ hp
    have clip : 0 ≤ clipDt D s.t s.dt ∧ clipDt D s.t s.dt ≤ s.dt ∧ s.t + clipDt D s.t s.dt ≤ D ∧ (s.t < D → 0 < clipDt D s.t s.dt) := by
      unfold clipDt
      simp only [PyMath.abs_real, abs_of_pos hD, abs_of_nonneg (by linarith : 0 ≤ s.t + s.dt)]
      split_ifs with hc <;> refine ⟨by linarith, by linarith, by linarith, fun _ => by linarith⟩
    obtain ⟨c1, c2, c3, c4⟩ := clip
    cases hp with
    | accept hlt xyt k2 est ds he h1 h2 =>
      obtain ⟨e1, e2⟩ := trial_nonneg he
      rw [PyMath.abs_real, PyMath.abs_real, abs_of_nonneg i1, abs_of_pos hD] at hlt
      refine ⟨by simp only; linarith, c3, nextDt_pos htol hmax e1 e2 (c4 hlt), ?_, ?_⟩
      · simp only [List.length_append, List.length_singleton, pow_succ]
        linarith
      · simp only [List.length_append, List.length_singleton, pow_succ]
        have := nextDt_growth (tol := tol) (maxstep := maxstep) (est := est) (ds := ds) c1
        linarith
    | reject hlt xyt k2 est ds he h1 =>
      obtain ⟨e1, e2⟩ := trial_nonneg he
      rw [PyMath.abs_real, PyMath.abs_real, abs_of_nonneg i1, abs_of_pos hD] at hlt
      refine ⟨i1, i2, nextDt_pos htol hmax e1 e2 (c4 hlt), i4, ?_⟩
      have := nextDt_reject htol hmax e1 e2 c1 h1
      simp only
      linarith
  · intro s r ⟨i1, i2, i3, i4, i5⟩ hp hw
    cases hp with
    | done hd =>
      rw [PyMath.abs_real, PyMath.abs_real, abs_of_nonneg i1, abs_of_pos hD, not_lt] at hd
      simp only
      linarith
    | error => simp at hw

/-! ## Steps -/

theorem shortened_scaled {D τ η : ℝ} (hD : D ≠ 0) (h0 : 0 ≤ τ) (h1 : τ < 1) (hη : 0 < η) :
    ∃ η', shortened D (τ * D) (η * D) = η' * D ∧ 0 < η' ∧ η' ≤ η ∧ τ + η' ≤ 1 := by
  have hp : 0 < |D| := abs_pos.mpr hD
  unfold shortened
  split_ifs with h
  · rw [← add_mul, abs_mul, abs_of_pos (by linarith : 0 < τ + η)] at h
    have : 1 < τ + η := by
      by_contra hc
      nlinarith
    exact ⟨1 - τ, by ring, by linarith, by linarith, by linarith⟩
  · rw [← add_mul, abs_mul, abs_of_pos (by linarith : 0 < τ + η)] at h
    refine ⟨η, rfl, hη, le_rfl, ?_⟩
    by_contra hc
    exact h (by nlinarith)

theorem proposal_control (f : ℝ × ℝ → ℝ × ℝ) (tol maxstep h : ℝ) (p : ℝ × ℝ) (htol : 0 < tol) (hmax : 0 < maxstep) :
    (∃ c, 0 < c ∧ c ≤ 9 ∧ proposal f tol maxstep h p = c * h) ∧
    (¬ (localError f h p < tol ∧ euclid p (rkStep f dpA dp5 h p) < maxstep) → ∃ c, 0 < c ∧ c ≤ 9/10 ∧ proposal f tol maxstep h p = c * h) := by
  have l0 : 0 ≤ localError f h p := le_max_of_le_left (abs_nonneg _)
  have e0 : 0 ≤ euclid p (rkStep f dpA dp5 h p) := Real.sqrt_nonneg _
  have key : proposal f tol maxstep h p = nextDt tol maxstep (localError f h p) (euclid p (rkStep f dpA dp5 h p)) 1 * h := by
    rw [← nextDt_proposal, nextDt_eq, nextDt_eq]; ring
  refine ⟨⟨_, nextDt_pos htol hmax l0 e0 one_pos, ?_, key⟩, fun hr => ⟨_, nextDt_pos htol hmax l0 e0 one_pos, ?_, key⟩⟩
  · simpa using nextDt_growth (tol := tol) (maxstep := maxstep) (est := localError f h p) (ds := euclid p (rkStep f dpA dp5 h p)) zero_le_one
  · simpa using nextDt_reject htol hmax l0 e0 zero_le_one hr

theorem adaptive_steps {f : ℝ × ℝ → ℝ × ℝ} {tol maxstep D t h : ℝ} {p : ℝ × ℝ} {path : List (ℝ × (ℝ × ℝ))} (hD : D ≠ 0) (htol : 0 < tol) (hmax : 0 < maxstep)
    (ha : Adaptive f tol maxstep D t h p path) : ∀ τ η, t = τ * D → h = η * D → 0 ≤ τ → τ ≤ 1 → 0 < η →
    (∀ x ∈ path.map Prod.fst, 0 < x * D) ∧ t + (path.map Prod.fst).sum = D ∧ (∀ x, (path.map Prod.fst).head? = some x → |x| ≤ |h|) ∧
    (path.map Prod.fst).IsChain (fun a b => |b| ≤ 9 * |a|) ∧
    ∀ (k : ℕ) (a b : ℝ × ℝ) (x : ℝ), (p :: path.map Prod.snd)[k]? = some a → (p :: path.map Prod.snd)[k+1]? = some b → (path.map Prod.fst)[k]? = some x →
      b = rkStep f dpA dp5 x a ∧ localError f x a < tol ∧ euclid a b < maxstep := by
  have hp : 0 < |D| := abs_pos.mpr hD
  have lt1 : ∀ τ, 0 ≤ τ → |τ * D| < |D| → τ < 1 := by
    intro τ h0 h
    rw [abs_mul, abs_of_nonneg h0] at h
    by_contra hc
    nlinarith
  induction ha with
  | finish t h p h1 =>
    rintro τ η rfl rfl h0 h2 hη
    rw [abs_mul, abs_of_nonneg h0] at h1
    obtain rfl : τ = 1 := le_antisymm h2 (by by_contra hc; nlinarith)
    simp
  | accept t h h' p q path h1 h2 h3 h4 h5 _ ih =>
    rintro τ η rfl rfl h0 h6 hη
    obtain ⟨η', e, e1, e2, e3⟩ := shortened_scaled hD h0 (lt1 τ h0 h1) hη
    rw [e] at h2
    obtain ⟨c, c0, c9, ec⟩ := (proposal_control f tol maxstep h' p htol hmax).1
    obtain ⟨i1, i2, i3, i4, i5⟩ := ih (τ + η') (c * η') (by rw [h2]; ring) (by rw [ec, h2]; ring) (by linarith) e3 (by positivity)
    refine ⟨?_, ?_, ?_, ?_, ?_⟩
    · intro x hx
      rcases List.mem_cons.mp hx with hx | hx
      · rw [hx]
        show 0 < h' * D
        rw [h2, mul_assoc]
        exact mul_pos e1 (mul_self_pos.mpr hD)
      · exact i1 x hx
    · simp only [List.map_cons, List.sum_cons]
      linarith
    · intro x hx
      obtain rfl : h' = x := by simpa using hx
      rw [h2, abs_mul, abs_mul, abs_of_pos e1, abs_of_pos hη]
      exact mul_le_mul_of_nonneg_right e2 hp.le
    · rw [List.map_cons, List.isChain_cons]
      refine ⟨?_, i4⟩
      intro y hy
      have := i3 y hy
      rw [ec, abs_mul, abs_of_pos c0] at this
      nlinarith [abs_nonneg h']
    · intro k a b x ha hb hx
      cases k with
      | zero =>
        obtain rfl : p = a := by simpa using ha
        obtain rfl : q = b := by simpa using hb
        obtain rfl : h' = x := by simpa using hx
        exact ⟨h3, h4, h5⟩
      | succ k => exact i5 k a b x (by simpa using ha) (by simpa using hb) (by simpa using hx)
  | retry t h h' p path h1 h2 h3 _ ih =>
    rintro τ η rfl rfl h0 h6 hη
    obtain ⟨η', e, e1, e2, e3⟩ := shortened_scaled hD h0 (lt1 τ h0 h1) hη
    rw [e] at h2
    obtain ⟨c, c0, c9, ec⟩ := (proposal_control f tol maxstep h' p htol hmax).2 h3
    obtain ⟨i1, i2, i3, i4, i5⟩ := ih τ (c * η') rfl (by rw [ec, h2]; ring) h0 h6 (by positivity)
    refine ⟨i1, i2, fun x hx => (i3 x hx).trans ?_, i4, i5⟩
    rw [ec, h2, ← mul_assoc, abs_mul, abs_mul η, abs_of_pos (mul_pos c0 e1), abs_of_pos hη]
    exact mul_le_mul_of_nonneg_right (by nlinarith) hp.le

end Oneka
