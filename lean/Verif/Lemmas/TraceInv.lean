import Verif.Lemmas.TraceReal

set_option linter.unusedSectionVars false

namespace Oneka

section
variable {F : Type} [Add F] [Sub F] [Mul F] [Div F] [LT F] [DecidableLT F] [PyMath F]

/-- Invariant rule for the whole call. -/
theorem backtrace_inv {xs ys duration tol maxstep : F} {feval : ℕ → F × F → Except PyErr (F × F)}
    (I : TState F → Prop) (Q : Trace F → Prop)
    (hraise : ∀ e, feval 0 (xs, ys) = .error e → Q ⟨[(xs, ys)], [], some (PyMath.q 0)⟩)
    (hinit : ∀ k1, feval 0 (xs, ys) = .ok k1 →
      I ⟨PyMath.q 0, PyMath.q (1/10) * PyMath.sign duration, (xs, ys), k1, 1, [(xs, ys)], []⟩)
    (hstep : ∀ s s', I s → Pass ⟨duration, tol, maxstep, feval⟩ s (.inr s') → I s')
    (hdone : ∀ s r, I s → Pass ⟨duration, tol, maxstep, feval⟩ s (.inl r) → Q r)
    {r : Trace F} (h : computeBacktrace xs ys duration tol maxstep feval = some r) : Q r := by
  cases hk : feval 0 (xs, ys) with
  | error e =>
    unfold computeBacktrace at h
    rw [hk] at h
    obtain rfl := Option.some.inj h
    exact hraise e hk
  | ok k1 =>
    rw [computeBacktrace_ok _ _ _ _ _ _ _ hk] at h
    exact tloop_inv I Q (fun s s' hs e => hstep s s' hs (pass_of_titer e))
      (fun s r hs e => hdone s r hs (pass_of_titer e)) (hinit k1 hk) h

theorem trace_vertices {xs ys duration tol maxstep : F} {feval : ℕ → F × F → Except PyErr (F × F)} {r : Trace F}
    (h : computeBacktrace xs ys duration tol maxstep feval = some r) :
    r.vertices = (xs, ys) :: r.steps.map Accepted.vertex := by
  refine backtrace_inv (fun s => s.vs = (xs, ys) :: s.ss.map Accepted.vertex)
    (fun r => r.vertices = (xs, ys) :: r.steps.map Accepted.vertex) (fun _ _ => rfl) (fun _ _ => rfl) ?_ ?_ h
  · intro s s' hs hp
    cases hp with
    | accept => simp [hs]
    | reject => exact hs
  · intro s r hs hp
    cases hp <;> exact hs

theorem trace_chain {xs ys duration tol maxstep : F} {feval : ℕ → F × F → Except PyErr (F × F)} {r : Trace F}
    (h : computeBacktrace xs ys duration tol maxstep feval = some r) :
    r.vertices.IsChain (fun a b => norm2 (b - a) < maxstep) ∧ ∀ st ∈ r.steps, st.est < tol := by
  refine backtrace_inv (fun s => s.vs.IsChain (fun a b => norm2 (b - a) < maxstep) ∧ s.vs.getLast? = some s.xy ∧
      ∀ st ∈ s.ss, st.est < tol)
    (fun r => r.vertices.IsChain (fun a b => norm2 (b - a) < maxstep) ∧ ∀ st ∈ r.steps, st.est < tol)
    (fun _ _ => ⟨by simp, by simp⟩) (fun _ _ => ⟨by simp, by simp, by simp⟩) ?_ ?_ h
  · intro s s' hs hp
    obtain ⟨h1, h2, h3⟩ := hs
    cases hp with
    | accept _ xyt k2 est ds he ht hd =>
      refine ⟨?_, by simp, ?_⟩
      · rw [List.isChain_append]
        refine ⟨h1, by simp, ?_⟩
        intro x hx y hy
        rw [h2] at hx
        obtain rfl : s.xy = x := by simpa using hx
        obtain rfl : xyt = y := by simpa using hy
        rw [← (trial_ds he).1]; exact hd
      · intro st hst
        rcases List.mem_append.mp hst with hst | hst
        · exact h3 st hst
        · obtain rfl := List.mem_singleton.mp hst
          exact ht
    | reject => exact ⟨h1, h2, h3⟩
  · intro s r hs hp
    cases hp <;> exact ⟨hs.1, hs.2.2⟩

theorem trace_total_nowarn {xs ys duration tol maxstep : F} {feval : ℕ → F × F → Except PyErr (F × F)} {r : Trace F}
    (htot : ∀ n p, ∃ v, feval n p = .ok v)
    (h : computeBacktrace xs ys duration tol maxstep feval = some r) : r.warning = none := by
  refine backtrace_inv (fun _ => True) (fun r => r.warning = none) ?_ (fun _ _ => trivial) (fun _ _ _ _ => trivial) ?_ h
  · intro e he
    obtain ⟨v, hv⟩ := htot 0 (xs, ys)
    rw [he] at hv; simp at hv
  · intro s r _ hp
    cases hp with
    | done => rfl
    | error _ e he =>
      exfalso
      obtain ⟨k2, h2⟩ := htot s.n (s.xy + sc (clipDt duration s.t s.dt) (scq (1/5) s.k1))
      unfold trial at he
      simp only [bind, Except.bind, pure, Except.pure] at he
      repeat' split at he
      all_goals first
        | (simp at he; done)
        | (rename_i hx; revert hx; intro hx; obtain ⟨v, hv⟩ := htot _ _; exact absurd (hx.symm.trans hv) (by simp))
end

/-! ## Time keeping over ℝ -/

theorem EPS_real : (EPS : ℝ) = 1 / 4503599627370496 := by
  unfold EPS; simp

theorem EPS_pos : (0 : ℝ) < EPS := by rw [EPS_real]; norm_num

theorem pyMin3_eq (a b c : ℝ) : pyMin3 a b c = min (min a b) c := by
  have h2 : ∀ x y : ℝ, pyMin2 x y = min x y := by
    intro x y
    unfold pyMin2
    split_ifs with h
    · exact (min_eq_right h.le).symm
    · exact (min_eq_left (not_lt.mp h)).symm
  unfold pyMin3
  rw [h2, h2]

theorem nextDt_eq (tol maxstep est ds dt : ℝ) : nextDt tol maxstep est ds dt =
    9/10 * min (min ((tol / (est + EPS)) ^ ((1:ℝ)/5)) (maxstep / (ds + EPS))) 10 * dt := by
  unfold nextDt
  rw [pyMin3_eq]
  simp

theorem nextDt_pos {tol maxstep est ds dt : ℝ} (h1 : 0 < tol) (h2 : 0 < maxstep) (h3 : 0 ≤ est) (h4 : 0 ≤ ds)
    (h5 : 0 < dt) : 0 < nextDt tol maxstep est ds dt := by
  rw [nextDt_eq]
  have := EPS_pos
  have a : 0 < (tol / (est + EPS)) ^ ((1:ℝ)/5) := Real.rpow_pos_of_pos (by positivity) _
  have b : 0 < maxstep / (ds + EPS) := by positivity
  have : 0 < min (min ((tol / (est + EPS)) ^ ((1:ℝ)/5)) (maxstep / (ds + EPS))) 10 :=
    lt_min (lt_min a b) (by norm_num)
  positivity

theorem normInf_nonneg (v : ℝ × ℝ) : 0 ≤ normInf v := by
  simp only [normInf, PyMath.fmax_real, PyMath.abs_real]
  exact le_max_of_le_left (abs_nonneg _)

theorem norm2_nonneg (v : ℝ × ℝ) : 0 ≤ norm2 v := Real.sqrt_nonneg _

theorem norm2_euclid (a b : ℝ × ℝ) : norm2 (b - a) = euclid a b := by
  simp [norm2, euclid, pow_two]

theorem trial_nonneg {f : FEval} {n : ℕ} {xy k1 xyt k2 : ℝ × ℝ} {dt est ds : ℝ}
    (h : trial f n xy k1 dt = .ok (xyt, k2, est, ds)) : 0 ≤ est ∧ 0 ≤ ds := by
  obtain ⟨_, _, _, _, _, _, _, _, _, _, _, _, rfl, rfl⟩ := trial_evals h
  exact ⟨normInf_nonneg _, norm2_nonneg _⟩

theorem clip_pos {D t dt : ℝ} (h1 : t < D) (h2 : 0 < dt) : 0 < clipDt D t dt := by
  unfold clipDt
  split_ifs
  · linarith
  · exact h2

theorem clip_le {D t dt : ℝ} (h0 : 0 ≤ t) (h1 : t < D) (h2 : 0 < dt) : t + clipDt D t dt ≤ D := by
  unfold clipDt
  simp only [PyMath.abs_real]
  split_ifs with h
  · linarith
  · rw [abs_of_pos (by linarith), abs_of_pos (by linarith)] at h
    linarith

theorem clip_le' {D t dt : ℝ} (h0 : 0 ≤ t) (h1 : t < D) (h2 : 0 < dt) : clipDt D t dt ≤ dt := by
  unfold clipDt
  simp only [PyMath.abs_real]
  split_ifs with h
  · rw [abs_of_pos (by linarith), abs_of_pos (by linarith)] at h
    linarith
  · rfl

/-- Time keeping, positive duration. -/
theorem trace_time_pos {xs ys D tol maxstep : ℝ} {feval : FEval} {r : Trace ℝ} (hD : 0 < D) (htol : 0 < tol)
    (hms : 0 < maxstep) (h : computeBacktrace xs ys D tol maxstep feval = some r) :
    (∀ st ∈ r.steps, 0 < st.dt) ∧ (r.steps.map Accepted.dt).sum ≤ D ∧
      (r.warning = none → (r.steps.map Accepted.dt).sum = D) ∧
      (∀ t, r.warning = some t → t = (r.steps.map Accepted.dt).sum ∧ t < D) := by
  refine backtrace_inv (fun s => 0 ≤ s.t ∧ s.t ≤ D ∧ 0 < s.dt ∧ (∀ st ∈ s.ss, 0 < st.dt) ∧ (s.ss.map Accepted.dt).sum = s.t)
    (fun r => (∀ st ∈ r.steps, 0 < st.dt) ∧ (r.steps.map Accepted.dt).sum ≤ D ∧
      (r.warning = none → (r.steps.map Accepted.dt).sum = D) ∧
      (∀ t, r.warning = some t → t = (r.steps.map Accepted.dt).sum ∧ t < D)) ?_ ?_ ?_ ?_ h
  · intro e _
    refine ⟨by simp, by simpa using hD.le, by simp, ?_⟩
    intro t ht
    simp only [Option.some.injEq] at ht
    subst ht
    simpa using hD
  · intro k1 _
    refine ⟨by simp, by simpa using hD.le, ?_, by simp, by simp⟩
    simp [Real.sign_of_pos hD]
  · intro s s' ⟨h1, h2, h3, h4, h5⟩ hp
    cases hp with
    | accept hlt xyt k2 est ds he ht hd =>
      simp only [PyMath.abs_real] at hlt
      rw [abs_of_nonneg h1, abs_of_pos hD] at hlt
      have hc := clip_pos hlt h3
      have hle := clip_le h1 hlt h3
      obtain ⟨e1, e2⟩ := trial_nonneg he
      refine ⟨by dsimp only; linarith, hle, nextDt_pos htol hms e1 e2 hc, ?_, ?_⟩
      · intro st hst
        rcases List.mem_append.mp hst with hst | hst
        · exact h4 st hst
        · obtain rfl := List.mem_singleton.mp hst
          exact hc
      · simp [h5]
    | reject hlt xyt k2 est ds he ht =>
      simp only [PyMath.abs_real] at hlt
      rw [abs_of_nonneg h1, abs_of_pos hD] at hlt
      obtain ⟨e1, e2⟩ := trial_nonneg he
      exact ⟨h1, h2, nextDt_pos htol hms e1 e2 (clip_pos hlt h3), h4, h5⟩
  · intro s r ⟨h1, h2, h3, h4, h5⟩ hp
    cases hp with
    | done hlt =>
      simp only [PyMath.abs_real] at hlt
      rw [abs_of_nonneg h1, abs_of_pos hD] at hlt
      exact ⟨h4, by linarith, fun _ => by dsimp only; linarith, by simp⟩
    | error hlt e he =>
      simp only [PyMath.abs_real] at hlt
      rw [abs_of_nonneg h1, abs_of_pos hD] at hlt
      refine ⟨h4, by linarith, by simp, ?_⟩
      intro t ht
      simp only [Option.some.injEq] at ht
      subst ht
      exact ⟨h5.symm, hlt⟩

theorem sum_neg_map (l : List (Accepted ℝ)) :
    ((l.map Accepted.neg).map Accepted.dt).sum = -(l.map Accepted.dt).sum := by
  induction l with
  | nil => simp
  | cons a l ih =>
    simp only [List.map_cons, List.sum_cons, ih, Accepted.neg]; ring

/-- Time keeping, any non-zero duration. -/
theorem trace_time {xs ys D tol maxstep : ℝ} {feval : FEval} {r : Trace ℝ} (hD : D ≠ 0) (htol : 0 < tol)
    (hms : 0 < maxstep) (h : computeBacktrace xs ys D tol maxstep feval = some r) :
    (∀ st ∈ r.steps, 0 < st.dt * D) ∧ |(r.steps.map Accepted.dt).sum| ≤ |D| ∧
      (r.warning = none → (r.steps.map Accepted.dt).sum = D) ∧
      (∀ t, r.warning = some t → t = (r.steps.map Accepted.dt).sum ∧ |t| < |D|) := by
  rcases lt_or_gt_of_ne hD with hneg | hpos
  · have h' := computeBacktrace_neg xs ys D tol maxstep feval
    rw [h, Option.map_some] at h'
    obtain ⟨a, b, c, d⟩ := trace_time_pos (by linarith : 0 < -D) htol hms h'
    have hsum : (r.neg.steps.map Accepted.dt).sum = -(r.steps.map Accepted.dt).sum := sum_neg_map _
    have a' : ∀ st ∈ r.steps, st.dt < 0 := by
      intro st hst
      have := a st.neg (List.mem_map_of_mem hst)
      simpa [Accepted.neg] using this
    have hle : (r.steps.map Accepted.dt).sum ≤ 0 := by
      have : 0 ≤ (r.neg.steps.map Accepted.dt).sum :=
        List.sum_nonneg (by intro x hx; obtain ⟨st, hst, rfl⟩ := List.mem_map.mp hx; exact (a st hst).le)
      rw [hsum] at this; linarith
    rw [hsum] at b c d
    refine ⟨fun st hst => mul_pos_of_neg_of_neg (a' st hst) hneg, ?_, ?_, ?_⟩
    · rw [abs_of_nonpos hle, abs_of_neg hneg]; exact b
    · intro hw
      have := c (by simp [Trace.neg, hw])
      linarith
    · intro t ht
      obtain ⟨d1, d2⟩ := d (-t) (by simp [Trace.neg, ht])
      have : t = (r.steps.map Accepted.dt).sum := by linarith
      refine ⟨this, ?_⟩
      rw [abs_of_nonpos (by linarith), abs_of_neg hneg]; exact d2
  · obtain ⟨a, b, c, d⟩ := trace_time_pos hpos htol hms h
    have hle : 0 ≤ (r.steps.map Accepted.dt).sum :=
      List.sum_nonneg (by intro x hx; obtain ⟨st, hst, rfl⟩ := List.mem_map.mp hx; exact (a st hst).le)
    refine ⟨fun st hst => mul_pos (a st hst) hpos, ?_, c, ?_⟩
    · rw [abs_of_nonneg hle, abs_of_pos hpos]; exact b
    · intro t ht
      obtain ⟨d1, d2⟩ := d t ht
      refine ⟨d1, ?_⟩
      rw [abs_of_nonneg (by linarith), abs_of_pos hpos]; exact d2

theorem trace_zero_duration {xs ys tol maxstep : ℝ} {feval : FEval} {r : Trace ℝ}
    (h : computeBacktrace xs ys 0 tol maxstep feval = some r) : r.steps = [] := by
  refine backtrace_inv (fun s => s.ss = []) (fun r => r.steps = []) (fun _ _ => rfl) (fun _ _ => rfl) ?_ ?_ h
  · intro s s' hs hp
    cases hp with
    | accept hlt => simp only [PyMath.abs_real, abs_zero] at hlt; exact absurd hlt (not_lt.mpr (abs_nonneg _))
    | reject => exact hs
  · intro s r hs hp
    cases hp <;> exact hs

/-! ## Paths -/

def pathEnd (p : ℝ × ℝ) (path : List (ℝ × (ℝ × ℝ))) : ℝ × ℝ := (path.map Prod.snd).foldl (fun _ q => q) p

theorem dpPath_snoc (f : ℝ × ℝ → ℝ × ℝ) (tol maxstep : ℝ) (p : ℝ × ℝ) (path : List (ℝ × (ℝ × ℝ))) (h : ℝ) (q : ℝ × ℝ) :
    DPPath f tol maxstep p (path ++ [(h, q)]) ↔ DPPath f tol maxstep p path ∧
      q = rkStep f dpA dp5 h (pathEnd p path) ∧ localError f h (pathEnd p path) < tol ∧
      euclid (pathEnd p path) q < maxstep := by
  induction path generalizing p with
  | nil => simp [DPPath, pathEnd]
  | cons a path ih =>
    obtain ⟨h', q'⟩ := a
    simp only [List.cons_append, DPPath, ih]
    have : pathEnd p ((h', q') :: path) = pathEnd q' path := rfl
    rw [this]
    tauto

def Accepted.move (a : Accepted ℝ) : ℝ × (ℝ × ℝ) := (a.dt, a.vertex)

theorem trace_path {f : ℝ × ℝ → ℝ × ℝ} {xs ys D tol maxstep : ℝ} {feval : FEval} {r : Trace ℝ} (hc : Computes feval f)
    (h : computeBacktrace xs ys D tol maxstep feval = some r) :
    DPPath f tol maxstep (xs, ys) (r.steps.map Accepted.move) := by
  refine backtrace_inv (fun s => DPPath f tol maxstep (xs, ys) (s.ss.map Accepted.move) ∧
      s.xy = pathEnd (xs, ys) (s.ss.map Accepted.move) ∧ s.k1 = f s.xy)
    (fun r => DPPath f tol maxstep (xs, ys) (r.steps.map Accepted.move)) (fun _ _ => trivial)
    (fun k1 hk => ⟨trivial, rfl, hc _ _ _ hk⟩) ?_ ?_ h
  · intro s s' ⟨h1, h2, h3⟩ hp
    cases hp with
    | accept hlt xyt k2 est ds he ht hd =>
      rw [h3] at he
      obtain ⟨rfl, rfl, rfl, rfl⟩ := trial_computes hc he
      refine ⟨?_, ?_, rfl⟩
      · dsimp only
        rw [List.map_append]
        simp only [List.map_cons, List.map_nil, Accepted.move]
        rw [dpPath_snoc]
        rw [← h2]
        exact ⟨h1, rfl, ht, hd⟩
      · simp [pathEnd, Accepted.move]
    | reject => exact ⟨h1, h2, h3⟩
  · intro s r hs hp
    cases hp <;> exact hs.1

end Oneka
