import Verif.Lemmas.RK
import Verif.Tac

set_option linter.unusedSectionVars false

namespace Oneka

/-! ## Reversal of time -/

abbrev FEval := ℕ → ℝ × ℝ → Except PyErr (ℝ × ℝ)

def FEval.neg (f : FEval) : FEval := fun n p => (f n p).map (fun v => -v)

theorem trial_neg (f : FEval) (n : ℕ) (xy k1 : ℝ × ℝ) (dt : ℝ) :
    trial (FEval.neg f) n xy (-k1) (-dt) =
      (trial f n xy k1 dt).map (fun x => (x.1, -x.2.1, x.2.2.1, x.2.2.2)) := by
  unfold trial
  simp only [bind, Except.bind, pure, Except.pure, sc_real, scq_real, smul_neg, neg_smul, neg_neg, FEval.neg]
  cases h2 : f n (xy + dt • ((1/5 : ℚ) : ℝ) • k1) with
  | error e => rfl
  | ok k2 =>
  simp only [Except.map, smul_neg, ← neg_add, neg_neg]
  cases h3 : f (n+1) (xy + dt • (((3/40 : ℚ) : ℝ) • k1 + ((9/40 : ℚ) : ℝ) • k2)) with
  | error e => rfl
  | ok k3 =>
  simp only [smul_neg, ← neg_add, neg_neg]
  cases h4 : f (n+2) (xy + dt • (((44/45 : ℚ) : ℝ) • k1 + ((-56/15 : ℚ) : ℝ) • k2 + ((32/9 : ℚ) : ℝ) • k3)) with
  | error e => rfl
  | ok k4 =>
  simp only [smul_neg, ← neg_add, neg_neg]
  cases h5 : f (n+3) (xy + dt • (((19372/6561 : ℚ) : ℝ) • k1 + ((-25360/2187 : ℚ) : ℝ) • k2
      + ((64448/6561 : ℚ) : ℝ) • k3 + ((-212/729 : ℚ) : ℝ) • k4)) with
  | error e => rfl
  | ok k5 =>
  simp only [smul_neg, ← neg_add, neg_neg]
  cases h6 : f (n+4) (xy + dt • (((9017/3168 : ℚ) : ℝ) • k1 + ((-355/33 : ℚ) : ℝ) • k2
      + ((46732/5247 : ℚ) : ℝ) • k3 + ((49/176 : ℚ) : ℝ) • k4 + ((-5103/18656 : ℚ) : ℝ) • k5)) with
  | error e => rfl
  | ok k6 =>
  simp only [smul_neg, ← neg_add, neg_neg]
  cases h7 : f (n+5) (xy + dt • (((35/384 : ℚ) : ℝ) • k1 + ((500/1113 : ℚ) : ℝ) • k3
      + ((125/192 : ℚ) : ℝ) • k4 + ((-2187/6784 : ℚ) : ℝ) • k5 + ((11/84 : ℚ) : ℝ) • k6)) with
  | error e => rfl
  | ok k7 =>
  simp only [smul_neg, ← neg_add, neg_neg]

theorem clipDt_neg (d t dt : ℝ) : clipDt (-d) (-t) (-dt) = -clipDt d t dt := by
  unfold clipDt
  simp only [PyMath.abs_real, abs_neg]
  rw [← neg_add, abs_neg]
  split_ifs
  · ring
  · rfl

theorem nextDt_neg (tol maxstep est ds dt : ℝ) : nextDt tol maxstep est ds (-dt) = -nextDt tol maxstep est ds dt := by
  unfold nextDt; ring

def Accepted.neg (a : Accepted ℝ) : Accepted ℝ := ⟨-a.t, -a.dt, a.est, a.vertex⟩
def Trace.neg (r : Trace ℝ) : Trace ℝ := ⟨r.vertices, r.steps.map Accepted.neg, r.warning.map (fun t => -t)⟩
def TCfg.neg (c : TCfg ℝ) : TCfg ℝ := ⟨-c.duration, c.tol, c.maxstep, FEval.neg c.feval⟩
def TState.neg (s : TState ℝ) : TState ℝ := ⟨-s.t, -s.dt, s.xy, -s.k1, s.n, s.vs, s.ss.map Accepted.neg⟩

theorem titer_neg (c : TCfg ℝ) (s : TState ℝ) :
    titer c.neg s.neg = (titer c s).map Trace.neg TState.neg := by
  unfold titer
  simp only [TCfg.neg, TState.neg, PyMath.abs_real, abs_neg, clipDt_neg, trial_neg]
  split_ifs with h
  · cases ht : trial c.feval s.n s.xy s.k1 (clipDt c.duration s.t s.dt) with
    | error e => simp [Except.map, Trace.neg]
    | ok x =>
      obtain ⟨xyt, k2, est, ds⟩ := x
      simp only [Except.map]
      split_ifs with h2
      · simp only [Sum.map_inr, TState.neg, nextDt_neg, List.map_append, List.map_cons, List.map_nil, Accepted.neg]
        rw [← neg_add]
      · simp only [Sum.map_inr, TState.neg, nextDt_neg]
  · simp [Trace.neg]

theorem tfuel_neg (c : TCfg ℝ) (k : ℕ) (s : TState ℝ) : tfuel c.neg k s.neg = (tfuel c k s).map Trace.neg := by
  induction k generalizing s with
  | zero => rfl
  | succ k ih =>
    simp only [tfuel, titer_neg]
    cases titer c s with
    | inl r => rfl
    | inr s' => exact ih s'

theorem tloop_neg (c : TCfg ℝ) (s : TState ℝ) : tloop c.neg s.neg = (tloop c s).map Trace.neg := by
  cases h : tloop c s with
  | some r =>
    obtain ⟨k, hk⟩ := (tloop_eq_some c s r).mp h
    exact (tloop_eq_some _ _ _).mpr ⟨k, by rw [tfuel_neg, hk]; rfl⟩
  | none =>
    cases h' : tloop c.neg s.neg with
    | none => rfl
    | some r =>
      obtain ⟨k, hk⟩ := (tloop_eq_some _ _ _).mp h'
      rw [tfuel_neg] at hk
      cases h2 : tfuel c k s with
      | none => rw [h2] at hk; simp at hk
      | some r2 =>
        have := (tloop_eq_some c s r2).mpr ⟨k, h2⟩
        rw [h] at this; simp at this

/-- Reversing both the duration and the velocity changes nothing but the sign of the recorded times. -/
theorem computeBacktrace_neg (xs ys d tol maxstep : ℝ) (f : FEval) :
    computeBacktrace xs ys (-d) tol maxstep (FEval.neg f) =
      (computeBacktrace xs ys d tol maxstep f).map Trace.neg := by
  cases h : f 0 (xs, ys) with
  | error e => simp [computeBacktrace, FEval.neg, h, Except.map, Trace.neg]
  | ok k1 =>
    rw [computeBacktrace_ok _ _ _ _ _ f k1 h, computeBacktrace_ok _ _ _ _ _ (FEval.neg f) (-k1) (by
      simp [FEval.neg, h, Except.map])]
    rw [← tloop_neg]
    simp [TCfg.neg, TState.neg, Real.sign_neg]

theorem FEval.neg_neg (f : FEval) : FEval.neg (FEval.neg f) = f := by
  funext n p
  unfold FEval.neg
  cases f n p <;> simp [Except.map]

/-! ## Steps -/

/-- A successful trial with a (possibly failing) program for `f` is a Dormand–Prince step. -/
theorem trial_computes {f : ℝ × ℝ → ℝ × ℝ} {fe : FEval} (hc : Computes fe f) {n : ℕ} {xy xyt k2 : ℝ × ℝ}
    {dt est ds : ℝ} (h : trial fe n xy (f xy) dt = .ok (xyt, k2, est, ds)) :
    xyt = rkStep f dpA dp5 dt xy ∧ k2 = f xyt ∧ est = localError f dt xy ∧ ds = euclid xy xyt := by
  have hs : trial (steady f) n xy (f xy) dt = .ok (xyt, k2, est, ds) := by
    have key : ∀ n p v, fe n p = .ok v → steady f n p = .ok v := fun n p v hv => by
      rw [hc n p v hv]; rfl
    unfold trial at h ⊢
    simp only [bind, Except.bind, pure, Except.pure] at h ⊢
    repeat' split at h
    all_goals first | (simp at h; done) | skip
    rename_i _ _ h2 _ _ h3 _ _ h4 _ _ h5 _ _ h6 _ _ h7
    simp only [key _ _ _ h2, key _ _ _ h3, key _ _ _ h4, key _ _ _ h5, key _ _ _ h6, key _ _ _ h7]
    exact h
  rw [show steady f = (fun _ p => .ok (f p)) from rfl, trial_real] at hs
  simp only [Except.ok.injEq, Prod.mk.injEq] at hs
  obtain ⟨rfl, rfl, rfl, rfl⟩ := hs
  exact ⟨rfl, rfl, rfl, rfl⟩

end Oneka
