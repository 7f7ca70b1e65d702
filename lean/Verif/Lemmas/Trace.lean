import Verif.Model.Backtrace
import Verif.Tac

/-! The tracing loop as an iteration of a one-step function, and the invariant rule. -/

namespace Oneka
variable {F : Type} [Add F] [Sub F] [Mul F] [Div F] [LT F] [DecidableLT F] [PyMath F]

/-- The variables of the loop. -/
structure TState (F : Type) where
  t : F
  dt : F
  xy : F × F
  k1 : F × F
  n : ℕ
  vs : List (F × F)
  ss : List (Accepted F)

/-- The parameters of the loop. -/
structure TCfg (F : Type) where
  duration : F
  tol : F
  maxstep : F
  feval : ℕ → F × F → Except PyErr (F × F)

/-- One pass through the loop: the result, or the next state. -/
def titer (c : TCfg F) (s : TState F) : Trace F ⊕ TState F :=
  if PyMath.abs s.t < PyMath.abs c.duration then
    match trial c.feval s.n s.xy s.k1 (clipDt c.duration s.t s.dt) with
    | .error _ => .inl ⟨s.vs, s.ss, some s.t⟩
    | .ok (xyt, k2, est, ds) =>
      if est < c.tol ∧ ds < c.maxstep then
        .inr ⟨s.t + clipDt c.duration s.t s.dt,
          nextDt c.tol c.maxstep est ds (clipDt c.duration s.t s.dt), xyt, k2, s.n+6, s.vs ++ [xyt],
          s.ss ++ [⟨s.t, clipDt c.duration s.t s.dt, est, xyt⟩]⟩
      else .inr ⟨s.t, nextDt c.tol c.maxstep est ds (clipDt c.duration s.t s.dt), s.xy, s.k1, s.n+6, s.vs, s.ss⟩
  else .inl ⟨s.vs, s.ss, none⟩

/-- At most `k` passes. -/
def tfuel (c : TCfg F) : ℕ → TState F → Option (Trace F)
  | 0, _ => none
  | k+1, s => match titer c s with
    | .inl r => some r
    | .inr s' => tfuel c k s'

/-- The loop. -/
def tloop (c : TCfg F) (s : TState F) : Option (Trace F) :=
  traceLoop c.duration c.tol c.maxstep c.feval s.t s.dt s.xy s.k1 s.n s.vs s.ss

theorem tloop_unfold (c : TCfg F) (s : TState F) :
    tloop c s = match titer c s with
      | .inl r => some r
      | .inr s' => tloop c s' := by
  unfold tloop titer
  rw [traceLoop.eq_1]
  split_ifs
  · cases trial c.feval s.n s.xy s.k1 (clipDt c.duration s.t s.dt) with
    | error e => rfl
    | ok v =>
      obtain ⟨xyt, k2, est, ds⟩ := v
      dsimp only
      split_ifs <;> rfl
  · rfl

theorem tloop_eq_some (c : TCfg F) (s : TState F) (r : Trace F) :
    tloop c s = some r ↔ ∃ k, tfuel c k s = some r := by
  constructor
  · intro h
    obtain ⟨t, dt, xy, k1, n, vs, ss⟩ := s
    refine traceLoop.partial_correctness c.duration c.tol c.maxstep c.feval
      (fun t dt xy k1 n vs ss r => ∃ k, tfuel c k ⟨t, dt, xy, k1, n, vs, ss⟩ = some r) ?_ t dt xy k1 n vs ss r h
    intro loop ih t dt xy k1 n vs ss r h
    split_ifs at h with h1
    · split at h
      · rename_i heq
        refine ⟨1, ?_⟩
        simp only [tfuel, titer, if_pos h1, heq]; exact h
      · rename_i xyt k2 est ds heq
        split_ifs at h with h2
        · obtain ⟨k, hk⟩ := ih _ _ _ _ _ _ _ _ h
          refine ⟨k+1, ?_⟩
          simp only [tfuel, titer, if_pos h1, heq, if_pos h2]; exact hk
        · obtain ⟨k, hk⟩ := ih _ _ _ _ _ _ _ _ h
          refine ⟨k+1, ?_⟩
          simp only [tfuel, titer, if_pos h1, heq, if_neg h2]; exact hk
    · exact ⟨1, by simp only [tfuel, titer, if_neg h1]; exact h⟩
  · rintro ⟨k, hk⟩
    induction k generalizing s with
    | zero => simp [tfuel] at hk
    | succ k ih =>
      rw [tloop_unfold]
      simp only [tfuel] at hk
      split at hk
      · exact hk
      · exact ih _ hk

/-- The rule for loop invariants. -/
theorem tloop_inv {c : TCfg F} (I : TState F → Prop) (Q : Trace F → Prop)
    (hstep : ∀ s s', I s → titer c s = .inr s' → I s') (hdone : ∀ s r, I s → titer c s = .inl r → Q r)
    {s : TState F} (h0 : I s) {r : Trace F} (h : tloop c s = some r) : Q r := by
  obtain ⟨k, hk⟩ := (tloop_eq_some c s r).mp h
  induction k generalizing s with
  | zero => simp [tfuel] at hk
  | succ k ih =>
    simp only [tfuel] at hk
    split at hk
    · rename_i heq
      obtain rfl := Option.some.inj hk
      exact hdone _ _ h0 heq
    · rename_i heq
      exact ih (hstep _ _ h0 heq) ((tloop_eq_some c _ r).mpr ⟨k, hk⟩) hk

/-- A loop that can always make another pass never returns. -/
theorem tloop_none {c : TCfg F} (I : TState F → Prop)
    (hstep : ∀ s, I s → ∃ s', titer c s = .inr s' ∧ I s') {s : TState F} (h0 : I s) : tloop c s = none := by
  cases h : tloop c s with
  | none => rfl
  | some r =>
    exact (tloop_inv I (fun _ => False) (fun s s' hs e => by
      obtain ⟨s'', e', h'⟩ := hstep s hs
      rw [e] at e'
      obtain rfl : s' = s'' := by simpa using e'
      exact h') (fun s r hs e => by
      obtain ⟨s'', e', h'⟩ := hstep s hs
      rw [e] at e'
      simp at e') h0 h).elim

/-- The four ways a pass can go. -/
inductive Pass (c : TCfg F) (s : TState F) : Trace F ⊕ TState F → Prop
  | done (h : ¬ PyMath.abs s.t < PyMath.abs c.duration) : Pass c s (.inl ⟨s.vs, s.ss, none⟩)
  | error (h : PyMath.abs s.t < PyMath.abs c.duration) (e : PyErr)
      (he : trial c.feval s.n s.xy s.k1 (clipDt c.duration s.t s.dt) = .error e) :
      Pass c s (.inl ⟨s.vs, s.ss, some s.t⟩)
  | accept (h : PyMath.abs s.t < PyMath.abs c.duration) (xyt k2 : F × F) (est ds : F)
      (he : trial c.feval s.n s.xy s.k1 (clipDt c.duration s.t s.dt) = .ok (xyt, k2, est, ds))
      (h1 : est < c.tol) (h2 : ds < c.maxstep) :
      Pass c s (.inr ⟨s.t + clipDt c.duration s.t s.dt,
          nextDt c.tol c.maxstep est ds (clipDt c.duration s.t s.dt), xyt, k2, s.n+6, s.vs ++ [xyt],
          s.ss ++ [⟨s.t, clipDt c.duration s.t s.dt, est, xyt⟩]⟩)
  | reject (h : PyMath.abs s.t < PyMath.abs c.duration) (xyt k2 : F × F) (est ds : F)
      (he : trial c.feval s.n s.xy s.k1 (clipDt c.duration s.t s.dt) = .ok (xyt, k2, est, ds))
      (h1 : ¬ (est < c.tol ∧ ds < c.maxstep)) :
      Pass c s (.inr ⟨s.t, nextDt c.tol c.maxstep est ds (clipDt c.duration s.t s.dt), s.xy, s.k1, s.n+6,
        s.vs, s.ss⟩)

theorem titer_pass (c : TCfg F) (s : TState F) : Pass c s (titer c s) := by
  unfold titer
  split_ifs with h
  · split
    · rename_i e he; exact .error h e he
    · rename_i xyt k2 est ds he
      split_ifs with h2
      · exact .accept h xyt k2 est ds he h2.1 h2.2
      · exact .reject h xyt k2 est ds he h2
  · exact .done h

theorem pass_of_titer {c : TCfg F} {s : TState F} {x} (h : titer c s = x) : Pass c s x := h ▸ titer_pass c s

/-- The six evaluations of a successful trial. -/
theorem trial_evals {feval : ℕ → F × F → Except PyErr (F × F)} {n : ℕ} {xy k1 xyt k7 : F × F} {dt est ds : F}
    (h : trial feval n xy k1 dt = .ok (xyt, k7, est, ds)) :
    ∃ k2 k3 k4 k5 k6, feval n (xy + sc dt (scq (1/5) k1)) = .ok k2 ∧
      feval (n+1) (xy + sc dt (scq (3/40) k1 + scq (9/40) k2)) = .ok k3 ∧
      feval (n+2) (xy + sc dt (scq (44/45) k1 + scq (-56/15) k2 + scq (32/9) k3)) = .ok k4 ∧
      feval (n+3) (xy + sc dt (scq (19372/6561) k1 + scq (-25360/2187) k2 + scq (64448/6561) k3
        + scq (-212/729) k4)) = .ok k5 ∧
      feval (n+4) (xy + sc dt (scq (9017/3168) k1 + scq (-355/33) k2 + scq (46732/5247) k3
        + scq (49/176) k4 + scq (-5103/18656) k5)) = .ok k6 ∧
      xyt = xy + sc dt (scq (35/384) k1 + scq (500/1113) k3 + scq (125/192) k4 + scq (-2187/6784) k5
        + scq (11/84) k6) ∧
      feval (n+5) xyt = .ok k7 ∧
      est = normInf (sc dt (scq (71/57600) k1 + scq (-1/40) k7 + scq (-71/16695) k3 + scq (71/1920) k4
        + scq (-17253/339200) k5 + scq (22/525) k6)) ∧
      ds = norm2 (xyt - xy) := by
  unfold trial at h
  simp only [bind, Except.bind, pure, Except.pure] at h
  repeat' split at h
  all_goals first | (simp at h; done) | skip
  rename_i _ k2 h2 _ k3 h3 _ k4 h4 _ k5 h5 _ k6 h6 _ _ h7
  simp only [Except.ok.injEq, Prod.mk.injEq] at h
  obtain ⟨rfl, rfl, rfl, rfl⟩ := h
  exact ⟨k2, k3, k4, k5, k6, h2, h3, h4, h5, h6, rfl, h7, rfl, rfl⟩

/-- `ds` is the length of the step. -/
theorem trial_ds {feval : ℕ → F × F → Except PyErr (F × F)} {n : ℕ} {xy k1 xyt k2 : F × F} {dt est ds : F}
    (h : trial feval n xy k1 dt = .ok (xyt, k2, est, ds)) :
    ds = norm2 (xyt - xy) ∧ feval (n+5) xyt = .ok k2 := by
  unfold trial at h
  simp only [bind, Except.bind, pure, Except.pure] at h
  repeat' split at h
  all_goals first | (simp at h; done) | skip
  rename_i heq
  simp only [Except.ok.injEq, Prod.mk.injEq] at h
  obtain ⟨rfl, rfl, rfl, rfl⟩ := h
  exact ⟨rfl, heq⟩

/-- Unfolding `computeBacktrace` when the first evaluation succeeds. -/
theorem computeBacktrace_ok (xs ys duration tol maxstep : F) (feval : ℕ → F × F → Except PyErr (F × F)) (k1 : F × F)
    (h : feval 0 (xs, ys) = .ok k1) :
    computeBacktrace xs ys duration tol maxstep feval =
      tloop ⟨duration, tol, maxstep, feval⟩
        ⟨PyMath.q 0, PyMath.q (1/10) * PyMath.sign duration, (xs, ys), k1, 1, [(xs, ys)], []⟩ := by
  unfold computeBacktrace tloop
  rw [h]

end Oneka
