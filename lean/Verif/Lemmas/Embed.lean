import Verif.Lemmas.Diverge

/-! On finite numbers the extended interpretation agrees with the real one. -/

namespace Oneka

def emb (v : ℝ × ℝ) : XR × XR := (.fin v.1, .fin v.2)

theorem emb_add (v w : ℝ × ℝ) : emb v + emb w = emb (v + w) := by
  simp [emb, Prod.ext_iff]
theorem emb_sub (v w : ℝ × ℝ) : emb v - emb w = emb (v - w) := by
  simp [emb, Prod.ext_iff]
theorem emb_sc (c : ℝ) (v : ℝ × ℝ) : sc (.fin c) (emb v) = emb (sc c v) := rfl
theorem emb_scq (c : ℚ) (v : ℝ × ℝ) : scq c (emb v) = emb (scq c v) := rfl
theorem emb_normInf (v : ℝ × ℝ) : normInf (emb v) = .fin (normInf v) := rfl
theorem emb_norm2 (v : ℝ × ℝ) : norm2 (emb v) = .fin (norm2 v) := by
  show (if v.1 * v.1 + v.2 * v.2 < 0 then XR.nan else XR.fin (Real.sqrt (v.1 * v.1 + v.2 * v.2))) = _
  rw [if_neg (by nlinarith [mul_self_nonneg v.1, mul_self_nonneg v.2])]
  rfl

/-- `fe'` is the program `fe` on finite points. -/
def Extends (fe' : ℕ → XR × XR → Except PyErr (XR × XR)) (fe : FEval) : Prop := ∀ n p, fe' n (emb p) = (fe n p).map emb

theorem trial_embed {fe' : ℕ → XR × XR → Except PyErr (XR × XR)} {fe : FEval} (h : Extends fe' fe) (n : ℕ)
    (xy k1 : ℝ × ℝ) (dt : ℝ) :
    trial fe' n (emb xy) (emb k1) (.fin dt) =
      (trial fe n xy k1 dt).map (fun x => (emb x.1, emb x.2.1, .fin x.2.2.1, .fin x.2.2.2)) := by
  unfold trial
  simp only [bind, Except.bind, pure, Except.pure, emb_scq, emb_sc, emb_add, h _ _]
  cases h2 : fe n (xy + sc dt (scq (1/5) k1)) with
  | error e => rfl
  | ok k2 =>
  simp only [Except.map, emb_scq, emb_sc, emb_add, h _ _]
  cases h3 : fe (n+1) (xy + sc dt (scq (3/40) k1 + scq (9/40) k2)) with
  | error e => rfl
  | ok k3 =>
  simp only [Except.map, emb_scq, emb_sc, emb_add, h _ _]
  cases h4 : fe (n+2) (xy + sc dt (scq (44/45) k1 + scq (-56/15) k2 + scq (32/9) k3)) with
  | error e => rfl
  | ok k4 =>
  simp only [Except.map, emb_scq, emb_sc, emb_add, h _ _]
  cases h5 : fe (n+3) (xy + sc dt (scq (19372/6561) k1 + scq (-25360/2187) k2 + scq (64448/6561) k3
    + scq (-212/729) k4)) with
  | error e => rfl
  | ok k5 =>
  simp only [Except.map, emb_scq, emb_sc, emb_add, h _ _]
  cases h6 : fe (n+4) (xy + sc dt (scq (9017/3168) k1 + scq (-355/33) k2 + scq (46732/5247) k3
    + scq (49/176) k4 + scq (-5103/18656) k5)) with
  | error e => rfl
  | ok k6 =>
  simp only [Except.map, emb_scq, emb_sc, emb_add, h _ _]
  cases h7 : fe (n+5) (xy + sc dt (scq (35/384) k1 + scq (500/1113) k3 + scq (125/192) k4 + scq (-2187/6784) k5
    + scq (11/84) k6)) with
  | error e => rfl
  | ok k7 =>
  simp only [Except.map, emb_scq, emb_sc, emb_add, emb_sub, emb_normInf, emb_norm2]

theorem clipDt_embed (d t dt : ℝ) : clipDt (XR.fin d) (.fin t) (.fin dt) = .fin (clipDt d t dt) := by
  unfold clipDt
  change (if XR.fin |d| < XR.fin |t + dt| then XR.fin d - .fin t else .fin dt) = _
  simp only [XR.fin_lt, XR.fin_sub, PyMath.abs_real]
  split_ifs <;> rfl

theorem nextDt_embed {tol maxstep est ds dt : ℝ} (ht : 0 ≤ tol) (he : 0 ≤ est) (hd : 0 ≤ ds) :
    nextDt (XR.fin tol) (.fin maxstep) (.fin est) (.fin ds) (.fin dt) = .fin (nextDt tol maxstep est ds dt) := by
  have hE := EPS_pos
  unfold nextDt
  have e1 : (XR.fin tol) / (.fin est + EPS) = .fin (tol / (est + EPS)) := XR.fin_div _ _ (by
    have : (est + EPS) ≠ 0 := by positivity
    exact this)
  have e2 : (XR.fin maxstep) / (.fin ds + EPS) = .fin (maxstep / (ds + EPS)) := XR.fin_div _ _ (by
    have : (ds + EPS) ≠ 0 := by positivity
    exact this)
  rw [e1, e2]
  have e3 : PyMath.root5 (XR.fin (tol / (est + EPS))) = .fin (PyMath.root5 (tol / (est + EPS))) := by
    change (if tol / (est + EPS) < 0 then XR.nan else XR.fin _) = _
    rw [if_neg (not_lt.mpr (by positivity))]
    rfl
  rw [e3]
  have m2 : ∀ a b : ℝ, pyMin2 (XR.fin a) (.fin b) = .fin (pyMin2 a b) := by
    intro a b
    unfold pyMin2
    simp only [XR.fin_lt]
    split_ifs <;> rfl
  have e4 : ∀ a b : ℝ, pyMin3 (XR.fin a) (.fin b) (PyMath.q 10) = .fin (pyMin3 a b (PyMath.q 10)) := by
    intro a b
    unfold pyMin3
    rw [m2]
    exact m2 _ _
  rw [e4]
  rfl

def TState.emb (s : TState ℝ) : TState XR :=
  ⟨.fin s.t, .fin s.dt, Oneka.emb s.xy, Oneka.emb s.k1, s.n, s.vs.map Oneka.emb,
    s.ss.map (fun a => ⟨.fin a.t, .fin a.dt, .fin a.est, Oneka.emb a.vertex⟩)⟩

def Trace.emb (r : Trace ℝ) : Trace XR :=
  ⟨r.vertices.map Oneka.emb, r.steps.map (fun a => ⟨.fin a.t, .fin a.dt, .fin a.est, Oneka.emb a.vertex⟩), r.warning.map XR.fin⟩

theorem titer_embed {fe' : ℕ → XR × XR → Except PyErr (XR × XR)} {fe : FEval} (h : Extends fe' fe) {d tol maxstep : ℝ}
    (ht : 0 ≤ tol) (s : TState ℝ) :
    titer ⟨.fin d, .fin tol, .fin maxstep, fe'⟩ s.emb =
      (titer ⟨d, tol, maxstep, fe⟩ s).map Trace.emb TState.emb := by
  unfold titer
  simp only [TState.emb, clipDt_embed, trial_embed h]
  have hlt : (PyMath.abs (XR.fin s.t) < PyMath.abs (XR.fin d)) = (PyMath.abs s.t < PyMath.abs d) := rfl
  simp only [hlt]
  by_cases h0 : PyMath.abs s.t < PyMath.abs d
  · rw [if_pos h0, if_pos h0]
    cases hx : trial fe s.n s.xy s.k1 (clipDt d s.t s.dt) with
    | error e => simp [Except.map, Trace.emb]
    | ok x =>
      obtain ⟨xyt, k2, est, ds⟩ := x
      obtain ⟨e1, e2⟩ := trial_nonneg hx
      simp only [Except.map, XR.fin_lt]
      by_cases h2 : est < tol ∧ ds < maxstep
      · rw [if_pos h2, if_pos h2, nextDt_embed ht e1 e2]
        simp [TState.emb]
      · rw [if_neg h2, if_neg h2, nextDt_embed ht e1 e2]
        simp [TState.emb]
  · rw [if_neg h0, if_neg h0]
    simp [Trace.emb]

theorem tfuel_embed {fe' : ℕ → XR × XR → Except PyErr (XR × XR)} {fe : FEval} (h : Extends fe' fe) {d tol maxstep : ℝ}
    (ht : 0 ≤ tol) (k : ℕ) (s : TState ℝ) :
    tfuel ⟨.fin d, .fin tol, .fin maxstep, fe'⟩ k s.emb =
      (tfuel ⟨d, tol, maxstep, fe⟩ k s).map Trace.emb := by
  induction k generalizing s with
  | zero => rfl
  | succ k ih =>
    simp only [tfuel, titer_embed h ht]
    cases titer ⟨d, tol, maxstep, fe⟩ s with
    | inl r => rfl
    | inr s' => exact ih s'

theorem tloop_embed {fe' : ℕ → XR × XR → Except PyErr (XR × XR)} {fe : FEval} (h : Extends fe' fe) {d tol maxstep : ℝ}
    (ht : 0 ≤ tol) (s : TState ℝ) :
    tloop ⟨.fin d, .fin tol, .fin maxstep, fe'⟩ s.emb = (tloop ⟨d, tol, maxstep, fe⟩ s).map Trace.emb := by
  cases hx : tloop ⟨d, tol, maxstep, fe⟩ s with
  | some r =>
    obtain ⟨k, hk⟩ := (tloop_eq_some _ s r).mp hx
    exact (tloop_eq_some _ _ _).mpr ⟨k, by rw [tfuel_embed h ht, hk]; rfl⟩
  | none =>
    cases h' : tloop ⟨.fin d, .fin tol, .fin maxstep, fe'⟩ s.emb with
    | none => rfl
    | some r =>
      obtain ⟨k, hk⟩ := (tloop_eq_some _ _ _).mp h'
      rw [tfuel_embed h ht] at hk
      cases h2 : tfuel ⟨d, tol, maxstep, fe⟩ k s with
      | none => rw [h2] at hk; simp at hk
      | some r2 =>
        have := (tloop_eq_some _ s r2).mpr ⟨k, h2⟩
        rw [hx] at this; simp at this

theorem computeBacktrace_embed {fe' : ℕ → XR × XR → Except PyErr (XR × XR)} {fe : FEval} (h : Extends fe' fe)
    {xs ys d tol maxstep : ℝ} (ht : 0 ≤ tol) :
    computeBacktrace (.fin xs) (.fin ys) (.fin d) (.fin tol) (.fin maxstep) fe' =
      (computeBacktrace xs ys d tol maxstep fe).map Trace.emb := by
  have h0 := h 0 (xs, ys)
  cases hk : fe 0 (xs, ys) with
  | error e =>
    rw [hk] at h0
    unfold computeBacktrace
    rw [hk, show ((XR.fin xs, XR.fin ys) : XR × XR) = emb (xs, ys) from rfl, h0]
    simp only [Except.map, Option.map_some, Trace.emb, List.map_cons, List.map_nil]
    rfl
  | ok k1 =>
    rw [hk] at h0
    rw [computeBacktrace_ok _ _ _ _ _ _ k1 hk, computeBacktrace_ok _ _ _ _ _ fe' (emb k1) h0, ← tloop_embed h ht]
    rfl

end Oneka
