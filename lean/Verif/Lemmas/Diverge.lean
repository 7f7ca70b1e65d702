import Verif.Lemmas.Terminate
import Verif.Py.Ext

set_option linter.unusedSectionVars false

namespace Oneka

/-! ## Below the machine-epsilon scale -/

theorem trial_zero (n : ℕ) (xy : ℝ × ℝ) (dt : ℝ) :
    trial (steady (fun _ => 0)) n xy 0 dt = .ok (xy, 0, 0, 0) := by
  unfold trial steady
  simp only [bind, Except.bind, pure, Except.pure, sc_real, scq_real, smul_zero, add_zero, sub_self]
  simp [normInf, norm2]

theorem root5_lt {x : ℝ} (h0 : 0 ≤ x) (h : x < (10/9 : ℝ)^5) : x ^ ((1:ℝ)/5) < 10/9 := by
  have h1 : ((10/9 : ℝ)^5) ^ ((1:ℝ)/5) = 10/9 := by
    rw [← Real.rpow_natCast, ← Real.rpow_mul (by norm_num)]
    norm_num
  rw [← h1]
  exact Real.rpow_lt_rpow h0 h (by norm_num)

theorem diverges_small {tol maxstep : ℝ} (ht : 0 < tol) (hm : 0 < maxstep)
    (hsmall : tol < (10/9 : ℝ)^5 * EPS ∨ maxstep < 10/9 * EPS) :
    ∃ D0 : ℝ, ∀ D xs ys, D0 ≤ |D| → computeBacktrace xs ys D tol maxstep (steady (fun _ => 0)) = none := by
  have hE := EPS_pos
  set ρ := 9/10 * min (min ((tol / (0 + EPS)) ^ ((1:ℝ)/5)) (maxstep / (0 + EPS))) 10 with hρ
  have hρ0 : 0 < ρ := by
    have a : 0 < (tol / (0 + EPS)) ^ ((1:ℝ)/5) := Real.rpow_pos_of_pos (by positivity) _
    have b : 0 < maxstep / (0 + EPS) := by positivity
    have : 0 < min (min ((tol / (0 + EPS)) ^ ((1:ℝ)/5)) (maxstep / (0 + EPS))) 10 := lt_min (lt_min a b) (by norm_num)
    positivity
  have hρ1 : ρ < 1 := by
    have : min (min ((tol / (0 + EPS)) ^ ((1:ℝ)/5)) (maxstep / (0 + EPS))) 10 < 10/9 := by
      rcases hsmall with h | h
      · refine (min_le_left _ _).trans_lt ((min_le_left _ _).trans_lt (root5_lt (by positivity) ?_))
        rw [div_lt_iff₀ (by linarith)]; linarith
      · refine (min_le_left _ _).trans_lt ((min_le_right _ _).trans_lt ?_)
        rw [div_lt_iff₀ (by linarith)]; linarith
    rw [hρ]; linarith
  have hnext : ∀ dt, nextDt tol maxstep 0 0 dt = ρ * dt := fun dt => by rw [nextDt_eq]
  set D0 := (1/10) / (1 - ρ) with hD0
  have hD0pos : 0 < D0 := div_pos (by norm_num) (by linarith)
  have pos : ∀ D xs ys, D0 ≤ D → computeBacktrace xs ys D tol maxstep (steady (fun _ => 0)) = none := by
    intro D xs ys hD
    have hDpos : 0 < D := hD0pos.trans_le hD
    rw [computeBacktrace_ok _ _ _ _ _ _ 0 rfl]
    refine tloop_none (fun s => 0 ≤ s.t ∧ 0 < s.dt ∧ s.t * (1 - ρ) + s.dt ≤ 1/10 ∧ s.k1 = 0) ?_ ?_
    · intro s ⟨h1, h2, h3, h4⟩
      have hkey : s.t + s.dt ≤ D0 := by
        rw [hD0, le_div_iff₀ (by linarith)]
        nlinarith
      have hlt : PyMath.abs s.t < PyMath.abs D := by
        simp only [PyMath.abs_real]
        rw [abs_of_nonneg h1, abs_of_pos hDpos]; linarith
      have hclip : clipDt D s.t s.dt = s.dt := by
        unfold clipDt
        rw [if_neg]
        simp only [PyMath.abs_real]
        rw [abs_of_pos hDpos, abs_of_pos (by linarith)]
        linarith
      refine ⟨⟨s.t + s.dt, ρ * s.dt, s.xy, 0, s.n+6, s.vs ++ [s.xy], s.ss ++ [⟨s.t, s.dt, 0, s.xy⟩]⟩, ?_, ?_⟩
      · unfold titer
        rw [if_pos hlt]
        simp only [h4, trial_zero, hclip, hnext]
        rw [if_pos ⟨ht, hm⟩]
      · refine ⟨by dsimp only; linarith, by dsimp only; positivity, ?_, rfl⟩
        dsimp only
        nlinarith
    · simp only [PyMath.q_real, PyMath.sign_real, Real.sign_of_pos hDpos]
      norm_num
  refine ⟨D0, ?_⟩
  intro D xs ys hD
  rcases le_or_gt 0 D with h | h
  · exact pos D xs ys (by rwa [abs_of_nonneg h] at hD)
  · rw [abs_of_neg h] at hD
    have h1 := pos (-D) xs ys hD
    have h2 := computeBacktrace_neg xs ys (-D) tol maxstep (steady (fun _ => 0))
    have h3 : FEval.neg (steady fun _ => 0) = steady (fun _ => 0) := by
      funext n p; simp [FEval.neg, steady, Except.map]
    rw [neg_neg, h3, h1] at h2
    exact h2

/-! ## NaN -/

/-- a NaN coordinate -/
def HasNaN (v : XR × XR) : Prop := v.1 = .nan ∨ v.2 = .nan

theorem HasNaN.add_left {v w : XR × XR} (h : HasNaN v) : HasNaN (v + w) := by
  rcases h with h | h
  · exact Or.inl (by rw [Prod.fst_add, h, XR.nan_add])
  · exact Or.inr (by rw [Prod.snd_add, h, XR.nan_add])

theorem HasNaN.add_right {v w : XR × XR} (h : HasNaN w) : HasNaN (v + w) := by
  rcases h with h | h
  · exact Or.inl (by rw [Prod.fst_add, h, XR.add_nan])
  · exact Or.inr (by rw [Prod.snd_add, h, XR.add_nan])

theorem HasNaN.sc {v : XR × XR} (c : XR) (h : HasNaN v) : HasNaN (sc c v) := by
  rcases h with h | h
  · exact Or.inl (by show c * v.1 = _; rw [h, XR.mul_nan])
  · exact Or.inr (by show c * v.2 = _; rw [h, XR.mul_nan])

theorem HasNaN.scq {v : XR × XR} (c : ℚ) (h : HasNaN v) : HasNaN (scq c v) := HasNaN.sc _ h

theorem normInf_nan {v : XR × XR} (h : HasNaN v) : normInf v = .nan := by
  obtain ⟨a, b⟩ := v
  rcases h with h | h
  · obtain rfl : a = .nan := h
    cases b <;> rfl
  · obtain rfl : b = .nan := h
    cases a <;> rfl

theorem trial_nan {fe : ℕ → XR × XR → Except PyErr (XR × XR)} (hok : ∀ n p, HasNaN p → ∃ v, fe n p = .ok v)
    {n : ℕ} {xy k1 : XR × XR} (dt : XR) (hk : HasNaN k1) :
    ∃ xyt k2 ds, trial fe n xy k1 dt = .ok (xyt, k2, .nan, ds) := by
  obtain ⟨k2, h2⟩ := hok n (xy + sc dt (scq (1/5) k1)) ((hk.scq _).sc _).add_right
  obtain ⟨k3, h3⟩ := hok (n+1) (xy + sc dt (scq (3/40) k1 + scq (9/40) k2)) (((hk.scq _).add_left).sc _).add_right
  obtain ⟨k4, h4⟩ := hok (n+2) (xy + sc dt (scq (44/45) k1 + scq (-56/15) k2 + scq (32/9) k3))
    (((hk.scq _).add_left.add_left).sc _).add_right
  obtain ⟨k5, h5⟩ := hok (n+3) (xy + sc dt (scq (19372/6561) k1 + scq (-25360/2187) k2 + scq (64448/6561) k3
    + scq (-212/729) k4)) (((hk.scq _).add_left.add_left.add_left).sc _).add_right
  obtain ⟨k6, h6⟩ := hok (n+4) (xy + sc dt (scq (9017/3168) k1 + scq (-355/33) k2 + scq (46732/5247) k3
    + scq (49/176) k4 + scq (-5103/18656) k5)) (((hk.scq _).add_left.add_left.add_left.add_left).sc _).add_right
  obtain ⟨k7, h7⟩ := hok (n+5) (xy + sc dt (scq (35/384) k1 + scq (500/1113) k3 + scq (125/192) k4 + scq (-2187/6784) k5
    + scq (11/84) k6)) (((hk.scq _).add_left.add_left.add_left.add_left).sc _).add_right
  refine ⟨xy + sc dt (scq (35/384) k1 + scq (500/1113) k3 + scq (125/192) k4 + scq (-2187/6784) k5 + scq (11/84) k6),
    k7, norm2 (xy + sc dt (scq (35/384) k1 + scq (500/1113) k3 + scq (125/192) k4 + scq (-2187/6784) k5
      + scq (11/84) k6) - xy), ?_⟩
  unfold trial
  simp only [bind, Except.bind, pure, Except.pure, h2, h3, h4, h5, h6, h7]
  rw [normInf_nan (((hk.scq (71/57600)).add_left.add_left.add_left.add_left.add_left).sc dt)]

theorem diverges_nan {fe : ℕ → XR × XR → Except PyErr (XR × XR)} (hok : ∀ n p, HasNaN p → ∃ v, fe n p = .ok v)
    {xs ys D tol maxstep : XR} {k1 : XR × XR} (hk0 : fe 0 (xs, ys) = .ok k1) (hk : HasNaN k1)
    (hD : (.fin 0 : XR) < PyMath.abs D) : computeBacktrace xs ys D tol maxstep fe = none := by
  rw [computeBacktrace_ok _ _ _ _ _ _ k1 hk0]
  refine tloop_none (fun s => s.t = PyMath.q 0 ∧ HasNaN s.k1) ?_ ⟨rfl, hk⟩
  intro s ⟨h1, h2⟩
  obtain ⟨xyt, k2, ds, ht⟩ := trial_nan hok (n := s.n) (xy := s.xy) (clipDt D s.t s.dt) h2
  refine ⟨⟨s.t, nextDt tol maxstep .nan ds (clipDt D s.t s.dt), s.xy, s.k1, s.n+6, s.vs, s.ss⟩, ?_, h1, h2⟩
  unfold titer
  rw [if_pos]
  · rw [ht]
    simp
  · rw [h1]
    have : PyMath.abs (PyMath.q 0 : XR) = .fin 0 := by
      show XR.fin |((0:ℚ):ℝ)| = _; simp
    rw [this]; exact hD

/-! ## Vertices stay finite -/

theorem XR.fin_of_sub {a b : XR} (h : (a - b).IsFin) : a.IsFin := by
  cases a <;> cases b <;> first | trivial | exact h.elim

theorem XR.fin_of_norm2_lt {v : XR × XR} {m : XR} (h : norm2 v < m) : v.1.IsFin ∧ v.2.IsFin := by
  obtain ⟨a, b⟩ := v
  have hsq : ∀ x : XR, (∃ r, x * x = .fin (r*r) ∧ x.IsFin) ∨ x * x = .pinf ∨ x * x = .nan := by
    intro x
    cases x with
    | fin r => exact Or.inl ⟨r, rfl, trivial⟩
    | pinf => exact Or.inr (Or.inl rfl)
    | ninf => exact Or.inr (Or.inl rfl)
    | nan => exact Or.inr (Or.inr rfl)
  have hp : ∀ m : XR, ¬ (XR.pinf < m) := by intro m; cases m <;> exact fun h => h
  simp only [norm2] at h
  rcases hsq a with ⟨r, ha, fa⟩ | ha | ha <;> rcases hsq b with ⟨q, hb, fb⟩ | hb | hb <;> rw [ha, hb] at h
  · exact ⟨fa, fb⟩
  all_goals exfalso
  · exact hp m h
  · exact XR.not_nan_lt m h
  · exact hp m h
  · exact hp m h
  · exact XR.not_nan_lt m h
  · exact XR.not_nan_lt m h
  · exact XR.not_nan_lt m h
  · exact XR.not_nan_lt m h

theorem vertices_finite {fe : ℕ → XR × XR → Except PyErr (XR × XR)} {xs ys D tol maxstep : XR} {r : Trace XR}
    (hx : xs.IsFin) (hy : ys.IsFin) (h : computeBacktrace xs ys D tol maxstep fe = some r) :
    ∀ v ∈ r.vertices, v.1.IsFin ∧ v.2.IsFin := by
  refine backtrace_inv (fun s => ∀ v ∈ s.vs, v.1.IsFin ∧ v.2.IsFin) (fun r => ∀ v ∈ r.vertices, v.1.IsFin ∧ v.2.IsFin)
    ?_ ?_ ?_ ?_ h
  · intro _ _ v hv
    obtain rfl := List.mem_singleton.mp hv
    exact ⟨hx, hy⟩
  · intro _ _ v hv
    obtain rfl := List.mem_singleton.mp hv
    exact ⟨hx, hy⟩
  · intro s s' hs hp
    cases hp with
    | accept hlt xyt k2 est ds he ht hd =>
      intro v hv
      rcases List.mem_append.mp hv with hv | hv
      · exact hs v hv
      · obtain rfl := List.mem_singleton.mp hv
        rw [(trial_ds he).1] at hd
        obtain ⟨h1, h2⟩ := XR.fin_of_norm2_lt hd
        exact ⟨XR.fin_of_sub h1, XR.fin_of_sub h2⟩
    | reject => exact hs
  · intro s r hs hp
    cases hp <;> exact hs

/-! ## Interruption -/

section
variable {F : Type} [Add F] [Sub F] [Mul F] [Div F] [LT F] [DecidableLT F] [PyMath F]

/-- `fe'` behaves like `fe` except that some calls raise. -/
def MayRaise (fe' fe : ℕ → F × F → Except PyErr (F × F)) : Prop :=
  ∀ n p, fe' n p = fe n p ∨ ∃ e, fe' n p = .error e

theorem MayRaise.ok {fe' fe : ℕ → F × F → Except PyErr (F × F)} (h : MayRaise fe' fe) {n p v} (hv : fe' n p = .ok v) :
    fe n p = .ok v := by
  rcases h n p with h | ⟨e, h⟩
  · rw [← h]; exact hv
  · rw [h] at hv; simp at hv

theorem MayRaise.trial {fe' fe : ℕ → F × F → Except PyErr (F × F)} (h : MayRaise fe' fe) {n xy k1 dt x}
    (hv : trial fe' n xy k1 dt = .ok x) : trial fe n xy k1 dt = .ok x := by
  obtain ⟨xyt, k7, est, ds⟩ := x
  obtain ⟨k2, k3, k4, k5, k6, h2, h3, h4, h5, h6, hx, h7, he, hd⟩ := trial_evals hv
  unfold Oneka.trial
  subst hx
  simp only [bind, Except.bind, pure, Except.pure, h.ok h2, h.ok h3, h.ok h4, h.ok h5, h.ok h6, h.ok h7]
  rw [he, hd]

theorem tloop_prefix {c : TCfg F} {s : TState F} {r : Trace F} (h : tloop c s = some r) : s.vs <+: r.vertices := by
  refine tloop_inv (fun s' => s.vs <+: s'.vs) (fun r => s.vs <+: r.vertices) ?_ ?_ (List.prefix_refl _) h
  · intro s1 s2 h1 e
    have hp := pass_of_titer e
    cases hp with
    | accept => exact h1.trans (List.prefix_append _ _)
    | reject => exact h1
  · intro s1 r h1 e
    have hp := pass_of_titer e
    cases hp <;> exact h1

theorem interrupted_prefix {fe' fe : ℕ → F × F → Except PyErr (F × F)} (hr : MayRaise fe' fe)
    {xs ys D tol maxstep : F} {r r' : Trace F} (h : computeBacktrace xs ys D tol maxstep fe = some r)
    (h' : computeBacktrace xs ys D tol maxstep fe' = some r') : r'.vertices <+: r.vertices := by
  cases hk : fe' 0 (xs, ys) with
  | error e =>
    unfold computeBacktrace at h'
    rw [hk] at h'
    obtain rfl := Option.some.inj h'
    rw [trace_vertices h]
    exact ⟨_, rfl⟩
  | ok k1 =>
    rw [computeBacktrace_ok _ _ _ _ _ _ _ hk] at h'
    rw [computeBacktrace_ok _ _ _ _ _ _ _ (hr.ok hk)] at h
    refine tloop_inv (fun s => tloop ⟨D, tol, maxstep, fe⟩ s = some r) (fun r' => r'.vertices <+: r.vertices) ?_ ?_ h h'
    · intro s s' hs e
      have hp := pass_of_titer e
      have : titer ⟨D, tol, maxstep, fe⟩ s = .inr s' := by
        cases hp with
        | accept hlt xyt k2 est ds he ht hd =>
          unfold titer
          rw [if_pos hlt, hr.trial he]
          simp only
          rw [if_pos ⟨ht, hd⟩]
        | reject hlt xyt k2 est ds he ht =>
          unfold titer
          rw [if_pos hlt, hr.trial he]
          simp only
          rw [if_neg ht]
      rw [tloop_unfold, this] at hs
      exact hs
    · intro s r1 hs e
      have hp := pass_of_titer e
      cases hp with
      | done hlt => exact tloop_prefix hs
      | error => exact tloop_prefix hs

/-- A trace that was not cut short by a raising call is the trace without raising calls. -/
theorem undisturbed {fe' fe : ℕ → F × F → Except PyErr (F × F)} (hr : MayRaise fe' fe)
    {xs ys D tol maxstep : F} {r' : Trace F} (h' : computeBacktrace xs ys D tol maxstep fe' = some r')
    (hw : r'.warning = none) : computeBacktrace xs ys D tol maxstep fe = some r' := by
  cases hk : fe' 0 (xs, ys) with
  | error e =>
    unfold computeBacktrace at h'
    rw [hk] at h'
    obtain rfl := Option.some.inj h'
    simp at hw
  | ok k1 =>
    rw [computeBacktrace_ok _ _ _ _ _ _ _ hk] at h'
    rw [computeBacktrace_ok _ _ _ _ _ _ _ (hr.ok hk)]
    refine tloop_inv (fun s => tloop ⟨D, tol, maxstep, fe⟩ ⟨PyMath.q 0, PyMath.q (1/10) * PyMath.sign D, (xs, ys), k1, 1, [(xs, ys)], []⟩
        = tloop ⟨D, tol, maxstep, fe⟩ s)
      (fun r => r.warning = none → tloop ⟨D, tol, maxstep, fe⟩ ⟨PyMath.q 0, PyMath.q (1/10) * PyMath.sign D, (xs, ys), k1, 1, [(xs, ys)], []⟩
        = some r) ?_ ?_ rfl h' hw
    · intro s s' hs e
      have hp := pass_of_titer e
      have : titer ⟨D, tol, maxstep, fe⟩ s = .inr s' := by
        cases hp with
        | accept hlt xyt k2 est ds he ht hd =>
          unfold titer
          rw [if_pos hlt, hr.trial he]
          simp only
          rw [if_pos ⟨ht, hd⟩]
        | reject hlt xyt k2 est ds he ht =>
          unfold titer
          rw [if_pos hlt, hr.trial he]
          simp only
          rw [if_neg ht]
      rw [hs, tloop_unfold, this]
    · intro s r1 hs e hw1
      have hp := pass_of_titer e
      cases hp with
      | done hlt =>
        rw [hs, tloop_unfold]
        unfold titer
        rw [if_neg hlt]
      | error => simp at hw1

theorem interrupted_terminates {fe : ℕ → F × F → Except PyErr (F × F)} {N : ℕ} (hN : ∀ p, ∃ e, fe N p = .error e)
    (xs ys D tol maxstep : F) : ∃ r, computeBacktrace xs ys D tol maxstep fe = some r := by
  cases hk : fe 0 (xs, ys) with
  | error e => exact ⟨_, by unfold computeBacktrace; rw [hk]⟩
  | ok k1 =>
    rw [computeBacktrace_ok _ _ _ _ _ _ _ hk]
    have main : ∀ m s, s.n ≤ N → N < s.n + 6 * m → ∃ r, tloop ⟨D, tol, maxstep, fe⟩ s = some r := by
      intro m
      induction m with
      | zero => intro s h1 h2; omega
      | succ m ih =>
        intro s h1 h2
        have absurdEval : ∀ {n p v}, fe n p = .ok v → n ≠ N := by
          intro n p v hv e
          subst e
          obtain ⟨e, he⟩ := hN p
          rw [he] at hv; simp at hv
        have step : ∀ xyt k7 est ds, trial fe s.n s.xy s.k1 (clipDt D s.t s.dt) = .ok (xyt, k7, est, ds) → s.n + 6 ≤ N := by
          intro xyt k7 est ds ht
          obtain ⟨k2, k3, k4, k5, k6, e2, e3, e4, e5, e6, -, e7, -, -⟩ := trial_evals ht
          have := absurdEval e2
          have := absurdEval e3
          have := absurdEval e4
          have := absurdEval e5
          have := absurdEval e6
          have := absurdEval e7
          omega
        rw [tloop_unfold]
        cases hx : titer ⟨D, tol, maxstep, fe⟩ s with
        | inl r => exact ⟨r, rfl⟩
        | inr s' =>
          have hp := pass_of_titer hx
          cases hp with
          | accept hlt xyt k2 est ds he ht hd =>
            have := step _ _ _ _ he
            exact ih _ this (by dsimp only; omega)
          | reject hlt xyt k2 est ds he ht =>
            have := step _ _ _ _ he
            exact ih _ this (by dsimp only; omega)
    refine main N _ ?_ ?_
    · by_contra hcon
      have : N = 0 := by dsimp only at hcon; omega
      subst this
      obtain ⟨e, he⟩ := hN (xs, ys)
      rw [he] at hk; simp at hk
    · dsimp only
      omega
end

end Oneka
