import Verif.Lemmas.Embed

/-! A trace over the extended numbers that returns is a trace over the reals of a program that raises where the extended one answers NaN. -/

namespace Oneka

section
variable {F : Type} [Add F] [Sub F] [Mul F] [Div F] [LT F] [DecidableLT F] [PyMath F]

theorem titer_accept {D tol maxstep : F} {fe : ℕ → F × F → Except PyErr (F × F)} {s : TState F} {xyt k2 : F × F} {est ds : F}
    (h0 : PyMath.abs s.t < PyMath.abs D) (hx : trial fe s.n s.xy s.k1 (clipDt D s.t s.dt) = .ok (xyt, k2, est, ds)) (h2 : est < tol ∧ ds < maxstep) :
    titer ⟨D, tol, maxstep, fe⟩ s = .inr ⟨s.t + clipDt D s.t s.dt, nextDt tol maxstep est ds (clipDt D s.t s.dt), xyt, k2, s.n + 6, s.vs ++ [xyt],
      s.ss ++ [⟨s.t, clipDt D s.t s.dt, est, xyt⟩]⟩ := by
  unfold titer
  rw [if_pos h0]
  simp only [hx]
  rw [if_pos h2]

theorem titer_reject {D tol maxstep : F} {fe : ℕ → F × F → Except PyErr (F × F)} {s : TState F} {xyt k2 : F × F} {est ds : F}
    (h0 : PyMath.abs s.t < PyMath.abs D) (hx : trial fe s.n s.xy s.k1 (clipDt D s.t s.dt) = .ok (xyt, k2, est, ds)) (h2 : ¬ (est < tol ∧ ds < maxstep)) :
    titer ⟨D, tol, maxstep, fe⟩ s = .inr ⟨s.t, nextDt tol maxstep est ds (clipDt D s.t s.dt), s.xy, s.k1, s.n + 6, s.vs, s.ss⟩ := by
  unfold titer
  rw [if_pos h0]
  simp only [hx]
  rw [if_neg h2]

theorem titer_error {D tol maxstep : F} {fe : ℕ → F × F → Except PyErr (F × F)} {s : TState F} {e : PyErr}
    (h0 : PyMath.abs s.t < PyMath.abs D) (hx : trial fe s.n s.xy s.k1 (clipDt D s.t s.dt) = .error e) :
    titer ⟨D, tol, maxstep, fe⟩ s = .inl ⟨s.vs, s.ss, some s.t⟩ := by
  unfold titer
  rw [if_pos h0]
  simp only [hx]

theorem titer_done {D tol maxstep : F} {fe : ℕ → F × F → Except PyErr (F × F)} {s : TState F} (h0 : ¬ PyMath.abs s.t < PyMath.abs D) :
    titer ⟨D, tol, maxstep, fe⟩ s = .inl ⟨s.vs, s.ss, none⟩ := if_neg h0

end

abbrev XEval := ℕ → XR × XR → Except PyErr (XR × XR)

/-- the program that raises where `fe` does not answer two finite numbers -/
noncomputable def finPart (fe : XEval) : FEval := fun n p =>
  match fe n (emb p) with
  | .error e => .error e
  | .ok (.fin a, .fin b) => .ok (a, b)
  | .ok _ => .error .valueError

theorem finPart_ok {fe : XEval} {n : ℕ} {p v : ℝ × ℝ} : finPart fe n p = .ok v ↔ fe n (emb p) = .ok (emb v) := by
  unfold finPart
  constructor
  · intro h
    split at h
    · simp at h
    · rename_i a b hh
      obtain rfl := Except.ok.inj h
      exact hh
    · simp at h
  · intro h
    rw [h]
    rfl

/-- at finite points two finite numbers or a NaN, at NaN points a NaN -/
structure Tame (fe : XEval) : Prop where
  fin : ∀ n p v, fe n (emb p) = .ok v → (∃ w, v = emb w) ∨ HasNaN v
  nan : ∀ n p v, HasNaN p → fe n p = .ok v → HasNaN v

theorem emb_not_nan (w : ℝ × ℝ) : ¬ HasNaN (emb w) := by
  rintro (h | h) <;> simp [emb] at h

/-- the result of a trial, embedded -/
def embX (x : (ℝ × ℝ) × (ℝ × ℝ) × ℝ × ℝ) : (XR × XR) × (XR × XR) × XR × XR := (emb x.1, emb x.2.1, .fin x.2.2.1, .fin x.2.2.2)

theorem trial_lift {fe : XEval} {n : ℕ} {xy k1 : ℝ × ℝ} {dt : ℝ} {x : (ℝ × ℝ) × (ℝ × ℝ) × ℝ × ℝ}
    (h : trial (finPart fe) n xy k1 dt = .ok x) : trial fe n (emb xy) (emb k1) (.fin dt) = .ok (embX x) := by
  obtain ⟨xyt, k7, est, ds⟩ := x
  obtain ⟨k2, k3, k4, k5, k6, h2, h3, h4, h5, h6, rfl, h7, rfl, rfl⟩ := trial_evals h
  rw [finPart_ok] at h2 h3 h4 h5 h6 h7
  unfold trial
  simp only [bind, Except.bind, pure, Except.pure, emb_scq, emb_sc, emb_add, h2, h3, h4, h5, h6, h7, emb_sub, emb_normInf, emb_norm2, embX]

theorem trial_unlift {fe : XEval} (T : Tame fe) {n : ℕ} {xy k1 : ℝ × ℝ} {dt : ℝ} {xyt k7 : XR × XR} {est ds : XR}
    (h : trial fe n (emb xy) (emb k1) (.fin dt) = .ok (xyt, k7, est, ds)) :
    est = .nan ∨ ∃ x, trial (finPart fe) n xy k1 dt = .ok x ∧ (xyt, k7, est, ds) = embX x := by
  obtain ⟨k2, k3, k4, k5, k6, h2, h3, h4, h5, h6, rfl, h7, rfl, rfl⟩ := trial_evals h
  simp only [emb_scq, emb_sc, emb_add] at h2
  rcases T.fin _ _ _ h2 with ⟨k2, rfl⟩ | n2
  swap
  · have n3 : HasNaN k3 := T.nan _ _ _ (((n2.scq _).add_right).sc _).add_right h3
    exact .inl (normInf_nan ((n3.scq (-71/16695)).add_right.add_left.add_left.add_left.sc _))
  simp only [emb_scq, emb_sc, emb_add] at h3
  rcases T.fin _ _ _ h3 with ⟨k3, rfl⟩ | n3
  swap
  · exact .inl (normInf_nan ((n3.scq (-71/16695)).add_right.add_left.add_left.add_left.sc _))
  simp only [emb_scq, emb_sc, emb_add] at h4
  rcases T.fin _ _ _ h4 with ⟨k4, rfl⟩ | n4
  swap
  · exact .inl (normInf_nan ((n4.scq (71/1920)).add_right.add_left.add_left.sc _))
  simp only [emb_scq, emb_sc, emb_add] at h5
  rcases T.fin _ _ _ h5 with ⟨k5, rfl⟩ | n5
  swap
  · exact .inl (normInf_nan ((n5.scq (-17253/339200)).add_right.add_left.sc _))
  simp only [emb_scq, emb_sc, emb_add] at h6
  rcases T.fin _ _ _ h6 with ⟨k6, rfl⟩ | n6
  swap
  · exact .inl (normInf_nan ((n6.scq (22/525)).add_right.sc _))
  simp only [emb_scq, emb_sc, emb_add] at h7
  rcases T.fin _ _ _ h7 with ⟨k7, rfl⟩ | n7
  swap
  · exact .inl (normInf_nan ((n7.scq (-1/40)).add_right.add_left.add_left.add_left.add_left.sc _))
  have hx : ∃ x, trial (finPart fe) n xy k1 dt = .ok x := by
    rw [← finPart_ok] at h2 h3 h4 h5 h6 h7
    unfold trial
    simp only [bind, Except.bind, pure, Except.pure, h2, h3, h4, h5, h6, h7]
    exact ⟨_, rfl⟩
  obtain ⟨x, hx⟩ := hx
  refine .inr ⟨x, hx, ?_⟩
  rw [trial_lift hx] at h
  exact (Except.ok.inj h).symm

/-- after a NaN estimate the step is NaN -/
theorem nextDt_nan (tol maxstep ds dt : XR) : nextDt tol maxstep .nan ds dt = .nan := by
  unfold nextDt pyMin3 pyMin2
  have e : PyMath.root5 (tol / (XR.nan + EPS)) = .nan := by simp; rfl
  rw [e]
  simp

theorem trial_stuck {fe : XEval} {n : ℕ} {xy k1 : XR × XR} {dt : XR} {xyt k7 : XR × XR} {est ds : XR} (hs : dt = .nan ∨ HasNaN k1)
    (h : trial fe n xy k1 dt = .ok (xyt, k7, est, ds)) : est = .nan := by
  obtain ⟨k2, k3, k4, k5, k6, h2, h3, h4, h5, h6, rfl, h7, rfl, rfl⟩ := trial_evals h
  apply normInf_nan
  rcases hs with rfl | hk
  · exact .inl (by simp [sc])
  · exact (hk.scq _).add_left.add_left.add_left.add_left.add_left.sc _

theorem clip_nan (D t : XR) : clipDt D t .nan = .nan := by
  unfold clipDt
  rw [if_neg]
  rw [XR.add_nan]
  exact XR.not_lt_nan _

theorem backtrace_unlift {fe : XEval} (T : Tame fe) {xs ys D tol maxstep : ℝ} (hD : D ≠ 0) (ht : 0 ≤ tol) {r' : Trace XR}
    (h : computeBacktrace (.fin xs) (.fin ys) (.fin D) (.fin tol) (.fin maxstep) fe = some r') :
    ∃ r, computeBacktrace xs ys D tol maxstep (finPart fe) = some r ∧ r' = r.emb := by
  refine backtrace_inv
    (fun s' => (∃ s : TState ℝ, s' = s.emb ∧ ∀ r, tloop ⟨D, tol, maxstep, finPart fe⟩ s = some r → computeBacktrace xs ys D tol maxstep (finPart fe) = some r) ∨
      ∃ (r : Trace ℝ) (t : ℝ), computeBacktrace xs ys D tol maxstep (finPart fe) = some r ∧ r.warning = some t ∧ |t| < |D| ∧
        s'.t = .fin t ∧ s'.vs = r.emb.vertices ∧ s'.ss = r.emb.steps ∧ (s'.dt = .nan ∨ HasNaN s'.k1))
    (fun r' => ∃ r, computeBacktrace xs ys D tol maxstep (finPart fe) = some r ∧ r' = r.emb) ?_ ?_ ?_ ?_ h
  · intro e he
    have h1 : finPart fe 0 (xs, ys) = .error e := by
      unfold finPart
      rw [show emb (xs, ys) = (XR.fin xs, XR.fin ys) from rfl, he]
    refine ⟨⟨[(xs, ys)], [], some (PyMath.q 0)⟩, ?_, ?_⟩
    · unfold computeBacktrace
      rw [h1]
    · simp only [Trace.emb, List.map_cons, List.map_nil, Option.map_some]
      rfl
  · intro k1 hk
    rcases T.fin 0 (xs, ys) k1 hk with ⟨k, rfl⟩ | hn
    · left
      have h1 : finPart fe 0 (xs, ys) = .ok k := finPart_ok.mpr hk
      refine ⟨⟨PyMath.q 0, PyMath.q (1/10) * PyMath.sign D, (xs, ys), k, 1, [(xs, ys)], []⟩, rfl, fun r hr => ?_⟩
      rw [computeBacktrace_ok _ _ _ _ _ _ k h1]
      exact hr
    · right
      have h1 : finPart fe 0 (xs, ys) = .error .valueError := by
        unfold finPart
        rw [show emb (xs, ys) = (XR.fin xs, XR.fin ys) from rfl, hk]
        obtain ⟨a, b⟩ := k1
        rcases hn with hn | hn
        · obtain rfl : a = .nan := hn
          cases b <;> rfl
        · obtain rfl : b = .nan := hn
          cases a <;> rfl
      refine ⟨⟨[(xs, ys)], [], some (PyMath.q 0)⟩, 0, ?_, by simp, by simpa using hD, ?_, rfl, rfl, .inr hn⟩
      · unfold computeBacktrace
        rw [h1]
      · show XR.fin ((0:ℚ):ℝ) = _
        simp
  · intro s' s'' hI hp
    rcases hI with ⟨s, rfl, hs⟩ | ⟨r, t, hr, hw, hlt, e1, e2, e3, hst⟩
    · have hlt' : ∀ (h : PyMath.abs s.emb.t < PyMath.abs (XR.fin D)), |s.t| < |D| := fun h => h
      cases hp with
      | accept hlt xyt k2 est ds he h1 h2 =>
        left
        simp only [TState.emb, clipDt_embed] at he
        rcases trial_unlift T he with rfl | ⟨x, hx, ex⟩
        · exact absurd h1 (XR.not_nan_lt _)
        · obtain ⟨xyt', k2', est', ds'⟩ := x
          simp only [embX, Prod.mk.injEq] at ex
          obtain ⟨rfl, rfl, rfl, rfl⟩ := ex
          obtain ⟨n1, n2⟩ := trial_nonneg hx
          refine ⟨⟨s.t + clipDt D s.t s.dt, nextDt tol maxstep est' ds' (clipDt D s.t s.dt), xyt', k2', s.n + 6, s.vs ++ [xyt'],
            s.ss ++ [⟨s.t, clipDt D s.t s.dt, est', xyt'⟩]⟩, ?_, fun r hr => hs r ?_⟩
          · simp only [TState.emb, clipDt_embed, nextDt_embed ht n1 n2, XR.fin_add, List.map_append, List.map_cons, List.map_nil]
          · rw [tloop_unfold]
            rw [titer_accept (hlt' hlt) hx ⟨h1, h2⟩]
            exact hr
      | reject hlt xyt k2 est ds he h1 =>
        simp only [TState.emb, clipDt_embed] at he
        rcases trial_unlift T he with rfl | ⟨x, hx, ex⟩
        · right
          cases hx : trial (finPart fe) s.n s.xy s.k1 (clipDt D s.t s.dt) with
          | ok x =>
            have := trial_lift hx
            rw [he] at this
            simp [embX] at this
          | error e =>
            refine ⟨⟨s.vs, s.ss, some s.t⟩, s.t, hs _ ?_, rfl, hlt' hlt, rfl, rfl, rfl, .inl (nextDt_nan _ _ _ _)⟩
            rw [tloop_unfold]
            rw [titer_error (hlt' hlt) hx]
        · left
          obtain ⟨xyt', k2', est', ds'⟩ := x
          simp only [embX, Prod.mk.injEq] at ex
          obtain ⟨rfl, rfl, rfl, rfl⟩ := ex
          obtain ⟨n1, n2⟩ := trial_nonneg hx
          refine ⟨⟨s.t, nextDt tol maxstep est' ds' (clipDt D s.t s.dt), s.xy, s.k1, s.n + 6, s.vs, s.ss⟩, ?_, fun r hr => hs r ?_⟩
          · simp only [TState.emb, clipDt_embed, nextDt_embed ht n1 n2]
          · rw [tloop_unfold]
            rw [titer_reject (hlt' hlt) hx h1]
            exact hr
    · right
      cases hp with
      | accept hlt' xyt k2 est ds he h1 h2 =>
        have hst' : clipDt (XR.fin D) s'.t s'.dt = .nan ∨ HasNaN s'.k1 := hst.imp_left fun e => by rw [e, clip_nan]
        rw [trial_stuck hst' he] at h1
        exact absurd h1 (XR.not_nan_lt _)
      | reject hlt' xyt k2 est ds he h1 =>
        have hst' : clipDt (XR.fin D) s'.t s'.dt = .nan ∨ HasNaN s'.k1 := hst.imp_left fun e => by rw [e, clip_nan]
        refine ⟨r, t, hr, hw, hlt, e1, e2, e3, .inl ?_⟩
        rw [trial_stuck hst' he]
        exact nextDt_nan _ _ _ _
  · intro s' r' hI hp
    rcases hI with ⟨s, rfl, hs⟩ | ⟨r, t, hr, hw, hlt, e1, e2, e3, hst⟩
    · cases hp with
      | done hn =>
        refine ⟨⟨s.vs, s.ss, none⟩, hs _ ?_, rfl⟩
        rw [tloop_unfold]
        rw [titer_done (s := s) hn]
      | error hlt e he =>
        refine ⟨⟨s.vs, s.ss, some s.t⟩, hs _ ?_, rfl⟩
        cases hx : trial (finPart fe) s.n s.xy s.k1 (clipDt D s.t s.dt) with
        | ok x =>
          simp only [TState.emb, clipDt_embed] at he
          rw [trial_lift hx] at he
          simp at he
        | error e =>
          rw [tloop_unfold]
          rw [titer_error (show |s.t| < |D| from hlt) hx]
    · cases hp with
      | done hn =>
        rw [e1] at hn
        exact absurd hlt hn
      | error hlt' e he =>
        refine ⟨r, hr, ?_⟩
        rw [e1, e2, e3]
        simp [Trace.emb, hw]

theorem tfuel_lift {fe : XEval} {D tol maxstep : ℝ} (ht : 0 ≤ tol) (k : ℕ) (s : TState ℝ) {r : Trace ℝ}
    (h : tfuel ⟨D, tol, maxstep, finPart fe⟩ k s = some r) (hw : r.warning = none) :
    tfuel ⟨.fin D, .fin tol, .fin maxstep, fe⟩ k s.emb = some r.emb := by
  induction k generalizing s with
  | zero => simp [tfuel] at h
  | succ k ih =>
    simp only [tfuel] at h ⊢
    by_cases h0 : |s.t| < |D|
    · have h0' : PyMath.abs s.emb.t < PyMath.abs (XR.fin D) := h0
      cases hx : trial (finPart fe) s.n s.xy s.k1 (clipDt D s.t s.dt) with
      | error e =>
        rw [titer_error h0 hx] at h
        obtain rfl := Option.some.inj h
        simp at hw
      | ok x =>
        obtain ⟨xyt, k2, est, ds⟩ := x
        obtain ⟨n1, n2⟩ := trial_nonneg hx
        have hx' : trial fe s.emb.n s.emb.xy s.emb.k1 (clipDt (.fin D) s.emb.t s.emb.dt) = .ok (emb xyt, emb k2, .fin est, .fin ds) := by
          simp only [TState.emb, clipDt_embed]
          exact trial_lift hx
        by_cases h2 : est < tol ∧ ds < maxstep
        · rw [titer_accept h0 hx h2] at h
          rw [titer_accept h0' hx' h2]
          have := ih _ h
          simpa only [TState.emb, clipDt_embed, nextDt_embed ht n1 n2, XR.fin_add, List.map_append, List.map_cons, List.map_nil] using this
        · rw [titer_reject h0 hx h2] at h
          rw [titer_reject h0' hx' h2]
          have := ih _ h
          simpa only [TState.emb, clipDt_embed, nextDt_embed ht n1 n2] using this
    · rw [titer_done (s := s) h0] at h
      rw [titer_done (s := s.emb) h0]
      obtain rfl := Option.some.inj h
      rfl

/-- a complete trace over the reals is the trace over the extended numbers -/
theorem backtrace_lift {fe : XEval} {xs ys D tol maxstep : ℝ} (ht : 0 ≤ tol) {r : Trace ℝ}
    (h : computeBacktrace xs ys D tol maxstep (finPart fe) = some r) (hw : r.warning = none) :
    computeBacktrace (.fin xs) (.fin ys) (.fin D) (.fin tol) (.fin maxstep) fe = some r.emb := by
  cases hk : finPart fe 0 (xs, ys) with
  | error e =>
    unfold computeBacktrace at h
    rw [hk] at h
    obtain rfl := Option.some.inj h
    simp at hw
  | ok k1 =>
    rw [computeBacktrace_ok _ _ _ _ _ _ k1 hk] at h
    rw [computeBacktrace_ok _ _ _ _ _ _ (emb k1) (finPart_ok.mp hk)]
    obtain ⟨k, hk'⟩ := (tloop_eq_some _ _ _).mp h
    exact (tloop_eq_some _ _ _).mpr ⟨k, tfuel_lift ht k _ hk' hw⟩

end Oneka
