import Verif.Props.Causes

/-!
# Lemmas for Props/Unusable.lean
-/

namespace Oneka

/-! ## Inf and NaN are contagious -/

theorem XR.add_nonfin_left {x : XR} (y : XR) (h : ¬ x.IsFin) : ¬ (x + y).IsFin := by
  cases x <;> cases y <;> first | exact id | exact absurd trivial h

theorem XR.add_nonfin_right (x : XR) {y : XR} (h : ¬ y.IsFin) : ¬ (x + y).IsFin := by
  cases x <;> cases y <;> first | exact id | exact absurd trivial h

theorem XR.infOf_nonfin (s : ℝ) : ¬ (XR.infOf s).IsFin := by
  unfold XR.infOf
  split
  · exact id
  · split <;> exact id

theorem XR.mul_nonfin_left {x : XR} (y : XR) (h : ¬ x.IsFin) : ¬ (x * y).IsFin := by
  cases x <;> cases y <;> first | exact id | exact absurd trivial h | exact XR.infOf_nonfin _

theorem XR.mul_nonfin_right (x : XR) {y : XR} (h : ¬ y.IsFin) : ¬ (x * y).IsFin := by
  cases x <;> cases y <;> first | exact id | exact absurd trivial h | exact XR.infOf_nonfin _

theorem XR.neg_nonfin {x : XR} (h : ¬ x.IsFin) : ¬ (-x).IsFin := by
  cases x <;> first | exact id | exact absurd trivial h

theorem XR.sub_nonfin_right (x : XR) {y : XR} (h : ¬ y.IsFin) : ¬ (x - y).IsFin := XR.add_nonfin_right x (XR.neg_nonfin h)

theorem XR.div_fin_nonfin {x : XR} (b : ℝ) (h : ¬ x.IsFin) : ¬ (x / .fin b).IsFin := by
  cases x with
  | fin a => exact absurd trivial h
  | nan => exact id
  | pinf => show ¬ (if b < 0 then XR.ninf else XR.pinf).IsFin; split <;> exact id
  | ninf => show ¬ (if b < 0 then XR.pinf else XR.ninf).IsFin; split <;> exact id

theorem XR.div_zero_nonfin (x : XR) : ¬ (x / .fin 0).IsFin := by
  cases x with
  | fin a =>
    show ¬ (if (0:ℝ) = 0 then XR.infOf a else _).IsFin
    rw [if_pos rfl]
    exact XR.infOf_nonfin a
  | nan => exact XR.div_fin_nonfin 0 id
  | pinf => exact XR.div_fin_nonfin 0 id
  | ninf => exact XR.div_fin_nonfin 0 id

namespace Aquifer

/-! ## The fit -/

theorem potentialWells_at_well (m : Aquifer ℝ) {x y : ℝ} (h : ¬ m.OffWells x y) : ¬ (m.toX.potentialWells (.fin x) (.fin y)).IsFin := by
  unfold OffWells at h
  push Not at h
  unfold potentialWells toX
  simp only
  have key : ∀ (ws : List (Well ℝ)) (p : XR), (¬ p.IsFin ∨ ∃ w ∈ ws, (x, y) = (w.xw, w.yw)) →
      ¬ (List.foldl (fun potential (well : Well XR) => potential + well.qw *
        PyMath.log ((XR.fin x - well.xw) * (XR.fin x - well.xw) + (XR.fin y - well.yw) * (XR.fin y - well.yw)) * PyMath.q fourPiInv) p
        (ws.map fun w => ⟨.fin w.xw, .fin w.yw, .fin w.rw, .fin w.qw⟩)).IsFin := by
    intro ws
    induction ws with
    | nil =>
      rintro p (hp | ⟨w, hw, -⟩)
      · exact hp
      · simp at hw
    | cons w ws ih =>
      intro p hp
      rw [List.map_cons, List.foldl_cons]
      refine ih _ ?_
      rcases hp with hp | ⟨v, hv, e⟩
      · exact .inl (XR.add_nonfin_left _ hp)
      · rcases List.mem_cons.mp hv with rfl | hv
        · left
          obtain ⟨rfl, rfl⟩ := Prod.mk.inj e
          refine XR.add_nonfin_right _ (XR.mul_nonfin_left _ (XR.mul_nonfin_right _ ?_))
          simp only [XR.fin_sub, sub_self, XR.fin_mul, mul_zero, XR.fin_add, add_zero]
          have : (PyMath.log (XR.fin 0) : XR) = .ninf := by
            show (if (0:ℝ) < 0 then XR.nan else if (0:ℝ) = 0 then XR.ninf else _) = _
            simp
          rw [this]
          exact id
        · exact .inr ⟨v, hv, e⟩
  exact key m.wells _ (.inr h)

theorem fitRow_nonfinite (m : Aquifer ℝ) (xo yo : ℝ) (o : Obs) (ho : m.base < o.z) (hw : m.wells ≠ [])
    (h : potentialStd m.conductivity m.thickness (o.z - m.base) o.std = 0 ∨ ¬ m.OffWells o.x o.y) :
    ∃ r, m.fitRow xo yo o = .ok r ∧ NonFinite r := by
  unfold fitRow
  rw [fosm_ok m o ho]
  have he : m.wells.isEmpty = false := by simpa using hw
  simp only [he, Bool.false_and, Bool.false_eq_true, if_false]
  refine ⟨_, rfl, ?_⟩
  rcases h with h | h
  · left
    refine ⟨0, ?_⟩
    rw [h]
    exact XR.div_zero_nonfin _
  · right
    exact XR.div_fin_nonfin _ (XR.sub_nonfin_right _ (potentialWells_at_well m h))

theorem constructFit_rows {m : Aquifer ℝ} {xo yo : ℝ} : ∀ {obs : List Obs} {rows : List ((Fin 6 → XR) × XR)}, m.constructFit xo yo obs = .ok rows →
    ∀ o ∈ obs, ∃ r ∈ rows, m.fitRow xo yo o = .ok r
  | [], _, _, o, ho => by simp at ho
  | p :: os, rows, h, o, ho => by
    unfold constructFit at h
    split at h
    · simp at h
    · rename_i r hr
      split at h
      · simp at h
      · rename_i rs hrs
        obtain rfl := Except.ok.inj h
        rcases List.mem_cons.mp ho with rfl | ho
        · exact ⟨r, by simp, hr⟩
        · obtain ⟨r', h1, h2⟩ := constructFit_rows hrs o ho
          exact ⟨r', by simp [h1], h2⟩

theorem constructFit_division (m : Aquifer ℝ) (xo yo : ℝ) (obs : List Obs) (hw : m.wells = []) (hz : ∀ o ∈ obs, m.base < o.z)
    (h : ∃ o ∈ obs, potentialStd m.conductivity m.thickness (o.z - m.base) o.std = 0) : m.constructFit xo yo obs = .error .zeroDivisionError := by
  induction obs with
  | nil => obtain ⟨o, ho, -⟩ := h; simp at ho
  | cons o os ih =>
    unfold constructFit
    by_cases h0 : potentialStd m.conductivity m.thickness (o.z - m.base) o.std = 0
    · unfold fitRow
      rw [fosm_ok m o (hz o (by simp))]
      simp [hw, h0]
    · obtain ⟨r, hr⟩ := fitRow_returns m xo yo o (hz o (by simp)) (.inr h0)
      obtain ⟨p, hp, hp0⟩ := h
      rw [hr, ih (fun p hp => hz p (by simp [hp])) ⟨p, by rcases List.mem_cons.mp hp with rfl | hp; exact absurd hp0 h0; exact hp, hp0⟩]

theorem potentialStd_zero {m : Aquifer ℝ} {o : Obs} (ho : m.base < o.z) (h : o.std = 0 ∨ m.conductivity = 0 ∨ m.thickness = 0) :
    potentialStd m.conductivity m.thickness (o.z - m.base) o.std = 0 := by
  unfold potentialStd
  rcases h with h | h | h <;> rw [h]
  · simp
  · simp
  · rw [min_eq_right (by linarith)]; simp

/-! ## Zero porosity -/

/-- with zero porosity a velocity has no finite component -/
theorem backVelocity_nonfin {m : Aquifer ℝ} (hp : m.porosity = 0) {c : Bool} {p v : XR × XR} (h : m.toX.backVelocity c p = .ok v) : ¬ v.1.IsFin := by
  have hq : m.toX.porosity = .fin 0 := by simp [toX, hp]
  have ht : m.toX.thickness * .fin 0 = .fin 0 := by show XR.fin (m.thickness * 0) = _; rw [mul_zero]
  unfold backVelocity at h
  split at h
  · obtain rfl := Except.ok.inj h
    refine XR.neg_nonfin ?_
    simp only [velocityConfined, hq, ht]
    exact XR.div_zero_nonfin _
  · split at h
    · simp at h
    · rename_i V hV
      obtain rfl := Except.ok.inj h
      refine XR.neg_nonfin ?_
      unfold velocity at hV
      simp only at hV
      split at hV
      · simp at hV
      · rename_i hd _
        split at hV
        · simp at hV
        · split at hV
          · obtain rfl := Except.ok.inj hV
            simp only [hq, ht]
            exact XR.div_zero_nonfin _
          · obtain rfl := Except.ok.inj hV
            simp only [hq]
            cases hd with
            | fin r =>
              have : XR.fin r * .fin 0 = .fin 0 := by show XR.fin (r * 0) = _; rw [mul_zero]
              rw [this]
              exact XR.div_zero_nonfin _
            | pinf =>
              have : XR.pinf * .fin 0 = .nan := by show XR.infOf 0 = _; simp [XR.infOf]
              rw [this, XR.div_nan]; exact id
            | ninf =>
              have : XR.ninf * .fin 0 = .nan := by show XR.infOf (-0) = _; simp [XR.infOf]
              rw [this, XR.div_nan]; exact id
            | nan => rw [XR.nan_mul, XR.div_nan]; exact id

end Aquifer

theorem normInf_nonfin {v : XR × XR} (h : ¬ v.1.IsFin) (b : XR) : ¬ normInf v < b := by
  obtain ⟨x, y⟩ := v
  cases x <;> cases y <;> first | exact absurd trivial h | (cases b <;> exact id)

/-- a step from a place without a finite velocity is rejected -/
theorem trial_rejected {fe : ℕ → XR × XR → Except PyErr (XR × XR)} {n : ℕ} {xy k1 : XR × XR} {dt : XR} (hk : ¬ k1.1.IsFin)
    {xyt k2 : XR × XR} {est ds : XR} (h : trial fe n xy k1 dt = .ok (xyt, k2, est, ds)) (tol : XR) : ¬ est < tol := by
  unfold trial at h
  simp only [bind, Except.bind, pure, Except.pure] at h
  repeat' split at h
  all_goals first | (simp at h; done) | skip
  obtain ⟨-, -, rfl, -⟩ : _ ∧ _ ∧ _ ∧ _ := by simpa only [Except.ok.injEq, Prod.mk.injEq] using h
  refine normInf_nonfin ?_ _
  refine XR.mul_nonfin_right _ ?_
  simp only [Prod.fst_add]
  exact XR.add_nonfin_left _ (XR.add_nonfin_left _ (XR.add_nonfin_left _ (XR.add_nonfin_left _ (XR.add_nonfin_left _ (XR.mul_nonfin_right _ hk)))))

/-- a trace from a place without a finite velocity never makes a step -/
theorem trace_stuck {fe : ℕ → XR × XR → Except PyErr (XR × XR)} {xs ys D tol maxstep : XR} {k1 : XR × XR} (hk0 : fe 0 (xs, ys) = .ok k1) (hk : ¬ k1.1.IsFin)
    (hD : (.fin 0 : XR) < PyMath.abs D) {tr : Trace XR} (h : computeBacktrace xs ys D tol maxstep fe = some tr) :
    tr.vertices = [(xs, ys)] ∧ tr.warning = some (.fin 0) := by
  have h0 : (PyMath.q 0 : XR) = .fin 0 := by show XR.fin ((0:ℚ):ℝ) = _; simp
  have h1 : PyMath.abs (.fin 0 : XR) = .fin 0 := by show XR.fin |(0:ℝ)| = _; simp
  rw [computeBacktrace_ok _ _ _ _ _ _ k1 hk0] at h
  refine tloop_inv (fun s => s.t = .fin 0 ∧ s.k1 = k1 ∧ s.vs = [(xs, ys)]) (fun r => r.vertices = [(xs, ys)] ∧ r.warning = some (.fin 0)) ?_ ?_ ⟨h0, rfl, rfl⟩ h
  · rintro s s' ⟨i1, i2, i3⟩ e
    unfold titer at e
    split at e
    · split at e
      · simp at e
      · rename_i xyt k2 est ds ht
        rw [i2] at ht
        rw [if_neg (fun hh => trial_rejected hk ht _ hh.1)] at e
        obtain rfl := Sum.inr.inj e
        exact ⟨i1, i2, i3⟩
    · simp at e
  · rintro s r ⟨i1, i2, i3⟩ e
    unfold titer at e
    split at e
    · split at e
      · obtain rfl := Sum.inl.inj e
        exact ⟨i3, by rw [i1]⟩
      · split at e <;> simp at e
    · rename_i hn
      rw [i1, h1] at hn
      exact absurd hD hn

theorem trace_endless {fe : ℕ → XR × XR → Except PyErr (XR × XR)} (hok : ∀ n p, ∃ v, fe n p = .ok v) {xs ys D tol maxstep : XR} {k1 : XR × XR}
    (hk0 : fe 0 (xs, ys) = .ok k1) (hk : ¬ k1.1.IsFin) (hD : (.fin 0 : XR) < PyMath.abs D) : computeBacktrace xs ys D tol maxstep fe = none := by
  have h0 : (PyMath.q 0 : XR) = .fin 0 := by show XR.fin ((0:ℚ):ℝ) = _; simp
  have h1 : PyMath.abs (.fin 0 : XR) = .fin 0 := by show XR.fin |(0:ℝ)| = _; simp
  rw [computeBacktrace_ok _ _ _ _ _ _ k1 hk0]
  refine tloop_none (fun s => s.t = .fin 0 ∧ s.k1 = k1) ?_ ⟨h0, rfl⟩
  rintro s ⟨i1, i2⟩
  obtain ⟨⟨xyt, k2, est, ds⟩, ht⟩ : ∃ r, trial fe s.n s.xy s.k1 (clipDt D s.t s.dt) = .ok r := by
    unfold trial
    obtain ⟨k2, h2⟩ := hok s.n (s.xy + sc (clipDt D s.t s.dt) (scq (1/5) s.k1))
    simp only [bind, Except.bind, pure, Except.pure, h2]
    repeat
      split
      · rename_i he
        obtain ⟨v, hv⟩ := hok _ _
        rw [hv] at he
        simp at he
    exact ⟨_, rfl⟩
  refine ⟨⟨s.t, nextDt tol maxstep est ds (clipDt D s.t s.dt), s.xy, s.k1, s.n+6, s.vs, s.ss⟩, ?_, i1, i2⟩
  unfold titer
  rw [if_pos (by rw [i1, h1]; exact hD), ht]
  rw [i2] at ht
  simp only
  rw [if_neg (fun hh => trial_rejected hk ht _ hh.1)]

/-! ## Runs and calls -/

theorem draw_succeeds {a : RunArgs} {q : Dist → ℕ → Except PyErr ℝ} (hw : ∀ w ∈ a.wells, ∀ j, ∃ x, q w.q j = .ok x)
    (hc : ∀ j, ∃ x, q a.cDist j = .ok x) (hp : ∀ j, ∃ x, q a.pDist j = .ok x) (ht : ∀ j, ∃ x, q a.tDist j = .ok x) : ∃ m, drawModel a q = .ok m := by
  obtain ⟨r, hr⟩ := drawWells_succeeds a.wells 0 hw
  obtain ⟨c, h1⟩ := hc a.wells.length
  obtain ⟨p, h2⟩ := hp (a.wells.length + 1)
  obtain ⟨t, h3⟩ := ht (a.wells.length + 2)
  exact ⟨⟨a.base, c, p, t, r, 0, 0, fun _ => 0⟩, by unfold drawModel; rw [hr]; simp only [h1, h2, h3]⟩

theorem draw_any_stochastic {a : PyArgs} {n : Inputs} (ha : Acceptable a) (h : a.Denotes n) (hs : n.Spread) (obs : List Obs) {u : ℕ → ℝ}
    (hu : ∀ j, 0 ≤ u j ∧ u j < 1) : ∃ m, drawModel { n.run with obs := obs } (fun d j => d.sample (u j)) = .ok m := by
  obtain ⟨s1, s2, s3, s4⟩ := hs
  refine draw_succeeds (a := { n.run with obs := obs }) (fun w hw j => ?_) (fun j => ?_) (fun j => ?_) (fun j => ?_)
  · obtain ⟨v, hv, hm⟩ := accepted_wells ha h w hw
    obtain ⟨x, hx, -⟩ := sample_ok hv hm (s4 w hw) (hu j).1 (hu j).2
    exact ⟨x, hx⟩
  · obtain ⟨x, hx, -⟩ := sample_ok ha.cDist h.cDist s1 (hu j).1 (hu j).2
    exact ⟨x, hx⟩
  · obtain ⟨x, hx, -⟩ := sample_ok ha.pDist h.pDist s2 (hu j).1 (hu j).2
    exact ⟨x, hx⟩
  · obtain ⟨x, hx, -⟩ := sample_ok ha.tDist h.tDist s3 (hu j).1 (hu j).2
    exact ⟨x, hx⟩

theorem draw_any_deterministic {a : PyArgs} {n : Inputs} (ha : Acceptable a) (h : a.Denotes n) (obs : List Obs) :
    ∃ m, drawModel { n.run with obs := obs } (fun d _ => d.mean) = .ok m := by
  refine draw_succeeds (a := { n.run with obs := obs }) (fun w hw j => ?_) (fun j => ?_) (fun j => ?_) (fun j => ?_)
  · obtain ⟨v, hv, hm⟩ := accepted_wells ha h w hw
    obtain ⟨x, hx, -⟩ := mean_ok hv hm
    exact ⟨x, hx⟩
  · obtain ⟨x, hx, -⟩ := mean_ok ha.cDist h.cDist
    exact ⟨x, hx⟩
  · obtain ⟨x, hx, -⟩ := mean_ok ha.pDist h.pDist
    exact ⟨x, hx⟩
  · obtain ⟨x, hx, -⟩ := mean_ok ha.tDist h.tDist
    exact ⟨x, hx⟩

/-- a drawn model has a well if the run has one -/
theorem DrawnModel.has_wells {a : RunArgs} {q : Dist → ℕ → Except PyErr ℝ} {m : Aquifer ℝ} (h : DrawnModel a q m) {k : ℕ} {t : SWell} (ht : a.wells[k]? = some t) :
    m.wells ≠ [] := by
  obtain ⟨d, hd, -⟩ := h.wells k t ht
  intro e
  rw [e] at hd
  simp at hd

theorem capture_hangs {xt yt rt u w0 : ℝ} {d tol ms : XR} {fe : ℕ → ℕ → XR × XR → Except PyErr (XR × XR)} {n : ℤ} (hn : 0 < n) (f : PField ℝ)
    (h : computeBacktrace (.fin (xt + (rt + 1))) (.fin yt) d tol ms (fe 0) = none) : computeCapturezone xt yt rt n d f u w0 tol ms fe = none := by
  unfold computeCapturezone startAngles
  rw [if_neg (by omega)]
  obtain ⟨k, rfl⟩ : ∃ k : ℕ, n = (k + 1 : ℕ) := ⟨(n - 1).toNat, by omega⟩
  simp only [Int.toNat_natCast, List.range_succ_eq_map, List.map_cons, captureLoop]
  have e1 : (rt + 1) * Real.cos (((0:ℕ):ℝ) * (2 * Real.pi / ((k + 1 : ℕ) : ℤ))) + xt = xt + (rt + 1) := by
    simp; ring
  have e2 : (rt + 1) * Real.sin (((0:ℕ):ℝ) * (2 * Real.pi / ((k + 1 : ℕ) : ℤ))) + yt = yt := by
    simp
  rw [e1, e2, h]

theorem reverseVelocity_confined (m : Aquifer XR) (p : XR × XR) : ∃ v, m.backVelocity true p = .ok v := by
  unfold Aquifer.backVelocity
  exact ⟨_, rfl⟩

theorem realize_porosity {a : RunArgs} {la : LinAlg} {t : SWell} {q : Dist → ℕ → Except PyErr ℝ}
    {coefs : (Fin 6 → ℝ) → Matrix (Fin 6) (Fin 6) ℝ → Except PyErr (Fin 6 → ℝ)} {recharge : (Fin 6 → ℝ) → ℝ}
    {interrupt : ℕ → ℕ → Option PyErr} {f : PField ℝ} {m : Aquifer ℝ} {ev : Fin 6 → ℝ} {cov : Matrix (Fin 6) (Fin 6) ℝ} {c : Fin 6 → ℝ}
    (hm : drawModel a q = .ok m) (hp : m.porosity = 0) (h : (m.fitRegionalFlow la a.obs t.xw t.yw).2 = .ok (ev, cov)) (hc : coefs ev cov = .ok c)
    (hi : ∀ n, interrupt 0 n = none) (hcf : a.confined = true) (hd : (.fin 0 : XR) < PyMath.abs a.duration) (hn : 0 < a.npaths) :
    realize a la t q coefs recharge interrupt f = none := by
  unfold realize
  rw [hm]
  simp only
  split
  · rename_i hfit
    rw [hfit] at h
    simp at h
  · rename_i mo' ev' cov' hfit
    have e : (ev', cov') = (ev, cov) := by rw [hfit] at h; exact Except.ok.inj h
    obtain ⟨rfl, rfl⟩ := Prod.mk.inj e
    simp only [hc]
    have hmo := fit_model hfit
    have hv : runVelocity { mo' with coef := c } a.confined interrupt 0 =
        fun _ => ({ m with xo := t.xw, yo := t.yw, coef := c } : Aquifer ℝ).toX.backVelocity true := by
      funext n p
      unfold runVelocity
      rw [hi, hcf, hmo]
    obtain ⟨v, hv1⟩ := reverseVelocity_confined ({ m with xo := t.xw, yo := t.yw, coef := c } : Aquifer ℝ).toX (.fin (t.xw + (t.rw + 1)), .fin t.yw)
    rw [capture_hangs hn _ ?_]
    rw [hv]
    exact trace_endless (fun _ p => reverseVelocity_confined _ p) hv1 (Aquifer.backVelocity_nonfin (m := { m with xo := t.xw, yo := t.yw, coef := c }) hp hv1) hd

end Oneka
