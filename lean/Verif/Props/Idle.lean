import Verif.Lemmas.Idle
import Verif.Props.Oneka
import Verif.Props.Reach

/-!
# C137: a well that neither pumps nor injects has no effect

Vocabulary: Spec/Idle.lean. (By C124 the order of the wells does not matter.) Examples: Props/IdleExamples.lean.
-/

namespace Oneka

open Aquifer

/-- **C137.** One more well that neither pumps nor injects changes potential, discharge, head and velocity at no place other than its own, and no fit to observations at other places. (With no wells at all the fit may raise another exception: C35.) -/
theorem C137_model (m : Aquifer ℝ) (x y r : ℝ) :
    (∀ X Y : ℝ, (X, Y) ≠ (x, y) →
      (m.withIdle x y r).toX.potential (.fin X) (.fin Y) = m.toX.potential (.fin X) (.fin Y) ∧ (m.withIdle x y r).toX.discharge (.fin X) (.fin Y) = m.toX.discharge (.fin X) (.fin Y) ∧
      (m.withIdle x y r).toX.head (.fin X) (.fin Y) = m.toX.head (.fin X) (.fin Y) ∧ (m.withIdle x y r).toX.velocity (.fin X) (.fin Y) = m.toX.velocity (.fin X) (.fin Y) ∧
      (m.withIdle x y r).toX.velocityConfined (.fin X) (.fin Y) = m.toX.velocityConfined (.fin X) (.fin Y)) ∧
    (m.wells ≠ [] → ∀ (la : LinAlg) (obs : List Obs) (xo yo : ℝ), (∀ o ∈ obs, (o.x, o.y) ≠ (x, y)) → ((m.withIdle x y r).fitRegionalFlow la obs xo yo).2 = (m.fitRegionalFlow la obs xo yo).2) :=
  ⟨fun _ _ h => ⟨idle_potential m h, idle_discharge m h, idle_head m h, idle_velocity m h, idle_velocityConfined m h⟩, fun hw la _ _ _ h => idle_fit m hw h la⟩

/-- **C137.** At its own place it changes the discharge, and with it the velocity of a confined aquifer: it is not a number there. -/
theorem C137_fails_at (m : Aquifer ℝ) (x y r : ℝ) : (m.withIdle x y r).toX.discharge (.fin x) (.fin y) = (.nan, .nan) ∧ (m.withIdle x y r).toX.velocityConfined (.fin x) (.fin y) = (.nan, .nan) := by
  have h : (m.withIdle x y r).toX.discharge (.fin x) (.fin y) = (.nan, .nan) := by
    refine discharge_at_well _ fun hoff => ?_
    exact hoff ⟨x, y, r, 0⟩ (by simp [withIdle]) rfl
  refine ⟨h, ?_⟩
  unfold velocityConfined
  simp only [h, XR.nan_div]

/-- **C137.** `filter_obs` retains the same observations, if all are farther than the buffer from the idle well. -/
theorem C137_filter (obs : List Obs) (wells : List (ℝ × ℝ)) (buffer x y : ℝ) (h : ∀ o ∈ obs, buffer < o.dist x y) : filterObs obs (wells ++ [(x, y)]) buffer = filterObs obs wells buffer := idle_filter h

/-- **C137.** Two returning calls, the second one with one more well, whose discharge is the number 0 and within whose buffer there is no observation; all other draws are the same. All realizations have the same models but for that well, the same expected
values and covariances. Their traces coincide up to the first place where the tracer needs the velocity at the idle well itself; traces that do not need it are the same. If this is true of all traces, the calls archive the same field. -/
theorem C137_call (a a' : PyArgs) (n : Inputs) (env : CallEnv) (v v' : PyVal) (x y r : ℝ) (hd : a.Denotes n) (hd' : a'.Denotes (n.withIdle x y r)) (hr : (oneka a env).ending = .returns v)
    (hr' : (oneka a' (env.withIdle n.run.wells.length)).ending = .returns v') (hb : ∀ o ∈ n.run.obs, n.buffer < o.dist x y) (fs : Files) :
    ∃ (d d' : Dict) (f f' : PField ℝ) (k : ℕ) (t : SWell),
      loadOneka ((oneka a env).events.foldl Effect.apply fs) env.now.archiveName = .ok d ∧ d.get "pfield" = some (.field (.field f)) ∧
      loadOneka ((oneka a' (env.withIdle n.run.wells.length)).events.foldl Effect.apply fs) env.now.archiveName = .ok d' ∧ d'.get "pfield" = some (.field (.field f')) ∧
      n.run.target = k ∧ n.run.wells[k]? = some t ∧
      (realizations (oneka a' (env.withIdle n.run.wells.length)).events).length = (realizations (oneka a env).events).length ∧
      (∀ (i : ℕ) (L L' : RealizationLog), (realizations (oneka a env).events)[i]? = some L → (realizations (oneka a' (env.withIdle n.run.wells.length)).events)[i]? = some L' →
        L'.model = L.model.withIdle x y r ∧ L'.ev = L.ev ∧ L'.cov = L.cov ∧
        ∀ (j : ℕ) (tr tr' tr0 : Trace XR), L.traces[j]? = some tr → L'.traces[j]? = some tr' → L.model.elsewhereTrace n.run t x y (env.run.interrupt i) j = some tr0 →
          tr0.vertices <+: tr.vertices ∧ tr0.vertices <+: tr'.vertices ∧ (tr0.warning = none → tr = tr0 ∧ tr' = tr0)) ∧
      ((∀ (i : ℕ) (L : RealizationLog), (realizations (oneka a env).events)[i]? = some L → ∀ j : ℕ, (j : ℤ) < n.run.npaths → ∃ tr0, L.model.elsewhereTrace n.run t x y (env.run.interrupt i) j = some tr0 ∧ tr0.warning = none) →
        ∀ X Y, (f'.IsNode X Y ↔ f.IsNode X Y) ∧ (f.IsNode X Y → f'.weightAt X Y = f.weightAt X Y)) := by
  obtain ⟨d, f, k, t, e1, e2, e3, e4, e5, e6, e7⟩ := C74_archived a n env v hd hr fs
  obtain ⟨d', f', k', t', e1', e2', e3', e4', e5', e6', e7'⟩ := C74_archived a' (n.withIdle x y r) (env.withIdle n.run.wells.length) v' hd' hr' fs
  -- the target is the same well
  have ktgt : ∀ {k k' : ℕ} {t t' : SWell}, n.run.target = k → n.run.wells[k]? = some t → (n.withIdle x y r).run.target = k' → (n.withIdle x y r).run.wells[k']? = some t' → k = k' ∧ t = t' := by
    intro k k' t t' h1 h2 h3 h4
    have h5 : (n.withIdle x y r).run.target = n.run.target := rfl
    rw [h1, h3] at h5
    obtain rfl : k' = k := by exact_mod_cast h5
    refine ⟨rfl, ?_⟩
    have hlt : k' < n.run.wells.length := by
      by_contra hk
      rw [List.getElem?_eq_none (not_lt.mp hk)] at h2
      simp at h2
    have h4 : (n.run.wells ++ [⟨x, y, r, .const 0⟩])[k']? = some t' := h4
    rw [List.getElem?_append_left hlt, h2] at h4
    exact Option.some.inj h4
  obtain ⟨rfl, rfl⟩ := ktgt e3 e4 e3' e4'
  have hne : n.run.wells ≠ [] := by
    intro e
    rw [e] at e4
    simp at e4
  have hlen : (realizations (oneka a' (env.withIdle n.run.wells.length)).events).length = (realizations (oneka a env).events).length := by
    have : ((realizations (oneka a' (env.withIdle n.run.wells.length)).events).length : ℤ) = (realizations (oneka a env).events).length := e5'.trans e5.symm
    exact_mod_cast this
  have hfil : filterObs (n.withIdle x y r).run.obs ((n.withIdle x y r).run.wells.map fun w => (w.xw, w.yw)) (n.withIdle x y r).buffer = filterObs n.run.obs (n.run.wells.map fun w => (w.xw, w.yw)) n.buffer := by
    have : (n.withIdle x y r).run.wells.map (fun w => (w.xw, w.yw)) = n.run.wells.map (fun w => (w.xw, w.yw)) ++ [(x, y)] := by simp [Inputs.withIdle]
    rw [this]
    exact idle_filter hb
  have hbuf : 0 ≤ n.buffer := by
    obtain ⟨-, -, ha, -⟩ := returned_course hr
    obtain ⟨-, -, -, -, -, h, -⟩ := accepted_inputs ha hd
    exact h.le
  have hoff : ∀ obs, filterObs n.run.obs (n.run.wells.map fun w => (w.xw, w.yw)) n.buffer = .ok obs → ∀ o ∈ obs, (o.x, o.y) ≠ (x, y) := by
    intro obs h o ho e
    rw [← idle_filter hb] at h
    obtain ⟨-, -, -, -, -, -, h6⟩ := C47_filter _ _ _ _ h
    have := h6 o ho (x, y) (by simp)
    obtain ⟨rfl, rfl⟩ := Prod.mk.inj e
    simp [Obs.dist] at this
    linarith
  obtain ⟨obs, q, q', coefs, hobs, h0, hq, hq', hR, hR'⟩ : ∃ (obs : List Obs) (q q' : ℕ → Dist → ℕ → Except PyErr ℝ) (coefs : ℕ → (Fin 6 → ℝ) → Matrix (Fin 6) (Fin 6) ℝ → Except PyErr (Fin 6 → ℝ)),
      (∀ o ∈ obs, (o.x, o.y) ≠ (x, y)) ∧ (∀ i j z, q' i (.const 0) j = .ok z → z = 0) ∧ (∀ i d j, j < n.run.wells.length → q' i d j = q i d j) ∧ (∀ i d j, n.run.wells.length ≤ j → q' i d (j + 1) = q i d j) ∧
      (∀ (i : ℕ) (L : RealizationLog), (realizations (oneka a env).events)[i]? = some L → Realized { n.run with obs := obs } env.run.la t (q i) (coefs i) (env.run.interrupt i) L) ∧
      (∀ (i : ℕ) (L : RealizationLog), (realizations (oneka a' (env.withIdle n.run.wells.length)).events)[i]? = some L →
        Realized { (n.withIdle x y r).run with obs := obs } env.run.la t (q' i) (coefs i) (env.run.interrupt i) L) := by
    by_cases hn : 1 < n.nrealizations
    · obtain ⟨-, -, obs, k1, t1, -, -, j3, -, j4, j5, -, j7, -⟩ := C68_stochastic a n env v hd hn hr fs
      obtain ⟨-, -, obs', k2, t2, -, -, i3, -, i4, i5, -, i7, -⟩ := C68_stochastic a' (n.withIdle x y r) (env.withIdle n.run.wells.length) v' hd' hn hr' fs
      rw [hfil] at i3
      obtain rfl : obs = obs' := Except.ok.inj (j3.symm.trans i3)
      obtain ⟨rfl, rfl⟩ := ktgt j4 j5 i4 i5
      obtain ⟨-, rfl⟩ := ktgt e3 e4 i4 i5
      refine ⟨obs, _, _, _, hoff _ j3, fun i j z h => (Except.ok.inj h).symm, fun i d j hj => ?_, fun i d j hj => ?_, j7, i7⟩
      · simp [CallEnv.withIdle, hj]
      · have : ¬ (j + 1 < n.run.wells.length) := by omega
        simp [CallEnv.withIdle, this]
    · obtain ⟨-, -, obs, k1, t1, M, -, -, j3, -, j4, j5, j6, j7, -⟩ := C68_deterministic a n env v hd (not_lt.mp hn) hr fs
      obtain ⟨-, -, obs', k2, t2, M', -, -, i3, -, i4, i5, i6, i7, -⟩ := C68_deterministic a' (n.withIdle x y r) (env.withIdle n.run.wells.length) v' hd' (not_lt.mp hn) hr' fs
      rw [hfil] at i3
      obtain rfl : obs = obs' := Except.ok.inj (j3.symm.trans i3)
      obtain ⟨rfl, rfl⟩ := ktgt j4 j5 i4 i5
      obtain ⟨-, rfl⟩ := ktgt e3 e4 i4 i5
      refine ⟨obs, fun _ d _ => d.mean, fun _ d _ => d.mean, fun _ ev _ => .ok ev, hoff _ j3, fun i j z h => (Except.ok.inj h).symm, fun _ _ _ _ => rfl, fun _ _ _ _ => rfl, fun i L hL => ?_, fun i L hL => ?_⟩
      · rw [j6] at hL
        rcases i with _ | i
        · obtain rfl := Option.some.inj hL
          exact j7
        · simp at hL
      · rw [i6] at hL
        rcases i with _ | i
        · obtain rfl := Option.some.inj hL
          exact i7
        · simp at hL
  have key : ∀ (i : ℕ) (L L' : RealizationLog), (realizations (oneka a env).events)[i]? = some L → (realizations (oneka a' (env.withIdle n.run.wells.length)).events)[i]? = some L' →
      L'.model = L.model.withIdle x y r ∧ L'.ev = L.ev ∧ L'.cov = L.cov ∧
      ∀ (j : ℕ) (tr tr' tr0 : Trace XR), L.traces[j]? = some tr → L'.traces[j]? = some tr' → L.model.elsewhereTrace n.run t x y (env.run.interrupt i) j = some tr0 →
        tr0.vertices <+: tr.vertices ∧ tr0.vertices <+: tr'.vertices ∧ (tr0.warning = none → tr = tr0 ∧ tr' = tr0) := by
    intro i L L' hL hL'
    have R := hR i L hL
    have R' := hR' i L' hL'
    obtain ⟨m1, m2, m3⟩ := realized_idle (a := { n.run with obs := obs }) hne R R' (h0 i) (hq i) (hq' i) hobs
    refine ⟨m1, m2, m3, fun j tr tr' tr0 h h' h0 => ?_⟩
    have s := R.traces j tr h
    have s' := R'.traces j tr' h'
    rw [m1] at s'
    exact common_trace (elsewhere_raises _ _ _ _ _) (elsewhere_raises_idle _ _ _ _ r _) s s' h0
  refine ⟨d, d', f, f', k, t, e1, e2, e1', e2', e3, e4, hlen, key, fun hall => ?_⟩
  -- the same tracks are recorded
  have hpaths : ∀ i : ℕ, ((realizations (oneka a' (env.withIdle n.run.wells.length)).events)[i]?).map RealizationLog.paths = ((realizations (oneka a env).events)[i]?).map RealizationLog.paths := by
    intro i
    by_cases hi : i < (realizations (oneka a env).events).length
    · have hL := List.getElem?_eq_getElem hi
      have hL' := List.getElem?_eq_getElem (hlen ▸ hi : i < (realizations (oneka a' (env.withIdle n.run.wells.length)).events).length)
      rw [hL, hL', Option.map_some, Option.map_some]
      congr 1
      unfold RealizationLog.paths
      congr 1
      refine List.ext_getElem? fun j => ?_
      have R := hR i _ hL
      have R' := hR' i _ hL'
      by_cases hj : j < n.run.npaths.toNat
      · obtain ⟨tr0, h0, hw⟩ := hall i _ hL j (by omega)
        have l1 : j < ((realizations (oneka a env).events)[i]).traces.length := by rw [R.traces_length]; exact hj
        have l2 : j < ((realizations (oneka a' (env.withIdle n.run.wells.length)).events)[i]'(hlen ▸ hi)).traces.length := by rw [R'.traces_length]; exact hj
        obtain ⟨-, -, -, c⟩ := key i _ _ hL hL'
        obtain ⟨c1, c2⟩ := (c j _ _ tr0 (List.getElem?_eq_getElem l1) (List.getElem?_eq_getElem l2) h0).2.2 hw
        rw [List.getElem?_eq_getElem l1, List.getElem?_eq_getElem l2, c1, c2]
      · rw [List.getElem?_eq_none (by rw [R'.traces_length]; exact not_lt.mp hj), List.getElem?_eq_none (by rw [R.traces_length]; exact not_lt.mp hj)]
    · rw [List.getElem?_eq_none (by omega), List.getElem?_eq_none (by omega)]
  exact same_field hpaths e6 e6' e7 e7'

end Oneka
