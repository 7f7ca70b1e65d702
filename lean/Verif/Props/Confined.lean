import Verif.Lemmas.Confined
import Verif.Props.Oneka
import Verif.Props.Reach

/-!
# C136: what the flag `confined` does

Vocabulary: Spec/Confined.lean. Examples: Props/ConfinedExamples.lean.
-/

namespace Oneka

/-- **C136.** Where the aquifer is confined, `compute_velocity` and `compute_velocity_confined` give the same velocity, for all models, also with infinite numbers. (Elsewhere: C34.) -/
theorem C136_velocity (m : Aquifer ℝ) (x y : XR) (h : ℝ) (hh : m.toX.head x y = .ok (.fin h)) (h0 : 0 < h) (ht : m.thickness ≤ h) : m.toX.velocity x y = .ok (m.toX.velocityConfined x y) :=
  velocity_confined ⟨h, hh, h0, ht⟩

/-- **C136.** Two returning calls that differ in the flag `confined` only. All their realizations have the same models, expected values and covariances. Their traces coincide up to the first place where the tracer needs the velocity
and the aquifer is not confined; traces that meet no such place are the same. If this is true of all traces, the calls archive the same field. -/
theorem C136_call (a a' : PyArgs) (n : Inputs) (env : CallEnv) (v v' : PyVal) (hd : a.Denotes n) (hd' : a'.Denotes n.otherwise) (hr : (oneka a env).ending = .returns v) (hr' : (oneka a' env).ending = .returns v') (fs : Files) :
    ∃ (d d' : Dict) (f f' : PField ℝ) (k : ℕ) (t : SWell),
      loadOneka ((oneka a env).events.foldl Effect.apply fs) env.now.archiveName = .ok d ∧ d.get "pfield" = some (.field (.field f)) ∧
      loadOneka ((oneka a' env).events.foldl Effect.apply fs) env.now.archiveName = .ok d' ∧ d'.get "pfield" = some (.field (.field f')) ∧
      n.run.target = k ∧ n.run.wells[k]? = some t ∧
      (realizations (oneka a' env).events).length = (realizations (oneka a env).events).length ∧
      (∀ (i : ℕ) (L L' : RealizationLog), (realizations (oneka a env).events)[i]? = some L → (realizations (oneka a' env).events)[i]? = some L' →
        L'.model = L.model ∧ L'.ev = L.ev ∧ L'.cov = L.cov ∧
        ∀ (j : ℕ) (tr tr' tr0 : Trace XR), L.traces[j]? = some tr → L'.traces[j]? = some tr' → L.model.confinedTrace n.run t (env.run.interrupt i) j = some tr0 →
          tr0.vertices <+: tr.vertices ∧ tr0.vertices <+: tr'.vertices ∧ (tr0.warning = none → tr = tr0 ∧ tr' = tr0)) ∧
      ((∀ (i : ℕ) (L : RealizationLog), (realizations (oneka a env).events)[i]? = some L → ∀ j : ℕ, (j : ℤ) < n.run.npaths → ∃ tr0, L.model.confinedTrace n.run t (env.run.interrupt i) j = some tr0 ∧ tr0.warning = none) →
        ∀ X Y, (f'.IsNode X Y ↔ f.IsNode X Y) ∧ (f.IsNode X Y → f'.weightAt X Y = f.weightAt X Y)) := by
  obtain ⟨d, f, k, t, e1, e2, e3, e4, e5, e6, e7⟩ := C74_archived a n env v hd hr fs
  obtain ⟨d', f', k', t', e1', e2', e3', e4', e5', e6', e7'⟩ := C74_archived a' n.otherwise env v' hd' hr' fs
  obtain rfl : k' = k := by
    have : n.otherwise.run.target = n.run.target := rfl
    rw [e3, e3'] at this
    exact_mod_cast this
  obtain rfl : t = t' := Option.some.inj (e4.symm.trans e4')
  have hlen : (realizations (oneka a' env).events).length = (realizations (oneka a env).events).length := by
    have : ((realizations (oneka a' env).events).length : ℤ) = (realizations (oneka a env).events).length := e5'.trans e5.symm
    exact_mod_cast this
  -- both calls log realizations with the same observations and draws
  obtain ⟨obs, q, coefs, hR, hR'⟩ : ∃ (obs : List Obs) (q : ℕ → Dist → ℕ → Except PyErr ℝ) (coefs : ℕ → (Fin 6 → ℝ) → Matrix (Fin 6) (Fin 6) ℝ → Except PyErr (Fin 6 → ℝ)),
      (∀ (i : ℕ) (L : RealizationLog), (realizations (oneka a env).events)[i]? = some L → Realized { n.run with obs := obs } env.run.la t (q i) (coefs i) (env.run.interrupt i) L) ∧
      (∀ (i : ℕ) (L : RealizationLog), (realizations (oneka a' env).events)[i]? = some L → Realized { n.otherwise.run with obs := obs } env.run.la t (q i) (coefs i) (env.run.interrupt i) L) := by
    by_cases hn : 1 < n.nrealizations
    · obtain ⟨-, -, obs, k1, t1, -, -, j3, -, j4, j5, -, j7, -⟩ := C68_stochastic a n env v hd hn hr fs
      obtain ⟨-, -, obs', k2, t2, -, -, i3, -, i4, i5, -, i7, -⟩ := C68_stochastic a' n.otherwise env v' hd' hn hr' fs
      obtain rfl : obs = obs' := Except.ok.inj (j3.symm.trans i3)
      obtain rfl : k1 = k' := by rw [e3] at j4; exact_mod_cast j4.symm
      obtain rfl : k2 = k1 := by rw [e3'] at i4; exact_mod_cast i4.symm
      obtain rfl : t = t1 := Option.some.inj (e4.symm.trans j5)
      obtain rfl : t = t2 := Option.some.inj (e4'.symm.trans i5)
      exact ⟨obs, _, _, j7, i7⟩
    · obtain ⟨-, -, obs, k1, t1, M, -, -, j3, -, j4, j5, j6, j7, -⟩ := C68_deterministic a n env v hd (not_lt.mp hn) hr fs
      obtain ⟨-, -, obs', k2, t2, M', -, -, i3, -, i4, i5, i6, i7, -⟩ := C68_deterministic a' n.otherwise env v' hd' (not_lt.mp hn) hr' fs
      obtain rfl : obs = obs' := Except.ok.inj (j3.symm.trans i3)
      obtain rfl : k1 = k' := by rw [e3] at j4; exact_mod_cast j4.symm
      obtain rfl : k2 = k1 := by rw [e3'] at i4; exact_mod_cast i4.symm
      obtain rfl : t = t1 := Option.some.inj (e4.symm.trans j5)
      obtain rfl : t = t2 := Option.some.inj (e4'.symm.trans i5)
      refine ⟨obs, fun _ d _ => d.mean, fun _ ev _ => .ok ev, fun i L hL => ?_, fun i L hL => ?_⟩
      · rw [j6] at hL
        rcases i with _ | i
        · obtain rfl := Option.some.inj hL
          exact j7
        · simp at hL
      · rw [i6] at hL
        rcases i with _ | i
        · obtain rfl := Option.some.inj hL
          exact i7
        · simp at hL
  have key : ∀ (i : ℕ) (L L' : RealizationLog), (realizations (oneka a env).events)[i]? = some L → (realizations (oneka a' env).events)[i]? = some L' →
      L'.model = L.model ∧ L'.ev = L.ev ∧ L'.cov = L.cov ∧
      ∀ (j : ℕ) (tr tr' tr0 : Trace XR), L.traces[j]? = some tr → L'.traces[j]? = some tr' → L.model.confinedTrace n.run t (env.run.interrupt i) j = some tr0 →
        tr0.vertices <+: tr.vertices ∧ tr0.vertices <+: tr'.vertices ∧ (tr0.warning = none → tr = tr0 ∧ tr' = tr0) := by
    intro i L L' hL hL'
    have R := hR i L hL
    have R' := hR' i L' hL'
    obtain ⟨m1, m2, m3⟩ := realized_model R R' rfl rfl rfl rfl rfl rfl
    refine ⟨m1, m2, m3, fun j tr tr' tr0 h h' h0 => ?_⟩
    have s := R.traces j tr h
    have s' := R'.traces j tr' h'
    rw [m1] at s'
    exact common_trace (confinedOnly_raises _ _ _) (confinedOnly_raises _ _ _) s s' h0
  refine ⟨d, d', f, f', k', t, e1, e2, e1', e2', e3, e4, hlen, key, fun hall => ?_⟩
  -- the same tracks are recorded
  have hpaths : ∀ i : ℕ, ((realizations (oneka a' env).events)[i]?).map RealizationLog.paths = ((realizations (oneka a env).events)[i]?).map RealizationLog.paths := by
    intro i
    by_cases hi : i < (realizations (oneka a env).events).length
    · have hL := List.getElem?_eq_getElem hi
      have hL' := List.getElem?_eq_getElem (hlen ▸ hi : i < (realizations (oneka a' env).events).length)
      rw [hL, hL', Option.map_some, Option.map_some]
      congr 1
      unfold RealizationLog.paths
      congr 1
      refine List.ext_getElem? fun j => ?_
      have R := hR i _ hL
      have R' := hR' i _ hL'
      by_cases hj : j < n.run.npaths.toNat
      · obtain ⟨tr0, h0, hw⟩ := hall i _ hL j (by omega)
        have l1 : j < ((realizations (oneka a env).events)[i]).traces.length := by rw [R.traces_length]; exact hj
        have l2 : j < ((realizations (oneka a' env).events)[i]'(hlen ▸ hi)).traces.length := by rw [R'.traces_length]; exact hj
        obtain ⟨-, -, -, c⟩ := key i _ _ hL hL'
        obtain ⟨c1, c2⟩ := (c j _ _ tr0 (List.getElem?_eq_getElem l1) (List.getElem?_eq_getElem l2) h0).2.2 hw
        rw [List.getElem?_eq_getElem l1, List.getElem?_eq_getElem l2, c1, c2]
      · rw [List.getElem?_eq_none (by rw [R'.traces_length]; exact not_lt.mp hj), List.getElem?_eq_none (by rw [R.traces_length]; exact not_lt.mp hj)]
    · rw [List.getElem?_eq_none (by omega), List.getElem?_eq_none (by omega)]
  exact same_field hpaths e6 e6' e7 e7'

end Oneka
