import Verif.Lemmas.Merge
import Verif.Props.Oneka
import Verif.Props.Reach

/-!
# C141: of the wells only the sum of the discharges at every place matters

Vocabulary: Spec/Merge.lean. Examples: Props/MergeExamples.lean.
-/

namespace Oneka

open Aquifer

/-- **C141.** Wells that discharge the same in sum at every place (two wells at the same place instead of one; the wells in another order; a well without discharge more or less; another radius) give the same potential, discharge, head and velocity at every
place where there is no well, and the same fit to observations at such places. -/
theorem C141_model (m : Aquifer ℝ) (ws : List (Well ℝ)) (h : SamePumping m.wells ws) :
    (∀ X Y : ℝ, (∀ w ∈ m.wells ++ ws, (X, Y) ≠ (w.xw, w.yw)) →
      (m.withWells ws).toX.potential (.fin X) (.fin Y) = m.toX.potential (.fin X) (.fin Y) ∧ (m.withWells ws).toX.discharge (.fin X) (.fin Y) = m.toX.discharge (.fin X) (.fin Y) ∧
      (m.withWells ws).toX.head (.fin X) (.fin Y) = m.toX.head (.fin X) (.fin Y) ∧ (m.withWells ws).toX.velocity (.fin X) (.fin Y) = m.toX.velocity (.fin X) (.fin Y) ∧
      (m.withWells ws).toX.velocityConfined (.fin X) (.fin Y) = m.toX.velocityConfined (.fin X) (.fin Y)) ∧
    (m.wells ≠ [] → ws ≠ [] → ∀ (la : LinAlg) (obs : List Obs) (xo yo : ℝ), (∀ o ∈ obs, ∀ w ∈ m.wells ++ ws, (o.x, o.y) ≠ (w.xw, w.yw)) →
      ((m.withWells ws).fitRegionalFlow la obs xo yo).2 = (m.fitRegionalFlow la obs xo yo).2) := by
  refine ⟨fun X Y hoff => ?_, fun hm hw la obs xo yo ho => merge_fit h hm hw (fun o hmem => ⟨fun w hw => ho o hmem w (List.mem_append_left _ hw), fun w hw => ho o hmem w (List.mem_append_right _ hw)⟩) la⟩
  have h1 : m.OffWells X Y := fun w hw => hoff w (List.mem_append_left _ hw)
  have h2 : (m.withWells ws).OffWells X Y := fun w hw => hoff w (List.mem_append_right _ hw)
  exact ⟨merge_potentialX h h1 h2, merge_dischargeX h h1 h2, merge_headX h h1 h2, merge_velocityX h h1 h2, merge_velocityConfinedX h h1 h2⟩

/-- **C141.** Nothing less will do: if the potential is the same at every place where there is no well, the wells discharge the same in sum at every place. -/
theorem C141_only (m : Aquifer ℝ) (ws : List (Well ℝ)) (h : ∀ X Y : ℝ, (∀ w ∈ m.wells ++ ws, (X, Y) ≠ (w.xw, w.yw)) → (m.withWells ws).toX.potential (.fin X) (.fin Y) = m.toX.potential (.fin X) (.fin Y)) : SamePumping m.wells ws := by
  refine pumping_of_potential fun X Y h1 h2 => ?_
  have := h X Y fun w hw => (List.mem_append.mp hw).elim (h1 w) (h2 w)
  rw [potential_toX _ h1, potential_toX _ h2] at this
  exact XR.fin.inj this

/-- **C141.** `filter_obs` depends on the places of the wells only: neither on their order nor on how often a place occurs. -/
theorem C141_filter (obs : List Obs) (wells wells' : List (ℝ × ℝ)) (buffer : ℝ) (h : ∀ p, p ∈ wells' ↔ p ∈ wells) : filterObs obs wells' buffer = filterObs obs wells buffer := places_filter h

/-- **C141.** Two returning calls that differ only in the wells, and realizations in which the same conductivities, porosities, thicknesses and, at every place, the same sums of discharges have been drawn. They have the same models but for the wells, the same
expected values and covariances. Their traces coincide up to the first place where the tracer needs the velocity at a well; traces that do not need it are the same. If this is true of all traces, the calls archive the same field. -/
theorem C141_call (a a' : PyArgs) (n n' : Inputs) (env env' : CallEnv) (v v' : PyVal) (hd : a.Denotes n) (hd' : a'.Denotes n') (hr : (oneka a env).ending = .returns v) (hr' : (oneka a' env').ending = .returns v')
    (hn : n.SameButWells n') (hla : env'.run.la = env.run.la) (hmvn : env'.run.mvn = env.run.mvn) (hint : env'.run.interrupt = env.run.interrupt)
    (hw : ∀ (i : ℕ) (L L' : RealizationLog), (realizations (oneka a env).events)[i]? = some L → (realizations (oneka a' env').events)[i]? = some L' → L.SameWater L') (fs : Files) :
    ∃ (d d' : Dict) (f f' : PField ℝ) (k : ℕ) (t : SWell),
      loadOneka ((oneka a env).events.foldl Effect.apply fs) env.now.archiveName = .ok d ∧ d.get "pfield" = some (.field (.field f)) ∧
      loadOneka ((oneka a' env').events.foldl Effect.apply fs) env'.now.archiveName = .ok d' ∧ d'.get "pfield" = some (.field (.field f')) ∧
      n.run.target = k ∧ n.run.wells[k]? = some t ∧
      (realizations (oneka a' env').events).length = (realizations (oneka a env).events).length ∧
      (∀ (i : ℕ) (L L' : RealizationLog), (realizations (oneka a env).events)[i]? = some L → (realizations (oneka a' env').events)[i]? = some L' →
        L'.model = L.model.withWells L'.model.wells ∧ L'.ev = L.ev ∧ L'.cov = L.cov ∧
        ∀ (j : ℕ) (tr tr' tr0 : Trace XR), L.traces[j]? = some tr → L'.traces[j]? = some tr' → L.model.awayTrace n.run t (L.model.wells ++ L'.model.wells) (env.run.interrupt i) j = some tr0 →
          tr0.vertices <+: tr.vertices ∧ tr0.vertices <+: tr'.vertices ∧ (tr0.warning = none → tr = tr0 ∧ tr' = tr0)) ∧
      ((∀ (i : ℕ) (L L' : RealizationLog), (realizations (oneka a env).events)[i]? = some L → (realizations (oneka a' env').events)[i]? = some L' → ∀ j : ℕ, (j : ℤ) < n.run.npaths →
          ∃ tr0, L.model.awayTrace n.run t (L.model.wells ++ L'.model.wells) (env.run.interrupt i) j = some tr0 ∧ tr0.warning = none) →
        ∀ X Y, (f'.IsNode X Y ↔ f.IsNode X Y) ∧ (f.IsNode X Y → f'.weightAt X Y = f.weightAt X Y)) := by
  obtain ⟨d, f, k, t, e1, e2, e3, e4, e5, e6, e7⟩ := C74_archived a n env v hd hr fs
  obtain ⟨d', f', k', t', e1', e2', e3', e4', e5', e6', e7'⟩ := C74_archived a' n' env' v' hd' hr' fs
  obtain ⟨tx, ty, tw⟩ := hn.target k k' t t' e3 e4 e3' e4'
  have hrun := hn.run
  injection hrun with r1 r2 r3 r4 r5 r6 r7 r8 r9 r10 r11 r12 r13 r14
  have g1 : n'.run.npaths = n.run.npaths := by assumption
  have g2 : n'.run.duration = n.run.duration := by assumption
  have g3 : n'.run.tol = n.run.tol := by assumption
  have g4 : n'.run.maxstep = n.run.maxstep := by assumption
  have g5 : n'.run.confined = n.run.confined := by assumption
  have g6 : n'.run.spacing = n.run.spacing := by assumption
  have g7 : n'.run.umbra = n.run.umbra := by assumption
  have uniq : ∀ {m : Inputs} {k k' : ℕ} {t t' : SWell}, m.run.target = k → m.run.wells[k]? = some t → m.run.target = k' → m.run.wells[k']? = some t' → t' = t := by
    intro m k k' t t' h1 h2 h3 h4
    rw [h1] at h3
    obtain rfl : k = k' := by exact_mod_cast h3
    rw [h2] at h4
    exact (Option.some.inj h4).symm
  have hne : n.run.wells ≠ [] := by
    intro e
    rw [e] at e4
    simp at e4
  have hne' : n'.run.wells ≠ [] := by
    intro e
    rw [e] at e4'
    simp at e4'
  have hlen : (realizations (oneka a' env').events).length = (realizations (oneka a env).events).length := by
    have : ((realizations (oneka a' env').events).length : ℤ) = (realizations (oneka a env).events).length := by rw [e5, e5', hn.nrealizations]
    exact_mod_cast this
  have hbuf : 0 ≤ n.buffer := by
    obtain ⟨-, -, ha, -⟩ := returned_course hr
    obtain ⟨-, -, -, -, -, h, -⟩ := accepted_inputs ha hd
    exact h.le
  have hbuf' : 0 ≤ n'.buffer := by
    obtain ⟨-, -, ha, -⟩ := returned_course hr'
    obtain ⟨-, -, -, -, -, h, -⟩ := accepted_inputs ha hd'
    exact h.le
  obtain ⟨obs, q, q', coefs, hobs, hobs', hR, hR'⟩ : ∃ (obs : List Obs) (q q' : ℕ → Dist → ℕ → Except PyErr ℝ) (coefs : ℕ → (Fin 6 → ℝ) → Matrix (Fin 6) (Fin 6) ℝ → Except PyErr (Fin 6 → ℝ)),
      filterObs n.run.obs (n.run.wells.map fun w => (w.xw, w.yw)) n.buffer = .ok obs ∧ filterObs n'.run.obs (n'.run.wells.map fun w => (w.xw, w.yw)) n'.buffer = .ok obs ∧
      (∀ (i : ℕ) (L : RealizationLog), (realizations (oneka a env).events)[i]? = some L → Realized { n.run with obs := obs } env.run.la t (q i) (coefs i) (env.run.interrupt i) L) ∧
      (∀ (i : ℕ) (L : RealizationLog), (realizations (oneka a' env').events)[i]? = some L → Realized { n'.run with obs := obs } env.run.la t' (q' i) (coefs i) (env.run.interrupt i) L) := by
    by_cases h1 : 1 < n.nrealizations
    · obtain ⟨-, -, obs, k1, t1, -, -, j3, -, j4, j5, -, j7, -⟩ := C68_stochastic a n env v hd h1 hr fs
      obtain ⟨-, -, obs', k2, t2, -, -, i3, -, i4, i5, -, i7, -⟩ := C68_stochastic a' n' env' v' hd' (by rw [hn.nrealizations]; exact h1) hr' fs
      have i3' := i3
      rw [hn.retained] at i3'
      obtain rfl : obs = obs' := Except.ok.inj (j3.symm.trans i3')
      obtain rfl := uniq e3 e4 j4 j5
      obtain rfl := uniq e3' e4' i4 i5
      rw [hla, hmvn, hint] at i7
      exact ⟨obs, _, _, _, j3, i3, j7, i7⟩
    · obtain ⟨-, -, obs, k1, t1, M, -, -, j3, -, j4, j5, j6, j7, -⟩ := C68_deterministic a n env v hd (not_lt.mp h1) hr fs
      obtain ⟨-, -, obs', k2, t2, M', -, -, i3, -, i4, i5, i6, i7, -⟩ := C68_deterministic a' n' env' v' hd' (by rw [hn.nrealizations]; exact not_lt.mp h1) hr' fs
      have i3' := i3
      rw [hn.retained] at i3'
      obtain rfl : obs = obs' := Except.ok.inj (j3.symm.trans i3')
      obtain rfl := uniq e3 e4 j4 j5
      obtain rfl := uniq e3' e4' i4 i5
      rw [hla, hint] at i7
      refine ⟨obs, fun _ d _ => d.mean, fun _ d _ => d.mean, fun _ ev _ => .ok ev, j3, i3, fun i L hL => ?_, fun i L hL => ?_⟩
      · rw [j6] at hL
        rcases i with _ | i
        · obtain rfl := Option.some.inj hL
          exact j7
        · simp at hL
      · rw [i6] at hL
        rcases i with _ | i
        · obtain rfl := Option.some.inj hL
          exact i7
        · simp at hL
  have key : ∀ (i : ℕ) (L L' : RealizationLog), (realizations (oneka a env).events)[i]? = some L → (realizations (oneka a' env').events)[i]? = some L' →
      L'.model = L.model.withWells L'.model.wells ∧ L'.ev = L.ev ∧ L'.cov = L.cov ∧
      ∀ (j : ℕ) (tr tr' tr0 : Trace XR), L.traces[j]? = some tr → L'.traces[j]? = some tr' → L.model.awayTrace n.run t (L.model.wells ++ L'.model.wells) (env.run.interrupt i) j = some tr0 →
        tr0.vertices <+: tr.vertices ∧ tr0.vertices <+: tr'.vertices ∧ (tr0.warning = none → tr = tr0 ∧ tr' = tr0) := by
    intro i L L' hL hL'
    have R := hR i L hL
    have R' := hR' i L' hL'
    obtain ⟨-, -, -, -, -, -, o1⟩ := C47_filter _ _ _ _ hobs
    obtain ⟨-, -, -, -, -, -, o2⟩ := C47_filter _ _ _ _ hobs'
    have p1 := realized_places R hbuf o1
    have p2 := realized_places R' hbuf' o2
    obtain ⟨m1, m2, m3⟩ := realized_merge R R' (hw i L L' hL hL') (by assumption) tx ty rfl (realized_nonempty R hne) (realized_nonempty R' hne') fun o ho => ⟨p1 o ho, p2 o ho⟩
    refine ⟨m1, m2, m3, fun j tr tr' tr0 h h' h0 => ?_⟩
    have s := R.traces j tr h
    have s' := R'.traces j tr' h'
    rw [m1] at s'
    simp only [g1, g2, g3, g4, g5, tx, ty, tw] at s'
    exact common_trace (away_raises _ _ _ _) (away_raises_merge (hw i L L' hL hL').wells _ _) s s' h0
  refine ⟨d, d', f, f', k, t, e1, e2, e1', e2', e3, e4, hlen, key, fun hall => ?_⟩
  -- the same tracks are recorded
  have hpaths : ∀ i : ℕ, ((realizations (oneka a' env').events)[i]?).map RealizationLog.paths = ((realizations (oneka a env).events)[i]?).map RealizationLog.paths := by
    intro i
    by_cases hi : i < (realizations (oneka a env).events).length
    · have hL := List.getElem?_eq_getElem hi
      have hL' := List.getElem?_eq_getElem (hlen ▸ hi : i < (realizations (oneka a' env').events).length)
      rw [hL, hL', Option.map_some, Option.map_some]
      congr 1
      unfold RealizationLog.paths
      congr 1
      refine List.ext_getElem? fun j => ?_
      have R := hR i _ hL
      have R' := hR' i _ hL'
      have hN : n'.run.npaths.toNat = n.run.npaths.toNat := by rw [g1]
      by_cases hj : j < n.run.npaths.toNat
      · obtain ⟨tr0, h0, hw⟩ := hall i _ _ hL hL' j (by omega)
        have l1 : j < ((realizations (oneka a env).events)[i]).traces.length := by rw [R.traces_length]; exact hj
        have l2 : j < ((realizations (oneka a' env').events)[i]'(hlen ▸ hi)).traces.length := by rw [R'.traces_length]; exact hN ▸ hj
        obtain ⟨-, -, -, c⟩ := key i _ _ hL hL'
        obtain ⟨c1, c2⟩ := (c j _ _ tr0 (List.getElem?_eq_getElem l1) (List.getElem?_eq_getElem l2) h0).2.2 hw
        rw [List.getElem?_eq_getElem l1, List.getElem?_eq_getElem l2, c1, c2]
      · rw [List.getElem?_eq_none (by rw [R'.traces_length]; exact hN ▸ not_lt.mp hj), List.getElem?_eq_none (by rw [R.traces_length]; exact not_lt.mp hj)]
    · rw [List.getElem?_eq_none (by omega), List.getElem?_eq_none (by omega)]
  rw [tx, ty, g6] at e6'
  rw [tx, ty, g6, g7] at e7'
  exact same_field hpaths e6 e6' e7 e7'

end Oneka
