import Verif.Lemmas.Storage
import Verif.Props.Arrival
import Verif.Props.Clock
import Verif.Props.Oneka

/-!
# C156: with the same discharge, more storage means a smaller capture zone

Vocabulary: Spec/Storage.lean, Spec/Arrival.lean. Examples: Props/StorageExamples.lean.
-/

namespace Oneka

open Aquifer

/-- **C156.** Two aquifers with the same wells and regional flow. If the second one has no larger porosity and thickness and no smaller conductivity, it delivers to a place (with a positive head if unconfined) all water that the first one delivers within the same time. -/
theorem C156_delivers {m : Aquifer ℝ} (hm : m.Physical) {K n H : ℝ} (hm' : (m.refilled K n H).Physical) (hK : m.conductivity ≤ K) (hn : n ≤ m.porosity) (hH : H ≤ m.thickness) {confined : Bool} {D d X Y : ℝ} {p : ℝ × ℝ}
    (h : m.Delivers confined D d X Y p) : (m.refilled K n H).Delivers confined D d X Y p := by
  obtain ⟨γ, τ, h0, h1, hγ, hd, rfl⟩ := h
  have pos : confined = true ∨ 0 < m.potential (γ τ).1 (γ τ).2 := by
    cases confined with
    | true => exact .inl rfl
    | false =>
      obtain ⟨v, ⟨-, b, hs, -, -⟩, -⟩ := hγ τ h0 le_rfl
      exact .inr (saturated_root hm hs).1
  have posn : ∀ t ∈ Set.Icc 0 τ, confined = true ∨ 0 < m.potential (γ t).1 (γ t).2 := fun t ht => pos.imp_right fun h => lt_of_lt_of_le h (potential_descends hm hγ ht.1 ht.2)
  have hn0 : 0 < n := hm'.porosity
  have hb' : 0 < thickAt (m.refilled K n H) confined (γ τ) := saturated_pos hm' (thickAt_sat hm' confined pos)
  have hmH := hm.thickness
  have hmn := hm.porosity
  have up : ∀ t ∈ Set.Icc 0 τ, thickAt (m.refilled K n H) confined (γ τ) ≤ thickAt (m.refilled K n H) confined (γ t) := by
    intro t ht
    have := potential_descends hm hγ ht.1 ht.2
    have hK' : 0 < K := hm'.conductivity
    simp only [thickAt, refilled_potential, show (m.refilled K n H).conductivity = K from rfl]
    split_ifs
    · exact le_rfl
    · exact min_le_min (Real.sqrt_le_sqrt (by gcongr)) le_rfl
  obtain ⟨θ, τ', a1, -, a3, a4, a5, -, a7⟩ := change_storage hm hm' (c' := confined) (lo := n * thickAt (m.refilled K n H) confined (γ τ) / (m.porosity * m.thickness)) (hi := 1) h0 hγ pos (by positivity) (fun t ht => ⟨by
      have b1 := thickAt_le m confined (γ t)
      have b2 : n * thickAt (m.refilled K n H) confined (γ τ) / (m.porosity * m.thickness) * (m.porosity * thickAt m confined (γ t)) ≤ n * thickAt (m.refilled K n H) confined (γ τ) := by
        rw [div_mul_eq_mul_div, div_le_iff₀ (by positivity)]
        have : m.porosity * thickAt m confined (γ t) ≤ m.porosity * m.thickness := by gcongr
        exact mul_le_mul_of_nonneg_left this (by positivity)
      exact b2.trans (mul_le_mul_of_nonneg_left (up t ht) hn0.le), by
      have b1 : thickAt (m.refilled K n H) confined (γ t) ≤ thickAt m confined (γ t) :=
        thickAt_refilled_le (m := m) (K := m.conductivity) (n := m.porosity) (H := m.thickness) hm.conductivity hK hH confined ((posn t ht).imp_right le_of_lt)
      have b2 : 0 < thickAt (m.refilled K n H) confined (γ t) := saturated_pos hm' (thickAt_sat hm' confined (posn t ht))
      rw [one_mul]
      exact mul_le_mul hn b1 b2.le hmn.le⟩)
  exact ⟨_, τ', a1, by linarith, a7, by simpa only [a4] using hd, by simp only [a5]⟩

/-- **C156.** With `k` times the porosity the water needs exactly `k` times as long, confined or not. -/
theorem C156_porosity {m : Aquifer ℝ} (hm : m.Physical) {k : ℝ} (hk : 0 < k) {confined : Bool} {D d X Y : ℝ} {p : ℝ × ℝ} :
    (m.refilled m.conductivity (k * m.porosity) m.thickness).Delivers confined (k * D) d X Y p ↔ m.Delivers confined D d X Y p := by
  constructor
  all_goals
    rintro ⟨γ, τ, h0, h1, hγ, hd, he⟩
  · refine ⟨fun s => γ (k * s), τ / k, by positivity, by rw [div_le_iff₀ hk]; linarith, fun s s0 s1 => ?_, by simpa using hd, by rw [← he]; congr 1; field_simp⟩
    rw [le_div_iff₀ hk] at s1
    obtain ⟨v, ⟨hoff, b, hs, d1, d2⟩, hv⟩ := hγ (k * s) (by positivity) (by linarith)
    refine ⟨k • v, ⟨hoff, b, hs, d1.congr_deriv ?_, d2.congr_deriv ?_⟩, ?_⟩
    · simp only [Prod.smul_fst, smul_eq_mul, show (m.refilled m.conductivity (k * m.porosity) m.thickness).porosity = k * m.porosity from rfl]
      ring
    · simp only [Prod.smul_snd, smul_eq_mul, show (m.refilled m.conductivity (k * m.porosity) m.thickness).porosity = k * m.porosity from rfl]
      ring
    · exact HasDerivAt.scomp s hv (((hasDerivAt_id s).const_mul k).congr_deriv (by simp))
  · refine ⟨fun s => γ (s / k), k * τ, by positivity, by gcongr, fun s s0 s1 => ?_, by simpa using hd, by rw [← he]; congr 1; field_simp⟩
    obtain ⟨v, ⟨hoff, b, hs, d1, d2⟩, hv⟩ := hγ (s / k) (by positivity) (by rw [div_le_iff₀ hk]; linarith)
    refine ⟨(1 / k) • v, ⟨hoff, b, hs, d1.congr_deriv ?_, d2.congr_deriv ?_⟩, ?_⟩
    · simp only [Prod.smul_fst, smul_eq_mul, show (m.refilled m.conductivity (k * m.porosity) m.thickness).porosity = k * m.porosity from rfl]
      field_simp
    · simp only [Prod.smul_snd, smul_eq_mul, show (m.refilled m.conductivity (k * m.porosity) m.thickness).porosity = k * m.porosity from rfl]
      field_simp
    · exact HasDerivAt.scomp s hv (((hasDerivAt_id s).div_const k).congr_deriv (by simp))

/-- **C156.** Two realizations with the same wells, the same coefficients of the regional flow and the same treatment, of which the second one has no larger porosity and thickness, no smaller conductivity and no shorter duration: what the
first one captures, the second one captures with an umbra that is larger by the accuracy of both traces. -/
theorem C156_captures {a a' : RunArgs} {la la' : LinAlg} {t : SWell} {q q' : Dist → ℕ → Except PyErr ℝ} {coefs coefs' : (Fin 6 → ℝ) → Matrix (Fin 6) (Fin 6) ℝ → Except PyErr (Fin 6 → ℝ)}
    {interrupt interrupt' : ℕ → ℕ → Option PyErr} {T T' : RealizationLog} (R : Realized a la t q coefs interrupt T) (R' : Realized a' la' t q' coefs' interrupt' T')
    {K n H : ℝ} (hmod : T'.model = T.model.refilled K n H) (hK : T.model.conductivity ≤ K) (hn : n ≤ T.model.porosity) (hH : H ≤ T.model.thickness) (hphys : T.model.Physical) (hphys' : T'.model.Physical)
    (hc : a'.confined = a.confined) (hnp : a'.npaths = a.npaths)
    {D D' tol tol' maxstep maxstep' δ δ' : ℝ} (hd : a.duration = .fin D) (ht : a.tol = .fin tol) (hm : a.maxstep = .fin maxstep)
    (hd' : a'.duration = .fin D') (ht' : a'.tol = .fin tol') (hm' : a'.maxstep = .fin maxstep') (hD : 0 < D) (hDD : D ≤ D') (htol : (10/9)^5 * (2:ℝ)^(-52 : ℤ) < tol) (htol' : (10/9)^5 * (2:ℝ)^(-52 : ℤ) < tol')
    (hmax : (10/9) * (2:ℝ)^(-52 : ℤ) < maxstep) (hmax' : (10/9) * (2:ℝ)^(-52 : ℤ) < maxstep') (hi : ∀ k n, interrupt k n = none) (hi' : ∀ k n, interrupt' k n = none)
    (hP : ∀ k : ℕ, k < a.npaths → ∃ P, Follows T.model a.confined (t.start a.npaths k) D maxstep δ P) (hP' : ∀ k : ℕ, k < a.npaths → ∃ P, Follows T'.model a.confined (t.start a.npaths k) D' maxstep' δ' P)
    {u X Y : ℝ} (hu : 0 ≤ u) (h : T.Captures u X Y) : T'.Captures (u + δ + δ') X Y := by
  obtain ⟨k, hk, hdel⟩ := (C131_captures R hd ht hm hD htol hmax hi hP u X Y).2 hu h
  refine (C131_captures R' hd' ht' hm' (hD.trans_le hDD) htol' hmax' hi' (by rw [hc, hnp]; exact hP') (u + δ + δ') X Y).1 ⟨k, by rw [hnp]; exact hk, ?_⟩
  rw [hmod] at hphys'
  obtain ⟨γ, τ, b1, b2, b3⟩ := C156_delivers hphys hphys' hK hn hH hdel
  rw [hc, hnp, hmod, add_sub_cancel_right]
  exact ⟨γ, τ, b1, b2.trans hDD, b3⟩

open Classical in
/-- **C156.** What is archived lies between what aquifers with more and with less storage deliver: the weight of a node is at least the number of realizations in which an aquifer with no smaller porosity and thickness and no larger conductivity
delivers water from within `umbra - δ` of the node, and at most the number of those in which one with no larger porosity and thickness and no smaller conductivity does from within `umbra + δ`. -/
theorem C156_archived (a : PyArgs) (n : Inputs) (env : CallEnv) (v : PyVal) (hden : a.Denotes n) (h : (oneka a env).ending = .returns v) (fs : Files)
    {D tol maxstep δ : ℝ} (hd : n.run.duration = .fin D) (ht : n.run.tol = .fin tol) (hm : n.run.maxstep = .fin maxstep) (hD : 0 < D) (htol : (10/9)^5 * (2:ℝ)^(-52 : ℤ) < tol)
    (hmax : (10/9) * (2:ℝ)^(-52 : ℤ) < maxstep) (hi : ∀ i k j, env.run.interrupt i k j = none) (K₁ n₁ H₁ K₂ n₂ H₂ : RealizationLog → ℝ)
    (hmore : ∀ L ∈ realizations (oneka a env).events, L.model.Physical ∧ (L.model.refilled (K₁ L) (n₁ L) (H₁ L)).Physical ∧ K₁ L ≤ L.model.conductivity ∧ L.model.porosity ≤ n₁ L ∧ L.model.thickness ≤ H₁ L)
    (hless : ∀ L ∈ realizations (oneka a env).events, (L.model.refilled (K₂ L) (n₂ L) (H₂ L)).Physical ∧ L.model.conductivity ≤ K₂ L ∧ n₂ L ≤ L.model.porosity ∧ H₂ L ≤ L.model.thickness) :
    ∃ (d : Dict) (f : PField ℝ) (k : ℕ) (t : SWell),
      loadOneka ((oneka a env).events.foldl Effect.apply fs) env.now.archiveName = .ok d ∧ d.get "pfield" = some (.field (.field f)) ∧ n.run.target = k ∧ n.run.wells[k]? = some t ∧
      ((∀ L ∈ realizations (oneka a env).events, ∀ j : ℕ, j < n.run.npaths → ∃ P, Follows L.model n.run.confined (t.start n.run.npaths j) D maxstep δ P) →
        ∀ p q : ℤ, (|p| ≤ 1 ∧ |q| ≤ 1) ∨ n.run.umbra ≤ n.run.spacing → ∀ X Y : ℝ, X = t.xw + p * n.run.spacing → Y = t.yw + q * n.run.spacing →
          ((realizations (oneka a env).events).countP fun L => ∃ j : ℕ, j < n.run.npaths ∧ (L.model.refilled (K₁ L) (n₁ L) (H₁ L)).Delivers n.run.confined D (n.run.umbra - δ) X Y (t.start n.run.npaths j)) ≤ f.weightAt X Y ∧
          f.weightAt X Y ≤ ((realizations (oneka a env).events).countP fun L => ∃ j : ℕ, j < n.run.npaths ∧ (L.model.refilled (K₂ L) (n₂ L) (H₂ L)).Delivers n.run.confined D (n.run.umbra + δ) X Y (t.start n.run.npaths j))) := by
  obtain ⟨d, f, k, t, h1, h2, h3, h4, h5⟩ := C131_archived a n env v hden h fs (δ := δ) hd ht hm hD htol hmax hi
  refine ⟨d, f, k, t, h1, h2, h3, h4, fun hP p q hpq X Y hX hY => ?_⟩
  obtain ⟨lo, up⟩ := h5 hP p q hpq X Y hX hY
  refine ⟨le_trans (Nat.cast_le.mpr (List.countP_mono_left fun L hL => ?_)) lo, up.trans (Nat.cast_le.mpr (List.countP_mono_left fun L hL => ?_))⟩
  · simp only [decide_eq_true_eq]
    rintro ⟨j, hj, hdel⟩
    obtain ⟨p1, p2, p3, p4, p5⟩ := hmore L hL
    exact ⟨j, hj, C156_delivers (K := L.model.conductivity) (n := L.model.porosity) (H := L.model.thickness) p2 p1 p3 p4 p5 hdel⟩
  · simp only [decide_eq_true_eq]
    rintro ⟨j, hj, hdel⟩
    obtain ⟨p2, p3, p4, p5⟩ := hless L hL
    exact ⟨j, hj, C156_delivers (hmore L hL).1 p2 p3 p4 p5 hdel⟩

/-- **C156.** Two stochastic calls with the same random numbers that differ in the porosity and the umbra only: if no porosity that the second one draws is larger, and its umbra is larger by the accuracy of the traces of both calls, then no weight that it archives is smaller. -/
theorem C156_calls (a a' : PyArgs) (n n' : Inputs) (env : CallEnv) (v v' : PyVal) (hden : a.Denotes n) (hden' : a'.Denotes n') (h : (oneka a env).ending = .returns v) (h' : (oneka a' env).ending = .returns v') (fs : Files)
    (h1 : 1 < n.nrealizations) (hN : n'.nrealizations = n.nrealizations) (hB : n'.buffer = n.buffer) (hrun : n'.run = { n.run with pDist := n'.run.pDist, umbra := n'.run.umbra })
    (hpor : ∀ (i : ℕ) (x x' : ℝ), n.run.pDist.sample (env.run.u i (n.run.wells.length + 1)) = .ok x → n'.run.pDist.sample (env.run.u i (n.run.wells.length + 1)) = .ok x' → x' ≤ x)
    {D tol maxstep δ δ' : ℝ} (hd : n.run.duration = .fin D) (ht : n.run.tol = .fin tol) (hm : n.run.maxstep = .fin maxstep) (hD : 0 < D) (htol : (10/9)^5 * (2:ℝ)^(-52 : ℤ) < tol)
    (hmax : (10/9) * (2:ℝ)^(-52 : ℤ) < maxstep) (hi : ∀ i k j, env.run.interrupt i k j = none) (hu : n'.run.umbra = n.run.umbra + δ + δ') (hu0 : 0 ≤ n.run.umbra) (hus : n.run.umbra ≤ n.run.spacing) (hus' : n'.run.umbra ≤ n.run.spacing) :
    ∃ (d d' : Dict) (f f' : PField ℝ) (k : ℕ) (t : SWell),
      loadOneka ((oneka a env).events.foldl Effect.apply fs) env.now.archiveName = .ok d ∧ d.get "pfield" = some (.field (.field f)) ∧
      loadOneka ((oneka a' env).events.foldl Effect.apply fs) env.now.archiveName = .ok d' ∧ d'.get "pfield" = some (.field (.field f')) ∧ n.run.target = k ∧ n.run.wells[k]? = some t ∧
      ((∀ L ∈ realizations (oneka a env).events, L.model.Physical ∧ ∀ j : ℕ, j < n.run.npaths → ∃ P, Follows L.model n.run.confined (t.start n.run.npaths j) D maxstep δ P) →
        (∀ L ∈ realizations (oneka a' env).events, L.model.Physical ∧ ∀ j : ℕ, j < n.run.npaths → ∃ P, Follows L.model n.run.confined (t.start n.run.npaths j) D maxstep δ' P) →
        ∀ p q : ℤ, f.weightAt (t.xw + p * n.run.spacing) (t.yw + q * n.run.spacing) ≤ f'.weightAt (t.xw + p * n.run.spacing) (t.yw + q * n.run.spacing)) := by
  classical
  obtain ⟨d, f, obs, k, t, i1, i2, i3, -, i5, i6, i7, i8, -, i10, -⟩ := C68_stochastic a n env v hden h1 h fs
  obtain ⟨d', f', obs', k', t', j1, j2, j3, -, j5, j6, j7, j8, -, j10, -⟩ := C68_stochastic a' n' env v' hden' (by rw [hN]; exact h1) h' fs
  have hwells : n'.run.wells = n.run.wells := by rw [hrun]
  obtain rfl : k = k' := by
    have : n'.run.target = n.run.target := by rw [hrun]
    rw [this, i5] at j5
    exact_mod_cast j5
  obtain rfl : t = t' := by
    rw [hwells, i6] at j6
    exact Option.some.inj j6
  obtain rfl : obs = obs' := by
    have : n'.run.obs = n.run.obs := by rw [hrun]
    rw [this, hwells, hB, i3] at j3
    exact Except.ok.inj j3
  have hr_base : n'.run.base = n.run.base := by rw [hrun]
  have hr_cDist : n'.run.cDist = n.run.cDist := by rw [hrun]
  have hr_tDist : n'.run.tDist = n.run.tDist := by rw [hrun]
  have hsp : n'.run.spacing = n.run.spacing := by rw [hrun]
  have hnp : n'.run.npaths = n.run.npaths := by rw [hrun]
  have hdu : n'.run.duration = .fin D := by rw [hrun]; exact hd
  have hto : n'.run.tol = .fin tol := by rw [hrun]; exact ht
  have hma : n'.run.maxstep = .fin maxstep := by rw [hrun]; exact hm
  refine ⟨d, d', f, f', k, t, i1, i2, j1, j2, i5, i6, fun hP hP' p q => ?_⟩
  have w1 := i10 p q (.inr hus)
  have w2 := j10 p q (.inr (by rw [hsp]; exact hus'))
  rw [hsp] at w2
  rw [w1, w2]
  refine Nat.cast_le.mpr (countP_le_pointwise _ _ (by exact_mod_cast i7.trans (hN.symm.trans j7.symm)) fun i L L' hL hL' hcap => ?_)
  simp only [decide_eq_true_eq] at hcap ⊢
  have R := i8 i L hL
  have R' := j8 i L' hL'
  obtain ⟨ph, hF⟩ := hP L (List.mem_of_getElem? hL)
  obtain ⟨ph', hF'⟩ := hP' L' (List.mem_of_getElem? hL')
  have hmod := realized_refilled R R' hr_base hwells hr_cDist hr_tDist rfl
  rw [hu]
  have hc : n'.run.confined = n.run.confined := by rw [hrun]
  exact C156_captures R R' hmod le_rfl (hpor i _ _ R.porosity (by rw [← hwells]; exact R'.porosity)) le_rfl ph ph' hc hnp hd ht hm hdu hto hma hD le_rfl htol htol hmax hmax (hi i) (hi i) hF hF' hu0 hcap

/-- **C154.** Two stochastic calls with the same random numbers, one with `confined=True` and one with `confined=False` and an umbra that is larger by the accuracy of the traces of both, and otherwise the same: no weight that the second one archives is smaller. -/
theorem C154_calls (a a' : PyArgs) (n n' : Inputs) (env : CallEnv) (v v' : PyVal) (hden : a.Denotes n) (hden' : a'.Denotes n') (h : (oneka a env).ending = .returns v) (h' : (oneka a' env).ending = .returns v') (fs : Files)
    (h1 : 1 < n.nrealizations) (hN : n'.nrealizations = n.nrealizations) (hB : n'.buffer = n.buffer) (hrun : n'.run = { n.run with confined := false, umbra := n'.run.umbra }) (hconf : n.run.confined = true)
    {D tol maxstep δ δ' : ℝ} (hd : n.run.duration = .fin D) (ht : n.run.tol = .fin tol) (hm : n.run.maxstep = .fin maxstep) (hD : 0 < D) (htol : (10/9)^5 * (2:ℝ)^(-52 : ℤ) < tol)
    (hmax : (10/9) * (2:ℝ)^(-52 : ℤ) < maxstep) (hi : ∀ i k j, env.run.interrupt i k j = none) (hu : n'.run.umbra = n.run.umbra + δ + δ') (hu0 : 0 ≤ n.run.umbra) (hus : n.run.umbra ≤ n.run.spacing) (hus' : n'.run.umbra ≤ n.run.spacing) :
    ∃ (d d' : Dict) (f f' : PField ℝ) (k : ℕ) (t : SWell),
      loadOneka ((oneka a env).events.foldl Effect.apply fs) env.now.archiveName = .ok d ∧ d.get "pfield" = some (.field (.field f)) ∧
      loadOneka ((oneka a' env).events.foldl Effect.apply fs) env.now.archiveName = .ok d' ∧ d'.get "pfield" = some (.field (.field f')) ∧ n.run.target = k ∧ n.run.wells[k]? = some t ∧
      ((∀ L ∈ realizations (oneka a env).events, L.model.Physical ∧ ∀ j : ℕ, j < n.run.npaths → ∃ P, Follows L.model true (t.start n.run.npaths j) D maxstep δ P) →
        (∀ L ∈ realizations (oneka a' env).events, L.model.Physical ∧ ∀ j : ℕ, j < n.run.npaths → ∃ P, Follows L.model false (t.start n.run.npaths j) D maxstep δ' P) →
        ∀ p q : ℤ, f.weightAt (t.xw + p * n.run.spacing) (t.yw + q * n.run.spacing) ≤ f'.weightAt (t.xw + p * n.run.spacing) (t.yw + q * n.run.spacing)) := by
  classical
  obtain ⟨d, f, obs, k, t, i1, i2, i3, -, i5, i6, i7, i8, -, i10, -⟩ := C68_stochastic a n env v hden h1 h fs
  obtain ⟨d', f', obs', k', t', j1, j2, j3, -, j5, j6, j7, j8, -, j10, -⟩ := C68_stochastic a' n' env v' hden' (by rw [hN]; exact h1) h' fs
  have hwells : n'.run.wells = n.run.wells := by rw [hrun]
  obtain rfl : k = k' := by
    have : n'.run.target = n.run.target := by rw [hrun]
    rw [this, i5] at j5
    exact_mod_cast j5
  obtain rfl : t = t' := by
    rw [hwells, i6] at j6
    exact Option.some.inj j6
  obtain rfl : obs = obs' := by
    have : n'.run.obs = n.run.obs := by rw [hrun]
    rw [this, hwells, hB, i3] at j3
    exact Except.ok.inj j3
  have hr_base : n'.run.base = n.run.base := by rw [hrun]
  have hr_cDist : n'.run.cDist = n.run.cDist := by rw [hrun]
  have hr_tDist : n'.run.tDist = n.run.tDist := by rw [hrun]
  have hsp : n'.run.spacing = n.run.spacing := by rw [hrun]
  have hnp : n'.run.npaths = n.run.npaths := by rw [hrun]
  have hdu : n'.run.duration = .fin D := by rw [hrun]; exact hd
  have hto : n'.run.tol = .fin tol := by rw [hrun]; exact ht
  have hma : n'.run.maxstep = .fin maxstep := by rw [hrun]; exact hm
  refine ⟨d, d', f, f', k, t, i1, i2, j1, j2, i5, i6, fun hP hP' p q => ?_⟩
  have w1 := i10 p q (.inr hus)
  have w2 := j10 p q (.inr (by rw [hsp]; exact hus'))
  rw [hsp] at w2
  rw [w1, w2]
  refine Nat.cast_le.mpr (countP_le_pointwise _ _ (by exact_mod_cast i7.trans (hN.symm.trans j7.symm)) fun i L L' hL hL' hcap => ?_)
  simp only [decide_eq_true_eq] at hcap ⊢
  have R := i8 i L hL
  have R' := j8 i L' hL'
  obtain ⟨ph, hF⟩ := hP L (List.mem_of_getElem? hL)
  obtain ⟨ph', hF'⟩ := hP' L' (List.mem_of_getElem? hL')
  have hmod := realized_refilled R R' hr_base hwells hr_cDist hr_tDist rfl
  rw [hu]
  have hr_pDist : n'.run.pDist = n.run.pDist := by rw [hrun]
  have hpo : L'.model.porosity = L.model.porosity := by
    have := R'.porosity
    rw [show ({ n'.run with obs := obs } : RunArgs).pDist = n.run.pDist from hr_pDist, show ({ n'.run with obs := obs } : RunArgs).wells = n.run.wells from hwells, R.porosity] at this
    exact (Except.ok.inj this).symm
  rw [hpo] at hmod
  have hc : n'.run.confined = false := by rw [hrun]
  have hmod' : L'.model = L.model := hmod
  exact C154_captures R R' hmod' hconf hc hnp hd ht hm hdu hto hma hD le_rfl htol htol hmax hmax (hi i) (hi i) hF (fun j hj => by rw [← hmod']; exact hF' j hj) hu0 hcap

end Oneka
