import Verif.Lemmas.Duration
import Verif.Props.CaptureExact
import Verif.Props.Backtrace

/-!
# C130: how the duration, the tolerance and the step limit act on the result

`a.retraced D tol maxstep u` are the arguments `a` with another duration, tolerance, step limit and umbra (Spec/Duration.lean). Examples, and what fails: Props/DurationExamples.lean.
-/

namespace Oneka

/-- **C130.** Two traces of the same steady velocity that differ in the duration only, in the same direction. They coincide up to a vertex `p`, reached at a time `t` that is not past the shorter duration. Either
`t` is the shorter duration, and the shorter trace ends there; or both want to continue with the same step `h`, which leads past the shorter duration. From there on each is adaptive integration to its own duration; if the
step from `p` to the end of the shorter duration passes the tests for the error and the length, then the shorter trace has just that one more vertex. -/
theorem C130_common (f : ℝ × ℝ → ℝ × ℝ) (xs ys D D' tol maxstep : ℝ) (hsign : 0 < D * D') (hle : |D| ≤ |D'|) (r r' : Trace ℝ) (h : computeBacktrace xs ys D tol maxstep (steady f) = some r)
    (h' : computeBacktrace xs ys D' tol maxstep (steady f) = some r') :
    ∃ (pre rest rest' : List (ℝ × (ℝ × ℝ))) (t h : ℝ) (p : ℝ × ℝ),
      r.vertices = (xs, ys) :: (pre ++ rest).map Prod.snd ∧ r'.vertices = (xs, ys) :: (pre ++ rest').map Prod.snd ∧
      t = (pre.map Prod.fst).sum ∧ ((xs, ys) :: pre.map Prod.snd).getLast? = some p ∧
      ((|t| = |D| ∧ rest = []) ∨
        (|t| < |D| ∧ |D| < |t + h| ∧ (localError f (D - t) p < tol → euclid p (rkStep f dpA dp5 (D - t) p) < maxstep → rest = [(D - t, rkStep f dpA dp5 (D - t) p)]))) ∧
      Adaptive f tol maxstep D t h p rest ∧ Adaptive f tol maxstep D' t h p rest' := by
  obtain ⟨path, A, e⟩ := (C24_code_is_method f xs ys D tol maxstep r.vertices).mp ⟨r, h, rfl⟩
  obtain ⟨path', A', e'⟩ := (C24_code_is_method f xs ys D' tol maxstep r'.vertices).mp ⟨r', h', rfl⟩
  have hs : Real.sign D' = Real.sign D := by
    rcases pos_and_pos_or_neg_and_neg_of_mul_pos hsign with ⟨h1, h2⟩ | ⟨h1, h2⟩
    · rw [Real.sign_of_pos h1, Real.sign_of_pos h2]
    · rw [Real.sign_of_neg h1, Real.sign_of_neg h2]
  rw [hs] at A'
  obtain ⟨pre, rest, rest', h₁, p₁, rfl, rfl, c1, c2, c3, c4⟩ := adaptive_common hle A path' A' (by simp)
  simp only [zero_add] at c2 c3 c4
  refine ⟨pre, rest, rest', _, h₁, p₁, e, e', rfl, c1, ?_, c2, c3⟩
  rcases c4 with c4 | ⟨c4, c5⟩
  · exact .inl c4
  · exact .inr ⟨c4, c5, adaptive_last c2 c4 c5⟩

/-- **C130.** In uniform flow a longer trace passes all the places that a shorter one passes, whatever the tolerances. -/
theorem C130_uniform (v : ℝ × ℝ) (xs ys D D' tol maxstep tol' maxstep' : ℝ) (hsign : 0 < D * D') (hle : |D| ≤ |D'|) (htol : (10/9)^5 * (2:ℝ)^(-52 : ℤ) < tol)
    (hmax : (10/9) * (2:ℝ)^(-52 : ℤ) < maxstep) (htol' : (10/9)^5 * (2:ℝ)^(-52 : ℤ) < tol') (hmax' : (10/9) * (2:ℝ)^(-52 : ℤ) < maxstep') (r r' : Trace ℝ)
    (h : computeBacktrace xs ys D tol maxstep (steady fun _ => v) = some r) (h' : computeBacktrace xs ys D' tol' maxstep' (steady fun _ => v) = some r')
    (u X Y : ℝ) (hn : NearTrack r.vertices u X Y) : NearTrack r'.vertices u X Y := by
  have hD : D ≠ 0 := by rintro rfl; simp at hsign
  have hD' : D' ≠ 0 := by rintro rfl; simp at hsign
  obtain ⟨r1, θs, e1, hv, h0, h1, hinc⟩ := C23_uniform_flow v xs ys D tol maxstep hD htol hmax
  obtain ⟨r2, θs', e2, hv', h0', h1', hinc'⟩ := C23_uniform_flow v xs ys D' tol' maxstep' hD' htol' hmax'
  rw [h] at e1
  rw [h'] at e2
  obtain rfl := Option.some.inj e1
  obtain rfl := Option.some.inj e2
  rw [hv] at hn
  rw [hv']
  obtain ⟨x, y, hxy, hne, s, s0, s1, hs⟩ := hn
  obtain ⟨a, b, hab, rfl, rfl⟩ := pair_of_map hxy
  have hrange : ∀ θ ∈ θs, 0 ≤ θ ∧ θ ≤ 1 := by
    intro θ hθ
    obtain ⟨k, hk, rfl⟩ := List.mem_iff_getElem.mp hθ
    have hmono := List.pairwise_iff_getElem.mp hinc
    constructor
    · rcases Nat.eq_zero_or_pos k with rfl | hk0
      · rw [List.head?_eq_getElem?, List.getElem?_eq_getElem hk] at h0
        exact (Option.some.inj h0).ge
      · rw [List.head?_eq_getElem?, List.getElem?_eq_getElem (by omega)] at h0
        rw [← Option.some.inj h0]
        exact (hmono 0 k (by omega) hk hk0).le
    · rw [List.getLast?_eq_getElem?, List.getElem?_eq_getElem (by omega)] at h1
      rw [← Option.some.inj h1]
      rcases (by omega : k = θs.length - 1 ∨ k < θs.length - 1) with hk0 | hk0
      · exact le_of_eq (by congr 1)
      · exact (hmono k (θs.length - 1) hk (by omega) hk0).le
  have ha := hrange a (hab.subset (by simp))
  have hb := hrange b (hab.subset (by simp))
  have hv0 : v ≠ 0 := by
    rintro rfl
    simp at hne
  set θ := a + s * (b - a) with hθ
  have hθ0 : 0 ≤ θ := by nlinarith [ha.1, hb.1]
  have hθ1 : θ ≤ 1 := by nlinarith [ha.2, hb.2]
  have hq0 : 0 ≤ D / D' := by
    rcases pos_and_pos_or_neg_and_neg_of_mul_pos hsign with ⟨g1, g2⟩ | ⟨g1, g2⟩
    · exact div_nonneg g1.le g2.le
    · exact div_nonneg_of_nonpos g1.le g2.le
  have hq1 : D / D' ≤ 1 := by
    have : |D / D'| ≤ 1 := by rw [abs_div, div_le_one (abs_pos.mpr hD')]; exact hle
    exact (le_abs_self _).trans this
  have hw : θ * (D / D') * D' = θ * D := by field_simp
  rcases θs' with _ | ⟨c0, cs⟩
  · simp at h0'
  obtain rfl : c0 = 0 := by simpa using h0'
  have hcs : cs ≠ [] := by
    rintro rfl
    simp at h1'
  obtain ⟨c, d, hcd, c1, d1⟩ := between_neighbours hcs h1' (mul_nonneg hθ0 hq0) (mul_le_one₀ hθ1 hq0 hq1)
  have hlt : c < d := by
    have := hinc'.sublist hcd.sublist
    simpa using this
  refine ⟨_, _, hcd.map fun θ => ((xs, ys) : ℝ × ℝ) + (θ * D') • v, ?_, (θ * (D / D') - c) / (d - c), div_nonneg (by linarith) (by linarith), (div_le_one (by linarith)).mpr (by linarith), ?_⟩
  · intro e
    have e2 := smul_left_injective ℝ hv0 (add_left_cancel e)
    exact hlt.ne (mul_right_cancel₀ hD' e2)
  · have hden : d - c ≠ 0 := by linarith
    have key : ∀ w : ℝ, c * D' * w + (θ * (D / D') - c) / (d - c) * (d * D' * w - c * D' * w) = θ * D * w := fun w => by
      rw [← hw]
      field_simp
      ring
    have key2 : ∀ w : ℝ, a * D * w + s * (b * D * w - a * D * w) = θ * D * w := fun w => by rw [hθ]; ring
    simp only [Prod.fst_add, Prod.snd_add, Prod.smul_fst, Prod.smul_snd, smul_eq_mul] at hs ⊢
    have t1 := key v.1
    have t2 := key v.2
    have t3 := key2 v.1
    have t4 := key2 v.2
    convert hs using 4
    · linear_combination t1 - t3
    · linear_combination t2 - t4

/-- **C130.** Two traces through the same model from the same start that follow the exact pathline `P` up to `δ` and `δ'`, the second one with a duration at least as long; tolerance and step limit may differ.
Both return, and every place within `u` of the first is within `u + δ + δ'` of the second. -/
theorem C130_track {m : Aquifer ℝ} {confined : Bool} {start : ℝ × ℝ} {D D' tol tol' maxstep maxstep' δ δ' : ℝ} {P : ℝ → ℝ × ℝ} (h : Follows m confined start D maxstep δ P)
    (h' : Follows m confined start D' maxstep' δ' P) (hD : 0 < D) (hDD : D ≤ D') (htol : (10/9)^5 * (2:ℝ)^(-52 : ℤ) < tol) (hmax : (10/9) * (2:ℝ)^(-52 : ℤ) < maxstep)
    (htol' : (10/9)^5 * (2:ℝ)^(-52 : ℤ) < tol') (hmax' : (10/9) * (2:ℝ)^(-52 : ℤ) < maxstep') :
    ∃ r r', computeBacktrace (.fin start.1) (.fin start.2) (.fin D) (.fin tol) (.fin maxstep) (fun _ => m.toX.reverseVelocity confined) = some r ∧
      computeBacktrace (.fin start.1) (.fin start.2) (.fin D') (.fin tol') (.fin maxstep') (fun _ => m.toX.reverseVelocity confined) = some r' ∧
      ∀ u X Y, 0 ≤ u → NearTrack r.path u X Y → NearTrack r'.path (u + δ + δ') X Y := by
  obtain ⟨r, hr, -, k⟩ := C95_track (tol := tol) h hD htol hmax
  obtain ⟨r', hr', -, k'⟩ := C95_track (tol := tol') h' (lt_of_lt_of_le hD hDD) htol' hmax'
  refine ⟨r, r', hr, hr', fun u X Y hu hn => ?_⟩
  obtain ⟨t, t0, t1, ht⟩ := (k u X Y).2 hu hn
  exact (k' (u + δ + δ') X Y).1 ⟨t, t0, t1.trans hDD, by linarith⟩

/-- **C130** for realizations: if they have the same model then every place that the first captures with the umbra `u` is captured by the second with any umbra from `u + δ + δ'`. -/
theorem C130_captures {a : RunArgs} {la : LinAlg} {t : SWell} {q : Dist → ℕ → Except PyErr ℝ} {coefs : (Fin 6 → ℝ) → Matrix (Fin 6) (Fin 6) ℝ → Except PyErr (Fin 6 → ℝ)}
    {interrupt : ℕ → ℕ → Option PyErr} {L L' : RealizationLog} {D tol maxstep D' tol' maxstep' u' δ δ' : ℝ} (R : Realized a la t q coefs interrupt L)
    (R' : Realized (a.retraced D' tol' maxstep' u') la t q coefs interrupt L') (hd : a.duration = .fin D) (ht : a.tol = .fin tol) (hm : a.maxstep = .fin maxstep)
    (hD : 0 < D) (hDD : D ≤ D') (htol : (10/9)^5 * (2:ℝ)^(-52 : ℤ) < tol) (hmax : (10/9) * (2:ℝ)^(-52 : ℤ) < maxstep)
    (htol' : (10/9)^5 * (2:ℝ)^(-52 : ℤ) < tol') (hmax' : (10/9) * (2:ℝ)^(-52 : ℤ) < maxstep') (hi : ∀ k n, interrupt k n = none) (P : ℕ → ℝ → ℝ × ℝ)
    (hP : ∀ k : ℕ, k < a.npaths → Follows L.model a.confined (t.start a.npaths k) D maxstep δ (P k) ∧ Follows L.model a.confined (t.start a.npaths k) D' maxstep' δ' (P k))
    {u : ℝ} (hu : 0 ≤ u) (huu : u + δ + δ' ≤ u') (X Y : ℝ) (hc : L.Captures u X Y) : L.model = L'.model ∧ L'.Captures u' X Y := by
  have e := realized_retraced R R'
  refine ⟨e, ?_⟩
  obtain ⟨k, hk, s, s0, s1, hs⟩ := (C95_captures R hd ht hm hD htol hmax hi P (fun k hk => (hP k hk).1) u X Y).2 hu hc
  refine (C95_captures (δ := δ') R' rfl rfl rfl (lt_of_lt_of_le hD hDD) htol' hmax' hi P (fun k hk => ?_) u' X Y).1 ⟨k, hk, s, s0, s1.trans hDD, by linarith⟩
  rw [← e]
  exact (hP k hk).2

open Classical in
/-- **C130** for stochastic runs, the same random numbers given: if the traces of a run follow the exact pathlines up to `δ`, then the run with a longer duration, with any tolerance and with another step limit with which
the traces follow the exact pathlines up to `δ'`, returns as well; it goes through the same models, and with an umbra larger by `δ + δ'` it has nowhere a smaller weight. (For the nodes around the target; for all
lattice positions if the umbra does not exceed the spacing.) -/
theorem C130_stochastic (a : RunArgs) (n k : ℕ) (env : Env) (t : SWell) (hk : a.target = k) (ht : a.wells[k]? = some t) (hu : 0 ≤ a.umbra) (hs : 0 < a.spacing) {D tol maxstep D' tol' maxstep' u' δ δ' : ℝ}
    (hd : a.duration = .fin D) (htl : a.tol = .fin tol) (hm : a.maxstep = .fin maxstep) (hD : 0 < D) (hDD : D ≤ D') (htol : (10/9)^5 * (2:ℝ)^(-52 : ℤ) < tol)
    (hmax : (10/9) * (2:ℝ)^(-52 : ℤ) < maxstep) (htol' : (10/9)^5 * (2:ℝ)^(-52 : ℤ) < tol') (hmax' : (10/9) * (2:ℝ)^(-52 : ℤ) < maxstep') (hi : ∀ i j m, env.interrupt i j m = none)
    {r : RunResult} {f : PField ℝ} (h : createStochastic a n env = some r) (ho : r.outcome = .ok f) (P : ℕ → ℕ → ℝ → ℝ × ℝ)
    (hP : ∀ (i : ℕ) (L : RealizationLog), r.log[i]? = some L → ∀ j : ℕ, j < a.npaths →
      Follows L.model a.confined (t.start a.npaths j) D maxstep δ (P i j) ∧ Follows L.model a.confined (t.start a.npaths j) D' maxstep' δ' (P i j))
    (huu : a.umbra + δ + δ' ≤ u') (hu' : 0 ≤ u') :
    ∃ r' f', createStochastic (a.retraced D' tol' maxstep' u') n env = some r' ∧ r'.outcome = .ok f' ∧ List.Forall₂ RealizationLog.SameModel r.log r'.log ∧ f.total = f'.total ∧
      ∀ p q : ℤ, (|p| ≤ 1 ∧ |q| ≤ 1) ∨ (a.umbra ≤ a.spacing ∧ u' ≤ a.spacing) →
        f.weightAt (t.xw + p * a.spacing) (t.yw + q * a.spacing) ≤ f'.weightAt (t.xw + p * a.spacing) (t.yw + q * a.spacing) := by
  obtain ⟨f0, e0, wf0, b0⟩ := new_pos (xo := t.xw) (yo := t.yw) hs
  have hD' := lt_of_lt_of_le hD hDD
  obtain ⟨r', f', hr', ho', hlog⟩ : ∃ r' f', createStochastic (a.retraced D' tol' maxstep' u') n env = some r' ∧ r'.outcome = .ok f' ∧ List.Forall₂ RealizationLog.SameModel r.log r'.log := by
    have h1 := h
    unfold createStochastic at h1 ⊢
    rw [hk, getWell_nat ht] at h1
    rw [show (a.retraced D' tol' maxstep' u').wells = a.wells from rfl, show (a.retraced D' tol' maxstep' u').target = a.target from rfl, hk, getWell_nat ht]
    simp only [show (a.retraced D' tol' maxstep' u').spacing = a.spacing from rfl, e0] at h1 ⊢
    obtain ⟨ls, e, key⟩ := loop_retraced (D := D') (tol := tol') (ms := maxstep') (u' := u') hi _ 0 f0 f0 [] [] r f wf0 b0 wf0 b0 .nil h1 ho
    refine key fun L hL j hj => ?_
    rw [List.nil_append] at e
    rw [← e] at hL
    obtain ⟨i, hi', rfl⟩ := List.mem_iff_getElem.mp hL
    obtain ⟨tr, htr, -⟩ := C95_track (tol := tol') (hP i _ (List.getElem?_eq_getElem hi') j hj).2 hD' htol' hmax'
    rw [htr]
    simp
  refine ⟨r', f', hr', ho', hlog, ?_, fun p q hpq => ?_⟩
  · rw [(C44_frequencies a n k env t hk ht h ho).2.1, (C44_frequencies (a.retraced D' tol' maxstep' u') n k env t hk ht hr' ho').2.1]
  · obtain ⟨l1, -, -, c, -⟩ := C44_frequencies a n k env t hk ht h ho
    obtain ⟨l2, -, -, c', -⟩ := C44_frequencies (a.retraced D' tol' maxstep' u') n k env t hk ht hr' ho'
    rw [c hu p q (hpq.imp_right And.left)]
    refine le_trans ?_ (c' hu' p q (hpq.imp_right And.right)).ge
    refine Nat.cast_le.mpr ?_
    rw [countP_range r.log, countP_range r'.log, l1, l2]
    refine List.countP_mono_left fun i hi' hq => ?_
    rw [List.mem_range] at hi'
    simp only [decide_eq_true_eq] at hq ⊢
    obtain ⟨L, hL, hc⟩ := hq
    obtain ⟨L0, e0, R⟩ := C45_realizations a n k env t hk ht h ho i hi'
    rw [hL] at e0
    obtain rfl := Option.some.inj e0
    obtain ⟨L', hL', R'⟩ := C45_realizations (a.retraced D' tol' maxstep' u') n k env t hk ht hr' ho' i hi'
    exact ⟨L', hL', (C130_captures R R' hd htl hm hD hDD htol hmax htol' hmax' (hi i) (P i) (hP i L hL) hu huu _ _ hc).2⟩

open Classical in
/-- **C130** for the archives of two calls that return and differ in duration, tolerance, step limit and umbra (and whatever `smooth` and clock): with a duration at least as long and an umbra larger by `δ + δ'` no
weight is smaller. -/
theorem C130_archived (a a' : PyArgs) (n n' : Inputs) (env env' : CallEnv) (v v' : PyVal) (hden : a.Denotes n) (hden' : a'.Denotes n')
    (h : (oneka a env).ending = .returns v) (h' : (oneka a' env').ending = .returns v') (fs fs' : Files) (henv : env'.run = env.run) (hi : ∀ i k j, env.run.interrupt i k j = none)
    {D tol maxstep D' tol' maxstep' u' δ δ' : ℝ} (hd : n.run.duration = .fin D) (ht : n.run.tol = .fin tol) (hm : n.run.maxstep = .fin maxstep)
    (hrun : n'.run = n.run.retraced D' tol' maxstep' u') (hn : n'.nrealizations = n.nrealizations) (hbuf : n'.buffer = n.buffer)
    (hD : 0 < D) (hDD : D ≤ D') (htol : (10/9)^5 * (2:ℝ)^(-52 : ℤ) < tol) (hmax : (10/9) * (2:ℝ)^(-52 : ℤ) < maxstep) (htol' : (10/9)^5 * (2:ℝ)^(-52 : ℤ) < tol')
    (hmax' : (10/9) * (2:ℝ)^(-52 : ℤ) < maxstep') (huu : n.run.umbra + δ + δ' ≤ u') :
    ∃ (d d' : Dict) (f f' : PField ℝ) (k : ℕ) (t : SWell),
      loadOneka ((oneka a env).events.foldl Effect.apply fs) env.now.archiveName = .ok d ∧ d.get "pfield" = some (.field (.field f)) ∧
      loadOneka ((oneka a' env').events.foldl Effect.apply fs') env'.now.archiveName = .ok d' ∧ d'.get "pfield" = some (.field (.field f')) ∧
      n.run.target = k ∧ n.run.wells[k]? = some t ∧
      ∀ P : ℕ → ℕ → ℝ → ℝ × ℝ,
        (∀ (i : ℕ) (L : RealizationLog), (realizations (oneka a env).events)[i]? = some L → ∀ j : ℕ, j < n.run.npaths →
          Follows L.model n.run.confined (t.start n.run.npaths j) D maxstep δ (P i j) ∧ Follows L.model n.run.confined (t.start n.run.npaths j) D' maxstep' δ' (P i j)) →
        ∀ p q : ℤ, (|p| ≤ 1 ∧ |q| ≤ 1) ∨ (n.run.umbra ≤ n.run.spacing ∧ u' ≤ n.run.spacing) →
          f.weightAt (t.xw + p * n.run.spacing) (t.yw + q * n.run.spacing) ≤ f'.weightAt (t.xw + p * n.run.spacing) (t.yw + q * n.run.spacing) := by
  obtain ⟨-, -, ha, -⟩ := returned_course h
  obtain ⟨-, -, -, hu, -⟩ := accepted_inputs ha hden
  by_cases h1 : 1 < n.nrealizations
  · obtain ⟨d, f, obs, k, t, hd1, hd2, ho, -, hk, hw, hl, hR, -, hweight, -⟩ := C68_stochastic a n env v hden h1 h fs
    obtain ⟨d', f', obs', k', t', hd1', hd2', ho', -, hk', hw', hl', hR', -, hweight', -⟩ := C68_stochastic a' n' env' v' hden' (by omega) h' fs'
    rw [hrun] at ho' hk' hw' hR' hweight'
    rw [hbuf] at ho'
    obtain rfl : obs' = obs := Except.ok.inj (ho'.symm.trans ho)
    obtain rfl : k' = k := by exact_mod_cast hk'.symm.trans hk
    obtain rfl : t' = t := Option.some.inj (hw'.symm.trans hw)
    refine ⟨d, d', f, f', k', t', hd1, hd2, hd1', hd2', hk, hw, fun P hP p q hpq => ?_⟩
    rw [hweight p q (hpq.imp_right And.left)]
    refine le_trans ?_ (hweight' p q (hpq.imp_right And.right)).ge
    refine Nat.cast_le.mpr ?_
    rw [countP_range (realizations (oneka a env).events), countP_range (realizations (oneka a' env').events), show (realizations (oneka a' env').events).length = (realizations (oneka a env).events).length by omega]
    refine List.countP_mono_left fun i hi' hq => ?_
    rw [List.mem_range] at hi'
    simp only [decide_eq_true_eq] at hq ⊢
    obtain ⟨L, hL, hc⟩ := hq
    have hlt : i < (realizations (oneka a' env').events).length := by omega
    have R' := hR' i _ (List.getElem?_eq_getElem hlt)
    rw [henv] at R'
    exact ⟨_, List.getElem?_eq_getElem hlt, (C130_captures (a := { n.run with obs := obs' }) (hR i L hL) R' hd ht hm hD hDD htol hmax htol' hmax' (hi i) (P i) (hP i L hL) hu.le huu _ _ hc).2⟩
  · obtain ⟨d, f, obs, k, t, L, hd1, hd2, ho, -, hk, hw, hL, hR, -, hweight, -⟩ := C68_deterministic a n env v hden (by omega) h fs
    obtain ⟨d', f', obs', k', t', L', hd1', hd2', ho', -, hk', hw', hL', hR', -, hweight', -⟩ := C68_deterministic a' n' env' v' hden' (by omega) h' fs'
    rw [hrun] at ho' hk' hw' hR' hweight'
    rw [hbuf] at ho'
    obtain rfl : obs' = obs := Except.ok.inj (ho'.symm.trans ho)
    obtain rfl : k' = k := by exact_mod_cast hk'.symm.trans hk
    obtain rfl : t' = t := Option.some.inj (hw'.symm.trans hw)
    refine ⟨d, d', f, f', k', t', hd1, hd2, hd1', hd2', hk, hw, fun P hP p q hpq => ?_⟩
    rw [hweight p q (hpq.imp_right And.left)]
    refine le_trans ?_ (hweight' p q (hpq.imp_right And.right)).ge
    rw [henv] at hR'
    by_cases hc : L.Captures n.run.umbra (t'.xw + p * n.run.spacing) (t'.yw + q * n.run.spacing)
    · have := (C130_captures (a := { n.run with obs := obs' }) hR hR' hd ht hm hD hDD htol hmax htol' hmax' (hi 0) (P 0) (hP 0 L (by rw [hL]; rfl)) hu.le huu _ _ hc).2
      rw [if_pos hc]
      exact (if_pos this).ge
    · rw [if_neg hc]
      split_ifs <;> norm_num

end Oneka
