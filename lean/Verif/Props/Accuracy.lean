import Verif.Lemmas.Accuracy
import Mathlib.Analysis.SpecialFunctions.Trigonometric.Deriv

/-!
# C80: traces follow the exact pathline

`‖·‖` is the max norm of the plane. The duration is positive; for negative ones see C22.
-/

namespace Oneka

/-- C80: let `X` be the exact pathline from the start, and let the velocity have the Lipschitz constant `L` and the bound `M` in a tube of radius `ρ` around it. If all accepted steps
are at most `H ≤ 1/(100 L)` and the tube is wide enough, then every vertex of the returned trace belongs to a time, increasing along the trace, and is within
`22 maxstep (exp (L t) - 1)` of the place `X t` where the exact pathline is at that time. The program may raise at any evaluation, and may answer anything outside the tube. -/
theorem C80_accuracy (feval : ℕ → ℝ × ℝ → Except PyErr (ℝ × ℝ)) (f : ℝ × ℝ → ℝ × ℝ) (X : ℝ → ℝ × ℝ) (start : ℝ × ℝ) (D tol maxstep L M H ρ : ℝ)
    (hX : Pathline f start D X) (hreg : Regular feval f (Tube X D ρ) L M) (hD : 0 < D) (htol : 0 < tol) (hmax : 0 < maxstep) (hL : 0 < L) (hM : 0 ≤ M) (hH : 0 ≤ H)
    (hLH : L * H ≤ 1/100) (hρ : 22 * maxstep * (Real.exp (L * D) - 1) + 25 * H * M ≤ ρ) (r : Trace ℝ)
    (h : computeBacktrace start.1 start.2 D tol maxstep feval = some r) (hst : ∀ st ∈ r.steps, st.dt ≤ H) :
    ∃ path : List (ℝ × (ℝ × ℝ)), r.vertices = start :: path.map Prod.snd ∧ (0 :: path.map Prod.fst).IsChain (· < ·) ∧
      (∀ v ∈ path, v.1 ≤ D ∧ ‖v.2 - X v.1‖ ≤ 22 * maxstep * (Real.exp (L * v.1) - 1)) ∧ (r.warning = none → (path.map Prod.fst).getLast? = some D) := by
  obtain ⟨a, b, c⟩ := accuracy (H := H) (M := M) ⟨hX, hreg, hL, hLH, hM, hH, hmax, hρ⟩ hD htol h hst
  have e : (r.steps.map Accepted.mark).map Prod.fst = r.steps.map Accepted.end := by rw [List.map_map]; rfl
  refine ⟨r.steps.map Accepted.mark, ?_, by rw [e]; exact a, ?_, by rw [e]; exact c⟩
  · rw [trace_vertices h, List.map_map]; rfl
  · intro v hv
    obtain ⟨st, hs, rfl⟩ := List.mem_map.mp hv
    exact (b st hs).2

/-- C80: if moreover the velocity in the tube is nowhere slower than `11/10 maxstep / H`, with `H` at least the initial step 1/10, and no evaluation in the tube raises, then the call returns,
without warning, a complete trace with that accuracy; consecutive vertices are different, less than `maxstep` apart, and at most the time `H` apart. Nothing is assumed about the
program outside the tube. -/
theorem C80_follows (feval : ℕ → ℝ × ℝ → Except PyErr (ℝ × ℝ)) (f : ℝ × ℝ → ℝ × ℝ) (X : ℝ → ℝ × ℝ) (start : ℝ × ℝ) (D tol maxstep L M H ρ : ℝ)
    (hX : Pathline f start D X) (hreg : Regular feval f (Tube X D ρ) L M) (htotal : ∀ n q, q ∈ Tube X D ρ → ∃ v, feval n q = .ok v) (hD : 0 < D)
    (htol : (10/9)^5 * (2:ℝ)^(-52 : ℤ) < tol) (hmax : (10/9) * (2:ℝ)^(-52 : ℤ) < maxstep) (hL : 0 < L) (hM : 0 ≤ M) (hH : 1/10 ≤ H) (hLH : L * H ≤ 1/100)
    (hρ : 22 * maxstep * (Real.exp (L * D) - 1) + 25 * H * M ≤ ρ) (hfast : ∀ q ∈ Tube X D ρ, 11/10 * maxstep ≤ H * ‖f q‖) :
    ∃ r, computeBacktrace start.1 start.2 D tol maxstep feval = some r ∧ r.warning = none ∧
      ∃ path : List (ℝ × (ℝ × ℝ)), r.vertices = start :: path.map Prod.snd ∧ ((0, start) :: path).IsChain (Stride H maxstep) ∧
        (∀ v ∈ path, v.1 ≤ D ∧ ‖v.2 - X v.1‖ ≤ 22 * maxstep * (Real.exp (L * v.1) - 1)) ∧ (path.map Prod.fst).getLast? = some D := by
  have e : (2:ℝ)^(-52 : ℤ) = EPS := by rw [EPS_real]; norm_num
  rw [e] at htol hmax
  have hE := EPS_pos
  have hm0 : 0 < maxstep := lt_trans (by positivity) hmax
  have ht0 : 0 < tol := lt_trans (by positivity) htol
  have A : Accurate feval f X start D L M H ρ maxstep := ⟨hX, hreg, hL, hLH, hM, by linarith, hm0, hρ⟩
  obtain ⟨r, hr⟩ := returns_short A hD htol hmax hH hfast htotal
  obtain ⟨s1, s2⟩ := steps_short A hD ht0 hH hfast hr
  obtain ⟨-, b, c⟩ := accuracy A hD ht0 hr s1
  have hfast' : ∀ q ∈ Tube X D ρ, 0 < ‖f q‖ := fun q hq => by
    have := hfast q hq
    refine lt_of_le_of_ne (norm_nonneg _) fun h => ?_
    rw [← h] at this
    linarith
  refine ⟨r, hr, s2 htotal, r.steps.map Accepted.mark, ?_, strides A hD ht0 hfast' hr s1, ?_, by rw [List.map_map]; exact c (s2 htotal)⟩
  · rw [trace_vertices hr, List.map_map]; rfl
  · intro v hv
    obtain ⟨st, hs, rfl⟩ := List.mem_map.mp hv
    exact (b st hs).2

/-- C80: with decreasing `maxstep` the traces converge to the exact pathline, uniformly and for every `tol`, provided the velocity does not vanish near the pathline and
changes little in the initial tenth of a time unit (`L ≤ 1/10`, `25/10 M < ρ`). -/
theorem C80_convergence (f : ℝ × ℝ → ℝ × ℝ) (X : ℝ → ℝ × ℝ) (start : ℝ × ℝ) (D L M ρ v₀ ε : ℝ) (hX : Pathline f start D X) (hD : 0 < D) (hL : 0 < L) (hL' : L ≤ 1/10)
    (hM : 0 ≤ M) (hρ : 25/10 * M < ρ) (hv : 0 < v₀) (hfast : ∀ q ∈ Tube X D ρ, v₀ ≤ ‖f q‖) (hε : 0 < ε) :
    ∃ m₀ > 0, ∀ maxstep tol, 0 < maxstep → maxstep ≤ m₀ → 0 < tol → ∀ feval, Regular feval f (Tube X D ρ) L M →
      (∀ n q, q ∈ Tube X D ρ → ∃ v, feval n q = .ok v) → ∀ r, computeBacktrace start.1 start.2 D tol maxstep feval = some r →
      r.warning = none ∧ ∃ path : List (ℝ × (ℝ × ℝ)), r.vertices = start :: path.map Prod.snd ∧ (0 :: path.map Prod.fst).IsChain (· < ·) ∧
        (∀ v ∈ path, v.1 ≤ D ∧ ‖v.2 - X v.1‖ ≤ ε) ∧ (path.map Prod.fst).getLast? = some D := by
  have hE : 0 < Real.exp (L * D) - 1 := by
    have := Real.add_one_lt_exp (mul_pos hL hD).ne'
    have := mul_pos hL hD
    linarith
  set G := Real.exp (L * D) - 1 with hG
  refine ⟨min (v₀ / 11) (min ((ρ - 25/10 * M) / (22 * G)) (ε / (22 * G))), by have : 0 < ρ - 25/10 * M := by linarith
                                                                              positivity, ?_⟩
  intro m tol hm hm0 htol feval hreg htot r hr
  have b1 : m ≤ v₀ / 11 := hm0.trans (min_le_left _ _)
  have b2 : m ≤ (ρ - 25/10 * M) / (22 * G) := hm0.trans ((min_le_right _ _).trans (min_le_left _ _))
  have b3 : m ≤ ε / (22 * G) := hm0.trans ((min_le_right _ _).trans (min_le_right _ _))
  rw [le_div_iff₀ (by positivity)] at b2 b3
  have A : Accurate feval f X start D L M (1/10) ρ m := ⟨hX, hreg, hL, by linarith, hM, by norm_num, hm, by rw [← hG]; linarith⟩
  obtain ⟨s1, s2⟩ := steps_short A hD htol le_rfl (fun q hq => by have := hfast q hq; linarith) hr
  obtain ⟨path, p1, p2, p3, p4⟩ := C80_accuracy feval f X start D tol m L M (1/10) ρ hX hreg hD htol hm hL hM (by norm_num) (by linarith) (by rw [← hG]; linarith) r hr s1
  refine ⟨s2 htot, path, p1, p2, fun v hv => ⟨(p3 v hv).1, (p3 v hv).2.trans ?_⟩, p4 (s2 htot)⟩
  have := A.mono (p3 v hv).1
  rw [← hG] at this
  linarith

/-! ## An example: half a turn per about nine years -/

/-- rotation about the origin by a milliradian per day -/
noncomputable def slowRotation : ℝ × ℝ → ℝ × ℝ := fun p => (1/1000 : ℝ) • (-p.2, p.1)

/-- its pathline on the circle of radius 1000 -/
noncomputable def slowCircle : ℝ → ℝ × ℝ := fun t => (1000 * Real.cos (t / 1000), 1000 * Real.sin (t / 1000))

theorem slowRotation_norm (p : ℝ × ℝ) : ‖slowRotation p‖ = 1/1000 * ‖p‖ := by
  unfold slowRotation
  rw [norm_smul, Real.norm_eq_abs, abs_of_pos (by norm_num), Prod.norm_def, Prod.norm_def, norm_neg, max_comm]

theorem slowCircle_path : Pathline slowRotation (1000, 0) 365 slowCircle := by
  refine ⟨by simp [slowCircle], fun t _ _ => ?_⟩
  have hd : HasDerivAt (fun t : ℝ => t / 1000) (1 / 1000) t := (hasDerivAt_id t).div_const 1000
  have h1 := (hd.cos).const_mul 1000
  have h2 := (hd.sin).const_mul 1000
  have e : slowRotation (slowCircle t) = (1000 * (-Real.sin (t / 1000) * (1 / 1000)), 1000 * (Real.cos (t / 1000) * (1 / 1000))) := by
    refine Prod.ext ?_ ?_ <;> simp only [slowRotation, slowCircle, Prod.smul_mk, smul_eq_mul] <;> ring
  rw [e]
  exact h1.prodMk h2

theorem slowCircle_norm (t : ℝ) : 700 ≤ ‖slowCircle t‖ ∧ ‖slowCircle t‖ ≤ 1000 := by
  have h := Real.sin_sq_add_cos_sq (t / 1000)
  rw [Prod.norm_def, Real.norm_eq_abs, Real.norm_eq_abs]
  simp only [slowCircle, abs_mul, abs_of_pos (by norm_num : (0:ℝ) < 1000)]
  constructor
  · by_contra hc
    rw [not_le, max_lt_iff] at hc
    have h1 := abs_nonneg (Real.cos (t / 1000))
    have h2 := abs_nonneg (Real.sin (t / 1000))
    have h3 := sq_abs (Real.cos (t / 1000))
    have h4 := sq_abs (Real.sin (t / 1000))
    nlinarith [hc.1, hc.2]
  · have h1 := Real.abs_cos_le_one (t / 1000)
    have h2 := Real.abs_sin_le_one (t / 1000)
    exact max_le (by linarith) (by linarith)

theorem slowRotation_tube (q : ℝ × ℝ) (hq : q ∈ Tube slowCircle 365 400) : 300 ≤ ‖q‖ ∧ ‖q‖ ≤ 1400 := by
  obtain ⟨t, -, -, h⟩ := hq
  obtain ⟨h1, h2⟩ := slowCircle_norm t
  have h3 := norm_sub_norm_le (slowCircle t) q
  have h4 := norm_sub_norm_le q (slowCircle t)
  rw [norm_sub_rev] at h3
  constructor <;> linarith

theorem slowRotation_regular : Regular (steady slowRotation) slowRotation (Tube slowCircle 365 400) (1/1000) (7/5) := by
  refine ⟨fun a _ b _ => ?_, fun a ha => ?_, fun _ _ _ _ hv => (Except.ok.inj hv).symm⟩
  · have : slowRotation a - slowRotation b = slowRotation (a - b) := by
      unfold slowRotation
      rw [← smul_sub]
      congr 1
      ext <;> simp
      ring
    rw [this, slowRotation_norm]
  · rw [slowRotation_norm]
    linarith [(slowRotation_tube a ha).2]

theorem exp_year : Real.exp (1/1000 * 365) ≤ 1.58 := by
  have := Real.exp_bound_div_one_sub_of_interval (x := 1/1000 * 365) (by norm_num) (by norm_num)
  refine this.trans ?_
  norm_num

/-- A year along the slow rotation with maxstep 1: the call returns, and its end is within 13 of the exact end, which is 359 away from the start. -/
example : ∃ r, computeBacktrace 1000 0 365 1 1 (steady slowRotation) = some r ∧ ∃ q, r.vertices.getLast? = some q ∧ ‖q - slowCircle 365‖ ≤ 13 := by
  obtain ⟨r, h, -, path, p1, p2, p3, p4⟩ := C80_follows (steady slowRotation) slowRotation slowCircle (1000, 0) 365 1 1 (1/1000) (7/5) 10 400 slowCircle_path slowRotation_regular
    (fun _ q _ => ⟨slowRotation q, rfl⟩) (by norm_num) (by norm_num) (by norm_num) (by norm_num) (by norm_num) (by norm_num) (by norm_num)
    (by have := exp_year; linarith) (fun q hq => by rw [slowRotation_norm]; linarith [(slowRotation_tube q hq).1])
  refine ⟨r, h, ?_⟩
  rw [List.getLast?_map] at p4
  cases hl : path.getLast? with
  | none => rw [hl] at p4; simp at p4
  | some v =>
    rw [hl] at p4
    have hv : v.1 = 365 := by simpa using p4
    refine ⟨v.2, ?_, ?_⟩
    · rw [p1, List.getLast?_cons, List.getLast?_map, hl]
      simp
    · have := (p3 v (List.mem_of_getLast? hl)).2
      rw [hv] at this
      have := exp_year
      linarith

/-- … and the traces with smaller and smaller maxstep converge to the circle. -/
example (ε : ℝ) (hε : 0 < ε) : ∃ m₀ > 0, ∀ maxstep tol, 0 < maxstep → maxstep ≤ m₀ → 0 < tol → ∀ r,
    computeBacktrace 1000 0 365 tol maxstep (steady slowRotation) = some r → ∀ q ∈ r.vertices, ∃ t, ‖q - slowCircle t‖ ≤ ε := by
  obtain ⟨m₀, h0, h⟩ := C80_convergence slowRotation slowCircle (1000, 0) 365 (1/1000) (7/5) 400 (3/10) ε slowCircle_path (by norm_num) (by norm_num) (by norm_num) (by norm_num)
    (by norm_num) (by norm_num) (fun q hq => by rw [slowRotation_norm]; linarith [(slowRotation_tube q hq).1]) hε
  refine ⟨m₀, h0, fun m tol a b c r hr q hq => ?_⟩
  obtain ⟨-, path, p1, -, p3, -⟩ := h m tol a b c _ slowRotation_regular (fun _ q _ => ⟨slowRotation q, rfl⟩) r hr
  rw [p1] at hq
  rcases List.mem_cons.mp hq with rfl | hq
  · exact ⟨0, by simpa [slowCircle] using hε.le⟩
  · obtain ⟨v, hv, rfl⟩ := List.mem_map.mp hq
    exact ⟨v.1, (p3 v hv).2⟩

end Oneka
