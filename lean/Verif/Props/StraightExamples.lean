import Verif.Props.Straight
import Verif.Props.StillExamples
import Verif.Props.WidthExamples

/-!
# Examples for C146
-/

namespace Oneka

open Aquifer

/-- `C146_line`: the rotation of `Props/Backtrace.lean` does not keep any line through the centre, the flow away from the centre keeps them all; e.g. this trace. -/
example : ∃ r, computeBacktrace 1 2 100 1 10 (steady fun p => p) = some r ∧ ∀ v ∈ r.vertices, OnLine (0, 0) (1, 2) v := by
  obtain ⟨r, hr⟩ := C20_terminates 1 2 100 1 10 0 1 (steady fun p => p) le_rfl zero_le_one (fun n p v hv => by rw [← Except.ok.inj hv]; simp) (by norm_num) (by norm_num)
  refine ⟨r, hr, C146_line (by simp [OnLine, Parallel]) (fun n q v hq hv => ?_) hr⟩
  obtain rfl := Except.ok.inj hv
  simpa [OnLine, Parallel] using hq

/-- the velocity function of a model, interrupted after `N` evaluations -/
noncomputable def cutShort (m : Aquifer ℝ) (confined : Bool) (N : ℕ) : ℕ → XR × XR → Except PyErr (XR × XR) :=
  fun n p => if n < N then m.toX.reverseVelocity confined p else .error .keyboardInterrupt

theorem cutShort_answers (m : Aquifer ℝ) (confined : Bool) (N n : ℕ) (p : XR × XR) : cutShort m confined N n p = m.toX.reverseVelocity confined p ∨ ∃ e, cutShort m confined N n p = .error e := by
  by_cases h : n < N
  · exact .inl (if_pos h)
  · exact .inr ⟨_, if_neg h⟩

theorem cutShort_returns (m : Aquifer ℝ) (confined : Bool) (N : ℕ) (x y D tol maxstep : XR) : ∃ r, computeBacktrace x y D tol maxstep (cutShort m confined N) = some r :=
  interrupted_terminates (N := N) (fun p => ⟨.keyboardInterrupt, by simp [cutShort]⟩) _ _ _ _ _

/-- `C146_trace`, `C146_rest` and `C146_outward` for a strong well (100 m³/d) and a coarse tracer: all vertices are on the ray. -/
example (N : ℕ) : ∃ r, computeBacktrace (.fin 3) (.fin 4) (.fin 3650) (.fin 1000) (.fin 1000) (cutShort strongModel true N) = some r ∧ (∀ v ∈ r.path, OnLine (0, 0) (3, 4) v) ∧
    ∃ ρs : List ℝ, r.path = ρs.map (fun ρ => (0 + ρ * (3 - 0), 0 + ρ * (4 - 0))) ∧ ρs.head? = some 1 ∧ ρs.Pairwise (· < ·) := by
  obtain ⟨r, hr⟩ := cutShort_returns strongModel true N (.fin 3) (.fin 4) (.fin 3650) (.fin 1000) (.fin 1000)
  exact ⟨r, hr, C146_trace strong_physical (C146_rest strong_physical strong_rest true (3, 4)) (by norm_num [OnLine, Parallel]) (by norm_num) (by norm_num) (cutShort_answers _ _ _) hr,
    C146_outward strong_physical strong_rest (by norm_num) (by simp) (by norm_num) (by norm_num) (by norm_num) (cutShort_answers _ _ _) hr⟩

/-- the same well under a recharge of 4 mm/d -/
noncomputable def rainModel : Aquifer ℝ := ⟨0, 1, 1/4, 20, [⟨0, 0, 2, 100⟩], 0, 0, ![-1/1000, -1/1000, 0, 0, 0, 1000]⟩

theorem rain_physical : rainModel.Physical := ⟨by norm_num [rainModel], by norm_num [rainModel], by norm_num [rainModel]⟩

/-- `C146_recharge` -/
example (N : ℕ) (confined : Bool) : ∃ r, computeBacktrace (.fin 3) (.fin 4) (.fin 3650) (.fin 1) (.fin 10) (cutShort rainModel confined N) = some r ∧ ∀ v ∈ r.path, OnLine (0, 0) (3, 4) v := by
  obtain ⟨r, hr⟩ := cutShort_returns rainModel confined N (.fin 3) (.fin 4) (.fin 3650) (.fin 1) (.fin 10)
  have hflow := C146_recharge (w := ⟨0, 0, 2, 100⟩) rain_physical rfl ⟨rfl, rfl⟩ (by simp [rainModel]) ⟨by simp [rainModel], by simp [rainModel], by simp [rainModel]⟩ confined (3, 4)
  exact ⟨r, hr, C146_trace rain_physical hflow (by norm_num [OnLine, Parallel]) (by norm_num) (by norm_num) (cutShort_answers _ _ _) hr⟩

/-- `C146_axis`: a well in a uniform flow, upstream of the well. -/
example (N : ℕ) : ∃ r, computeBacktrace (.fin (-3)) (.fin 0) (.fin 3650) (.fin 1) (.fin 10) (cutShort windModel true N) = some r ∧ ∀ v ∈ r.path, OnLine (0, 0) (1, 0) v := by
  obtain ⟨r, hr⟩ := cutShort_returns windModel true N (.fin (-3)) (.fin 0) (.fin 3650) (.fin 1) (.fin 10)
  refine ⟨r, hr, C146_trace wind_physical (C146_axis wind_physical (fun w hw => ?_) wind_uniform.noRecharge ?_ true) (by simp [OnLine, Parallel]) (by norm_num) (by norm_num) (cutShort_answers _ _ _) hr⟩
  · obtain rfl := List.mem_singleton.mp hw
    simp [OnLine, Parallel]
  · simp only [Parallel, wind_uniform.discharge.1, wind_uniform.discharge.2]
    norm_num

/-! ## A call -/

/-- the direction of no trace of ten is within 14° of north or south -/
theorem cos_tenth (k : ℕ) : 1/4 ≤ |Real.cos (2 * Real.pi * k / ((10:ℤ):ℝ))| := by
  set θ := 2 * Real.pi * k / ((10:ℤ):ℝ) with hθ
  have h5 : Real.cos (5 * θ) = 16 * Real.cos θ ^ 5 - 20 * Real.cos θ ^ 3 + 5 * Real.cos θ := by
    have e : 5 * θ = 2 * θ + 3 * θ := by ring
    rw [e, Real.cos_add, Real.cos_two_mul, Real.cos_three_mul, Real.sin_two_mul, Real.sin_three_mul]
    have := Real.sin_sq_add_cos_sq θ
    linear_combination (-6 * Real.cos θ + 8 * Real.cos θ * (Real.sin θ ^ 2 + 1 - Real.cos θ ^ 2)) * this
  have hk : 5 * θ = k * Real.pi := by
    rw [hθ]
    push_cast
    ring
  rw [hk, Real.cos_nat_mul_pi] at h5
  by_contra hlt
  obtain ⟨h1, h2⟩ := abs_lt.mp (not_le.mp hlt)
  generalize Real.cos θ = c at *
  rcases neg_one_pow_eq_or ℝ k with e | e
  · rw [e] at h5
    have h0 : (1 - c) * (4 * c ^ 2 + 2 * c - 1) ^ 2 = 0 := by linear_combination h5
    rcases mul_eq_zero.mp h0 with h | h
    · linarith
    · have := pow_eq_zero_iff (two_ne_zero) |>.mp h
      nlinarith
  · rw [e] at h5
    have h0 : (1 + c) * (4 * c ^ 2 - 2 * c - 1) ^ 2 = 0 := by linear_combination -h5
    rcases mul_eq_zero.mp h0 with h | h
    · linarith
    · have := pow_eq_zero_iff (two_ne_zero) |>.mp h
      nlinarith

/-- The call of `StillExamples.lean` meets the hypotheses of `C146_archived` (and its realizations those of `C146_captures`): no node 16 m or more north or south of the well is recorded, being between the rays. -/
example (t : DateTime) : ∃ (d : Dict) (f : PField ℝ),
    loadOneka ((oneka restWays (restEnv t)).events.foldl Effect.apply fun _ => none) (restEnv t).now.archiveName = .ok d ∧ d.get "pfield" = some (.field (.field f)) ∧
    ∀ q : ℤ, 4 ≤ |q| → f.weightAt 1000 (1000 + q * 4) ≤ 0 := by
  classical
  obtain ⟨d, f, k, w, h1, h2, h3, h4, h5⟩ := C146_archived restWays restInputs (restEnv t) _ rest_denotes (rest_returns t) (fun _ => none) (D := 10) (tol := 1) (maxstep := 1/2500) rfl rfl rfl
  obtain ⟨-, -, obs, k', w', -, -, -, -, h6, h7, -, h9, -⟩ := C68_stochastic restWays restInputs (restEnv t) _ rest_denotes (by simp [restInputs, exampleInputs]) (rest_returns t) (fun _ => none)
  obtain rfl : k = 0 := by
    have : (0:ℤ) = k := h3
    omega
  obtain rfl : k' = 0 := by
    have : (0:ℤ) = k' := h6
    omega
  obtain rfl : w = ⟨1000, 1000, 1/4, .const (1/2)⟩ := (Option.some.inj h4).symm
  obtain rfl : w' = ⟨1000, 1000, 1/4, .const (1/2)⟩ := (Option.some.inj h7).symm
  refine ⟨d, f, h1, h2, fun q hq => ?_⟩
  refine (h5 0 q (.inr (le_refl (4:ℝ))) 1000 (1000 + q * 4) (show (1000:ℝ) = 1000 + ((0:ℤ):ℝ) * 4 by norm_num) rfl).trans (le_of_eq ?_)
  rw [Nat.cast_eq_zero, List.countP_eq_zero]
  intro L hL hh
  simp only [decide_eq_true_eq] at hh
  obtain ⟨i, hi⟩ := List.getElem?_of_mem hL
  have R := h9 i L hi
  obtain ⟨m1, -, -, m4, -⟩ := rest_model (rest_draws t i) R.wells_length (R.wells 0 _ rfl) R.conductivity R.porosity R.thickness (Except.ok.inj R.coef).symm
  obtain ⟨j, -, hj⟩ := hh m1 fun d => C146_rest m1 m4 _ d
  have hu : restInputs.run.umbra = 4 := rfl
  have hn : restInputs.run.npaths = 10 := rfl
  rw [hu, hn] at hj
  simp only [SWell.offSpoke, sub_self, mul_zero, sub_zero, add_sub_cancel_left, abs_mul] at hj
  have hc := cos_tenth j
  have q4 : (4:ℝ) ≤ |(q:ℝ)| := by exact_mod_cast hq
  rw [abs_of_pos (by norm_num : (0:ℝ) < 4)] at hj
  nlinarith [mul_le_mul hc q4 (by norm_num) (abs_nonneg _)]

/-- It also meets the hypotheses of `C146_archived_rays` (and its realizations those of `C146_rays`). -/
example (t : DateTime) : ∃ (d : Dict) (f : PField ℝ),
    loadOneka ((oneka restWays (restEnv t)).events.foldl Effect.apply fun _ => none) (restEnv t).now.archiveName = .ok d ∧ d.get "pfield" = some (.field (.field f)) ∧
    ∀ q : ℤ, 4 ≤ |q| → f.weightAt 1000 (1000 + q * 4) ≤ 0 := by
  classical
  obtain ⟨d, f, k, w, h1, h2, h3, h4, h5⟩ := C146_archived_rays restWays restInputs (restEnv t) _ rest_denotes (rest_returns t) (fun _ => none) (D := 10) (tol := 1) (maxstep := 1/2500) rfl rfl rfl (by norm_num) rfl
  obtain ⟨-, -, obs, k', w', -, -, -, -, h6, h7, -, h9, -⟩ := C68_stochastic restWays restInputs (restEnv t) _ rest_denotes (by simp [restInputs, exampleInputs]) (rest_returns t) (fun _ => none)
  obtain rfl : k = 0 := by
    have : (0:ℤ) = k := h3
    omega
  obtain rfl : k' = 0 := by
    have : (0:ℤ) = k' := h6
    omega
  obtain rfl : w = ⟨1000, 1000, 1/4, .const (1/2)⟩ := (Option.some.inj h4).symm
  obtain rfl : w' = ⟨1000, 1000, 1/4, .const (1/2)⟩ := (Option.some.inj h7).symm
  refine ⟨d, f, h1, h2, fun q hq => ?_⟩
  refine (h5 0 q (.inr (le_refl (4:ℝ))) 1000 (1000 + q * 4) (show (1000:ℝ) = 1000 + ((0:ℤ):ℝ) * 4 by norm_num) rfl).trans (le_of_eq ?_)
  rw [Nat.cast_eq_zero, List.countP_eq_zero]
  intro L hL hh
  simp only [decide_eq_true_eq] at hh
  obtain ⟨i, hi⟩ := List.getElem?_of_mem hL
  have R := h9 i L hi
  obtain ⟨m1, -, -, m4, -⟩ := rest_model (rest_draws t i) R.wells_length (R.wells 0 _ rfl) R.conductivity R.porosity R.thickness (Except.ok.inj R.coef).symm
  obtain ⟨j, -, ρ, hρ, hj⟩ := hh m1 _ m4 (by norm_num)
  have hu : restInputs.run.umbra = 4 := rfl
  have hn : restInputs.run.npaths = 10 := rfl
  rw [hu, hn] at hj
  have hc := cos_tenth j
  have q4 : (4:ℝ) ≤ |(q:ℝ)| := by exact_mod_cast hq
  simp only [euclid, SWell.start, add_sub_cancel_left] at hj
  rw [Real.sqrt_lt' (by norm_num)] at hj
  generalize 2 * Real.pi * (j:ℝ) / ((10:ℤ):ℝ) = θ at *
  have hsc := Real.sin_sq_add_cos_sq θ
  have hcq : 4 ^ 2 ≤ (Real.cos θ * (q * 4)) ^ 2 := by
    rw [← sq_abs (Real.cos θ * _), abs_mul, abs_mul, abs_of_pos (by norm_num : (0:ℝ) < 4)]
    have := mul_le_mul hc q4 (by norm_num) (abs_nonneg _)
    exact pow_le_pow_left₀ (by norm_num) (by linarith) 2
  nlinarith [sq_nonneg (Real.cos θ * (1000 - (1000 + ρ * ((1/4 + 1) * Real.cos θ))) + Real.sin θ * (1000 + q * 4 - (1000 + ρ * ((1/4 + 1) * Real.sin θ))))]

end Oneka
