import Verif.Props.Binary64Zone
import Verif.Props.RoundingZoneExamples

/-! # An example for C119 -/

namespace Oneka
open PField Aquifer

/-- the exact pathline of `drift`: to the east, one metre per day -/
noncomputable def driftPath (t : ℝ) : ℝ × ℝ := (4096 + t, 4096)

theorem drift_follows : letI := nearestLib
    OrdinaryFollows drift true (Fl.of (4096 : ℕ), Fl.of (4096 : ℕ)) (Fl.of (100 : ℕ)) (Fl.of (1 : ℕ)) (Fl.of (1 : ℕ)) 5000 5000 8 driftPath := by
  let _ := nearestLib
  have a : (Fl.of (4096 : ℕ)).val = 4096 := by rw [of_nat (by norm_num)]; norm_num
  have b : (Fl.of (100 : ℕ)).val = 100 := by rw [of_nat (by norm_num)]; norm_num
  have c : (Fl.of (1 : ℕ)).val = 1 := by rw [of_nat (by norm_num)]; norm_num
  have e0 : fv (Fl.of (4096 : ℕ), Fl.of (4096 : ℕ)) = (4096, 4096) := by unfold fv; rw [a]
  have hT : (100:ℝ) * (1 + ((40000 : ℕ) + 1) * (2:ℝ) ^ (-52 : ℤ)) ≤ 101 := by norm_num [zpow_neg]
  have hexp : ∀ T : ℝ, T ≤ 101 → Real.exp (1/10000 * T) ≤ 1 + 103/10000 := by
    intro T hT
    have h := Real.exp_bound' (x := 101/10000) (by norm_num) (by norm_num) (n := 2) (by norm_num)
    have h' : Real.exp (1/10000 * T) ≤ Real.exp (101/10000) := Real.exp_le_exp.mpr (by linarith)
    refine (h'.trans h).trans ?_
    simp [Finset.sum_range_succ, Nat.factorial]
    norm_num
  refine ⟨fun _ => (1, 0), 1/10000, 1, 2, 60, 4200, 1/10000000000, _, _, _, _, _, 40000, {
    η_eq := rfl
    μ_eq := rfl
    mm_eq := rfl
    T_eq := rfl
    E_eq := rfl
    physical := ⟨drift_ordinary.conductivity.2, drift_ordinary.porosity.2, drift_ordinary.thickness.2⟩
    upstream := drift_upstream
    exact := ?_
    bounded := ?_
    within := ?_
    moderate := ⟨by
        intro a _ b _
        rw [sub_self, norm_zero]
        positivity, by intro a _; rw [Prod.norm_def]; norm_num⟩
    flow := ?_
    D_pos := by rw [b]; norm_num
    D_le := by rw [b]; norm_num
    tol_ge := by rw [c]; norm_num [zpow_neg]
    maxstep_ge := by rw [c]; norm_num [zpow_neg]
    tol_way := by rw [b, c]; norm_num
    maxstep_way := by rw [b, c]; norm_num
    near := by rw [e0, c, Prod.norm_def]; norm_num
    L_pos := by norm_num
    M_nonneg := by norm_num
    H_ge := by norm_num
    ν_nonneg := by norm_num
    ρ_nonneg := by norm_num
    H_le := by norm_num
    wide := ?_
    fast := by intro q _; rw [c, Prod.norm_def]; norm_num
    fine := by rw [c]; norm_num [zpow_neg]
    steps := by rw [b, c]; norm_num
    precision := ?_
    moves := ?_ }, ?_, by norm_num⟩
  · rw [e0]
    refine ⟨by norm_num [driftPath], fun t _ _ => ?_⟩
    exact ((hasDerivAt_id t).const_add 4096).prodMk (hasDerivAt_const t (4096:ℝ))
  · intro t t0 tT
    rw [b] at tT
    refine (Prod.norm_def _).trans_le (max_le ?_ ?_)
    · simp only [driftPath]; rw [Real.norm_eq_abs, abs_of_nonneg (by linarith)]; linarith
    · simp only [driftPath]; rw [Real.norm_eq_abs]; norm_num
  · intro q hq
    rw [b] at hq
    obtain ⟨q1, q2⟩ := drift_tube hT hq
    have q1 := abs_le.mp q1
    have q2 := abs_le.mp q2
    exact ⟨abs_le.mpr ⟨by linarith, by linarith⟩, abs_le.mpr ⟨by linarith, by linarith⟩⟩
  · intro q _
    rw [drift_exact]
    refine ⟨fun w hw => absurd hw (by simp), ?_, 4, by simp [Saturated], ?_⟩
    · simp only [condition, if_true, drift]; norm_num [zpow_neg]
    · simp only [condition, if_true, drift, dischargeTerms]
      simp
      norm_num [zpow_neg]
  · rw [b, c]
    have h := hexp _ hT
    have h0 := Real.exp_pos (1/10000 * (100 * (1 + ((40000 : ℕ) + 1) * (2:ℝ) ^ (-52 : ℤ))))
    set E := Real.exp (1/10000 * (100 * (1 + ((40000 : ℕ) + 1) * (2:ℝ) ^ (-52 : ℤ))))
    norm_num [zpow_neg]
    linarith
  · rw [b, c]
    have h := hexp _ hT
    have h0 := Real.exp_pos (1/10000 * (100 * (1 + ((40000 : ℕ) + 1) * (2:ℝ) ^ (-52 : ℤ))))
    set E := Real.exp (1/10000 * (100 * (1 + ((40000 : ℕ) + 1) * (2:ℝ) ^ (-52 : ℤ))))
    norm_num [zpow_neg]
    linarith
  · refine ⟨100, by norm_num, by rw [b], ?_⟩
    refine le_trans ?_ (norm_fst_le _)
    simp only [driftPath, Prod.fst_sub]
    norm_num
  · intro q hq
    rw [b] at hq
    obtain ⟨q1, q2⟩ := drift_tube hT hq
    have q1 := abs_le.mp q1
    have q2 := abs_le.mp q2
    rw [abs_of_pos (by linarith), abs_of_pos (by linarith)]
    norm_num
    refine ⟨⟨?_, ?_⟩, ?_, ?_⟩ <;> linarith

open Classical in
/-- C119: the capture zone of a well at `(4094, 4096)` in uniform flow, one trace, umbra 20, spacing 50, in binary64 arithmetic: the node 50 m upstream has the weight 1, the node 50 m beside it has none. -/
example : letI := nearestLib
    ∃ c f, zones (Fl.of (4094 : ℕ)).to64 (Fl.of (4096 : ℕ)).to64 (Fl.of (1 : ℕ)).to64 1 (Fl.of (100 : ℕ)).to64 (Fl.of (20 : ℕ)).to64 (Fl.of (50 : ℕ)).to64 (Fl.of (1 : ℕ)).to64 (Fl.of (1 : ℕ)).to64 true [drift.to64] =
      some (.ok c) ∧ PField.Is64 c f ∧ f.exact.total = 1 ∧ f.exact.weightAt 4144 4096 = 1 ∧ f.exact.weightAt 4144 4146 = 0 := by
  let _ := nearestLib
  have b : (Fl.of (100 : ℕ)).val = 100 := by rw [of_nat (by norm_num)]; norm_num
  have c : (Fl.of (1 : ℕ)).val = 1 := by rw [of_nat (by norm_num)]; norm_num
  have x : (Fl.of (4094 : ℕ)).val = 4094 := by rw [of_nat (by norm_num)]; norm_num
  have y : (Fl.of (4096 : ℕ)).val = 4096 := by rw [of_nat (by norm_num)]; norm_num
  have u : (Fl.of (20 : ℕ)).val = 20 := by rw [of_nat (by norm_num)]; norm_num
  have d : (Fl.of (50 : ℕ)).val = 50 := by rw [of_nat (by norm_num)]; norm_num
  have z : (0 : Fl).val = 0 := Fl.zero_val
  have hcos : ∀ θ : Fl, θ.val = 0 → (LibM.cos θ).val = 1 := by
    intro θ hθ
    change round53 (Real.cos θ.val) = 1
    rw [hθ, Real.cos_zero]
    have := Fl.of_nat 1 (by norm_num)
    simpa [Fl.of] using this
  have hsin : ∀ θ : Fl, θ.val = 0 → (LibM.sin θ).val = 0 := by
    intro θ hθ
    change round53 (Real.sin θ.val) = 0
    rw [hθ, Real.sin_zero, round53_zero]
  have hstart : ∀ θ : Fl, θ.val = 0 → flStart (Fl.of (4094 : ℕ)) (Fl.of (4096 : ℕ)) (Fl.of (1 : ℕ)) θ = (Fl.of (4096 : ℕ), Fl.of (4096 : ℕ)) := by
    intro θ hθ
    have two : round53 2 = 2 := by
      have := Fl.of_nat 2 (by norm_num)
      simpa [Fl.of] using this
    have r : round53 4096 = 4096 := by
      have := Fl.of_nat 4096 (by norm_num)
      simpa [Fl.of] using this
    unfold flStart
    refine Prod.ext (Fl.ext' ?_) (Fl.ext' ?_)
    · dsimp only
      rw [Fl.val_add, Fl.val_mul, Fl.val_add, one_fl, hcos θ hθ, c, x, y, show (1:ℝ) + 1 = 2 by norm_num, two, mul_one, two, show (2:ℝ) + 4094 = 4096 by norm_num, r]
    · dsimp only
      rw [Fl.val_add, Fl.val_mul, hsin θ hθ, mul_zero, round53_zero, y, zero_add, r]
  have hangle : ∀ j θ, (flAngles 1)[j]? = some θ → j = 0 ∧ θ.val = 0 := by
    intro j θ hθ
    have hj : j < 1 := by
      have := (List.getElem?_eq_some_iff.mp hθ).1
      rwa [flAngles_length] at this
    obtain rfl : j = 0 := by omega
    refine ⟨rfl, ?_⟩
    rw [angle_get 1 0 (by norm_num)] at hθ
    rw [← Option.some.inj hθ, Fl.val_add, Fl.val_mul, z, add_zero]
    have : ((0 : ℕ) : Fl).val = 0 := by
      have := Fl.of_nat 0 (by norm_num)
      simp only [Nat.cast_zero] at this
      change (Fl.of ((0:ℕ):ℝ)).val = 0
      rw [Nat.cast_zero]; exact this
    rw [this, zero_mul, round53_zero, round53_zero]
  have hr : TrigRange 1 := by
    intro θ hθ
    obtain ⟨j, hj⟩ := List.mem_iff_getElem?.mp hθ
    have h0 := (hangle j θ hj).2
    rw [hcos θ h0, hsin θ h0]
    refine ⟨Or.inr ⟨?_, by norm_num⟩, Or.inl rfl⟩
    rw [abs_one]
    exact (two_zpow_le (by norm_num : (-100 : ℤ) ≤ 0)).trans_eq (by norm_num)
  obtain ⟨c', f, h1, h0, h2, h3⟩ := C119_frequencies (A := ⟨0, 1, 5000⟩) (B := ⟨0, 1, 5000⟩) (S := 20) (η := 1/1000) (δ := 8) nearestLib_log nearestLib_root nearestLib_trig (n := 1) (by norm_num) hr
    (Fl.of (4094 : ℕ)) (Fl.of (4096 : ℕ)) (Fl.of (1 : ℕ)) (Fl.of (100 : ℕ)) (Fl.of (20 : ℕ)) (Fl.of (50 : ℕ)) (Fl.of (1 : ℕ)) (Fl.of (1 : ℕ)) (.of_val x (by norm_num) (by norm_num)) (.of_val y (by norm_num) (by norm_num))
    (.of_val c (by norm_num) (by norm_num)) (.of_val u (by norm_num) (by norm_num)) (.of_val d (by norm_num) (by norm_num)) (.of_val b (by norm_num) (by norm_num)) (by rw [b]; norm_num)
    (.of_val c (by norm_num) (by norm_num)) (by rw [c]; norm_num) (.of_val c (by norm_num) (by norm_num)) (by rw [c]; norm_num) true [drift] (by intro m hm; rw [List.mem_singleton.mp hm]; exact drift_ordinary)
    (by rw [d]; norm_num)
    (by rw [d, x]; exact ⟨⟨4094, by norm_num⟩, ⟨25, by norm_num⟩, by norm_num, by norm_num, by norm_num, by norm_num⟩)
    (by rw [d, y]; exact ⟨⟨4096, by norm_num⟩, ⟨25, by norm_num⟩, by norm_num, by norm_num, by norm_num, by norm_num⟩)
    (by norm_num) (by rw [u]; norm_num) (by rw [u]) (by rw [c]; norm_num) (by rw [u]; norm_num [zpow_neg]) (by norm_num) (fun _ _ => driftPath) (by
      intro i m hm j θ hθ
      have hm' : m = drift := by
        rcases i with _ | i
        · simpa using hm.symm
        · simp at hm
      rw [hm', hstart θ (hangle j θ hθ).2]
      exact drift_follows)
  rw [u, d, x, y, b] at h3
  have len : [drift].length = 1 := rfl
  rw [len] at h2 h3
  refine ⟨c', f, h1, h0, by rw [h2]; norm_num, ?_, ?_⟩
  · obtain ⟨w1, w2⟩ := h3 1 0 (Or.inl (by norm_num)) 4144 4096 (by norm_num) (by norm_num)
    have on : Passes driftPath 100 (20 - 1/1000 - 8) 4144 4096 := by
      refine ⟨48, by norm_num, by norm_num, ?_⟩
      unfold euclid driftPath
      norm_num
    have hc1 : ((List.range 1).countP fun i => ∃ j, j < 1 ∧ Passes ((fun _ _ => driftPath : ℕ → ℕ → ℝ → ℝ × ℝ) i j) 100 (20 - 1/1000 - 8) 4144 4096) = 1 := by
      refine List.countP_eq_length.mpr fun i _ => ?_
      simp only [decide_eq_true_eq]
      exact ⟨0, by norm_num, on⟩
    rw [hc1] at w1
    have w3 := w2.trans (Nat.cast_le.mpr (List.countP_le_length))
    rw [List.length_range] at w3
    push_cast at w1 w3
    exact le_antisymm w3 w1
  · obtain ⟨w1, w2⟩ := h3 1 1 (Or.inl (by norm_num)) 4144 4146 (by norm_num) (by norm_num)
    have hc1 : ((List.range 1).countP fun i => ∃ j, j < 1 ∧ Passes ((fun _ _ => driftPath : ℕ → ℕ → ℝ → ℝ × ℝ) i j) 100 (20 + 1/1000 + 8) 4144 4146) = 0 := by
      refine List.countP_eq_zero.mpr fun i _ => ?_
      simp only [decide_eq_true_eq]
      rintro ⟨j, -, t, -, -, ht⟩
      unfold euclid driftPath at ht
      rw [Real.sqrt_lt' (by norm_num)] at ht
      simp only at ht
      nlinarith [sq_nonneg (4144 - (4096 + t))]
    rw [hc1] at w2
    have w3 := (Nat.cast_nonneg _).trans w1
    push_cast at w2
    exact le_antisymm w2 w3

end Oneka
