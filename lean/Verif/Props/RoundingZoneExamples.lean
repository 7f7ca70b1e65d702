import Verif.Props.RoundingZone

/-!
# Examples for C105
-/

namespace Oneka

open PField

theorem nearestLib_trig : @TrigAccurate nearestLib := by
  let _ := nearestLib
  refine ⟨fun x _ => ?_, fun x _ => ?_, rfl⟩
  · have h := round53_accurate (Real.cos x.val)
    have := Real.abs_cos_le_one x.val
    change |round53 (Real.cos x.val) - _| ≤ _
    refine h.trans ((mul_le_mul_of_nonneg_left this (by positivity)).trans ?_)
    norm_num [zpow_neg]
  · have h := round53_accurate (Real.sin x.val)
    have := Real.abs_sin_le_one x.val
    change |round53 (Real.sin x.val) - _| ≤ _
    refine h.trans ((mul_le_mul_of_nonneg_left this (by positivity)).trans ?_)
    norm_num [zpow_neg]

/-- C105: the third of eight starts, seven tenths of a radius north-west of the target at `(1000, 2000)`: 1 + 1 m away, up to `2^-40`. -/
example : letI := nearestLib
    ∃ θ, (flAngles 8)[3]? = some θ ∧ |(flStart (Fl.of (1000 : ℕ)) (Fl.of (2000 : ℕ)) (Fl.of (1 : ℕ)) θ).1.val - (1000 - Real.sqrt 2)| ≤ 2 ^ (-40 : ℤ) ∧
      |(flStart (Fl.of (1000 : ℕ)) (Fl.of (2000 : ℕ)) (Fl.of (1 : ℕ)) θ).2.val - (2000 + Real.sqrt 2)| ≤ 2 ^ (-40 : ℤ) := by
  let _ := nearestLib
  obtain ⟨θ, h1, h2, h3⟩ := C105_starts nearestLib_trig (Fl.of (1000 : ℕ)) (Fl.of (2000 : ℕ)) (Fl.of (1 : ℕ)) 8 3 (by norm_num) (by norm_num)
  have a : (Fl.of (1000 : ℕ)).val = 1000 := thousand_fl
  have b : (Fl.of (2000 : ℕ)).val = 2000 := by rw [Fl.of_nat 2000 (by norm_num)]; norm_num
  have c : (Fl.of (1 : ℕ)).val = 1 := by rw [Fl.of_nat 1 (by norm_num)]; norm_num
  have e : 2 * Real.pi * ((3 : ℕ) : ℝ) / ((8 : ℕ) : ℝ) = Real.pi - Real.pi / 4 := by push_cast; ring
  rw [e, Real.cos_pi_sub, Real.cos_pi_div_four, a, c] at h2
  rw [e, Real.sin_pi_sub, Real.sin_pi_div_four, b, c] at h3
  refine ⟨θ, h1, ?_, ?_⟩
  · rw [show 1000 + (1 + 1) * -(Real.sqrt 2 / 2) = 1000 - Real.sqrt 2 by ring] at h2
    refine h2.trans ?_
    norm_num [zpow_neg]
  · rw [show 2000 + (1 + 1) * (Real.sqrt 2 / 2) = 2000 + Real.sqrt 2 by ring] at h3
    refine h3.trans ?_
    norm_num [zpow_neg]

/-- A year upstream with `tol = maxstep = 1`, precision 40 m. -/
theorem pumping_followed : letI := nearestLib
    RoundedFollows pumping true (Fl.of (1000 : ℕ), 0) (Fl.of (365 : ℕ)) (Fl.of (1 : ℕ)) (Fl.of (1 : ℕ)) 1500 200 40 escape := by
  let _ := nearestLib
  have a := thousand_fl
  have b : (Fl.of (365 : ℕ)).val = 365 := by rw [Fl.of_nat 365 (by norm_num)]; norm_num
  have c : (Fl.of (1 : ℕ)).val = 1 := by rw [Fl.of_nat 1 (by norm_num)]; norm_num
  have z : (0 : Fl).val = 0 := Fl.zero_val
  have e0 : fv (Fl.of (1000 : ℕ), 0) = (1000, 0) := by unfold fv; rw [a, z]
  have hT : (365:ℝ) * (1 + ((150000 : ℕ) + 1) * (2:ℝ) ^ (-52 : ℤ)) ≤ 366 := by norm_num [zpow_neg]
  have hT0 : 0 ≤ (365:ℝ) * (1 + ((150000 : ℕ) + 1) * (2:ℝ) ^ (-52 : ℤ)) := by positivity
  refine ⟨leaving, 1/500, 113/100, 2, 100, 1317, 1/10000000000, _, _, _, _, _, 150000, {
    η_eq := rfl
    μ_eq := rfl
    mm_eq := rfl
    T_eq := rfl
    E_eq := rfl
    physical := pumping_physical
    upstream := pumping_upstream
    exact := by rw [e0]; exact escape_path
    bounded := ?_
    within := ?_
    moderate := leaving_moderate (by rw [b]; exact hT)
    flow := pumping_flow (by rw [b]; exact hT)
    D_pos := by rw [b]; norm_num
    D_le := by rw [b]; norm_num
    tol_ge := by rw [c]; norm_num [zpow_neg]
    maxstep_ge := by rw [c]; norm_num [zpow_neg]
    tol_way := by rw [b, c]; norm_num
    maxstep_way := by rw [b, c]; norm_num
    near := by rw [e0, c, Prod.norm_def]; norm_num
    L_pos := by norm_num
    M_nonneg := by norm_num
    H_ge := by norm_num
    ν_nonneg := by norm_num
    ρ_nonneg := by norm_num
    H_le := by norm_num
    wide := ?_
    fast := ?_
    fine := by rw [c]; norm_num [zpow_neg]
    steps := by rw [b, c]; norm_num
    precision := ?_
    moves := ?_ }⟩
  · intro t t0 tT
    rw [b] at tT
    obtain ⟨s1, s2⟩ := escape_sqrt t0 (tT.trans hT)
    refine (Prod.norm_def _).trans_le (max_le ?_ ?_)
    · simp only [escape]
      rw [Real.norm_eq_abs, abs_of_nonneg (by linarith)]; exact s2
    · simp [escape]
  · intro q hq
    rw [b] at hq
    obtain ⟨h1, h2, h3⟩ := escape_tube hT hq
    exact ⟨abs_le.mpr ⟨by linarith, by linarith⟩, h3.trans (by norm_num)⟩
  · rw [b, c]
    have h := exp_escape hT
    have h0 := Real.exp_pos (1/500 * (365 * (1 + ((150000 : ℕ) + 1) * (2:ℝ) ^ (-52 : ℤ))))
    set E := Real.exp (1/500 * (365 * (1 + ((150000 : ℕ) + 1) * (2:ℝ) ^ (-52 : ℤ))))
    norm_num [zpow_neg]
    linarith
  · intro q hq
    rw [b] at hq
    have := leaving_fast hT hq
    rw [c]; linarith
  · rw [b, c]
    have h := exp_escape hT
    have h0 := Real.exp_pos (1/500 * (365 * (1 + ((150000 : ℕ) + 1) * (2:ℝ) ^ (-52 : ℤ))))
    set E := Real.exp (1/500 * (365 * (1 + ((150000 : ℕ) + 1) * (2:ℝ) ^ (-52 : ℤ))))
    norm_num [zpow_neg]
    linarith
  · refine ⟨365, by norm_num, by rw [b], ?_⟩
    refine le_trans ?_ (norm_fst_le _)
    have h0 : (escape 0).1 = 1000 := by rw [(escape_path (T := 1)).1]
    have h1 : 1040 ≤ (escape 365).1 := Real.le_sqrt_of_sq_le (by linarith [strength_bounds.1])
    rw [Prod.fst_sub, h0, Real.norm_eq_abs, abs_of_nonneg (by linarith)]
    linarith

open Classical in
/-- C105: two realizations with the same model, one trace each from `(1000, 0)`, umbra 50, spacing 100: the node at `(1098, 0)`, which the pathlines cross, has the weight 2, and the node at
`(1098, 100)` has none. -/
example : letI := nearestLib
    ∃ f, flZones (Fl.of (998 : ℕ)) 0 (Fl.of (1 : ℕ)) 1 (Fl.of (365 : ℕ)) (Fl.of (50 : ℕ)) (Fl.of (100 : ℕ)) (Fl.of (1 : ℕ)) (Fl.of (1 : ℕ)) true [pumping, pumping] = some (.ok f) ∧
      f.exact.total = 2 ∧ f.exact.weightAt 1098 0 = 2 ∧ f.exact.weightAt 1098 100 = 0 := by
  let _ := nearestLib
  have b : (Fl.of (365 : ℕ)).val = 365 := by rw [Fl.of_nat 365 (by norm_num)]; norm_num
  have c : (Fl.of (1 : ℕ)).val = 1 := by rw [Fl.of_nat 1 (by norm_num)]; norm_num
  have x : (Fl.of (998 : ℕ)).val = 998 := by rw [Fl.of_nat 998 (by norm_num)]; norm_num
  have u : (Fl.of (50 : ℕ)).val = 50 := by rw [Fl.of_nat 50 (by norm_num)]; norm_num
  have d : (Fl.of (100 : ℕ)).val = 100 := by rw [Fl.of_nat 100 (by norm_num)]; norm_num
  have z : (0 : Fl).val = 0 := Fl.zero_val
  have hstart : ∀ θ : Fl, θ.val = 0 → flStart (Fl.of (998 : ℕ)) 0 (Fl.of (1 : ℕ)) θ = (Fl.of (1000 : ℕ), 0) := by
    intro θ hθ
    have hc : (LibM.cos θ).val = 1 := by
      change round53 (Real.cos θ.val) = 1
      rw [hθ, Real.cos_zero]
      have := Fl.of_nat 1 (by norm_num)
      simpa [Fl.of] using this
    have hs : (LibM.sin θ).val = 0 := by
      change round53 (Real.sin θ.val) = 0
      rw [hθ, Real.sin_zero, round53_zero]
    have two : round53 2 = 2 := by
      have := Fl.of_nat 2 (by norm_num)
      simpa [Fl.of] using this
    unfold flStart
    refine Prod.ext (Fl.ext' ?_) (Fl.ext' ?_)
    · dsimp only
      rw [Fl.val_add, Fl.val_mul, Fl.val_add, one_fl, hc, c, x, show (1:ℝ) + 1 = 2 by norm_num, two, mul_one, two, thousand_fl, show (2:ℝ) + 998 = 1000 by norm_num]
      have := Fl.of_nat 1000 (by norm_num)
      simpa [Fl.of] using this
    · dsimp only
      rw [Fl.val_add, Fl.val_mul, hs, mul_zero, round53_zero, z, add_zero, round53_zero]
  obtain ⟨f, h1, h2, h3⟩ := C105_frequencies (A := ⟨0, 2, 1500⟩) (B := ⟨0, 2, 200⟩) (S := 50) (η := 1/1000) (δ := 40) nearestLib_log nearestLib_root (Fl.of (998 : ℕ)) 0 (Fl.of (1 : ℕ))
    (Fl.of (365 : ℕ)) (Fl.of (50 : ℕ)) (Fl.of (100 : ℕ)) (Fl.of (1 : ℕ)) (Fl.of (1 : ℕ)) 1 true [pumping, pumping] (by rw [d]; norm_num)
    (by rw [d, x]; exact ⟨⟨998, by norm_num⟩, ⟨25, by norm_num⟩, by norm_num, by norm_num, by norm_num, by norm_num⟩)
    (by rw [d, z]; exact ⟨⟨0, by norm_num⟩, ⟨25, by norm_num⟩, by norm_num, by norm_num, by norm_num, by norm_num⟩)
    (by norm_num) (by rw [u]; norm_num) (by rw [u]) (by rw [c]; norm_num) (by rw [u]; norm_num [zpow_neg]) (by norm_num) (fun _ _ => escape) (by
      intro i m hm j θ hθ
      have hm' : m = pumping := by
        rcases i with _ | _ | i
        · simpa using hm.symm
        · simpa using hm.symm
        · simp at hm
      have hj : j < 1 := by
        have := (List.getElem?_eq_some_iff.mp hθ).1
        rwa [flAngles_length] at this
      obtain rfl : j = 0 := by omega
      rw [angle_get 1 0 (by norm_num)] at hθ
      have hθ0 : θ.val = 0 := by
        rw [← Option.some.inj hθ, Fl.val_add, Fl.val_mul, z, add_zero]
        have : ((0 : ℕ) : Fl).val = 0 := by
          have := Fl.of_nat 0 (by norm_num)
          simp only [Nat.cast_zero] at this
          change (Fl.of ((0:ℕ):ℝ)).val = 0
          rw [Nat.cast_zero]; exact this
        rw [this, zero_mul, round53_zero, round53_zero]
      rw [hm', hstart θ hθ0]
      exact pumping_followed)
  rw [u, d, x, z, b] at h3
  have len : [pumping, pumping].length = 2 := rfl
  rw [len] at h2 h3
  refine ⟨f, h1, by rw [h2]; norm_num, ?_, ?_⟩
  · obtain ⟨w1, w2⟩ := h3 1 0 (Or.inl (by norm_num)) 1098 0 (by norm_num) (by norm_num)
    have on : Passes escape 365 (50 - 1/1000 - 40) 1098 0 := by
      refine ⟨103, by norm_num, by norm_num, ?_⟩
      have g1 : 1090 ≤ (escape 103).1 := Real.le_sqrt_of_sq_le (by linarith [strength_bounds.1])
      have g2 : (escape 103).1 ≤ 1105 := Real.sqrt_le_iff.mpr ⟨by norm_num, by linarith [strength_bounds.2]⟩
      have g3 : (escape 103).2 = 0 := rfl
      unfold euclid
      rw [g3, Real.sqrt_lt' (by norm_num)]
      nlinarith
    have hc1 : ((List.range 2).countP fun i => ∃ j, j < 1 ∧ Passes ((fun _ _ => escape : ℕ → ℕ → ℝ → ℝ × ℝ) i j) 365 (50 - 1/1000 - 40) 1098 0) = 2 := by
      refine List.countP_eq_length.mpr fun i _ => ?_
      simp only [decide_eq_true_eq]
      exact ⟨0, by norm_num, on⟩
    rw [hc1] at w1
    have w3 := w2.trans (Nat.cast_le.mpr (List.countP_le_length))
    rw [List.length_range] at w3
    push_cast at w1 w3
    exact le_antisymm w3 w1
  · obtain ⟨w1, w2⟩ := h3 1 1 (Or.inl (by norm_num)) 1098 100 (by norm_num) (by norm_num)
    have hc1 : ((List.range 2).countP fun i => ∃ j, j < 1 ∧ Passes ((fun _ _ => escape : ℕ → ℕ → ℝ → ℝ × ℝ) i j) 365 (50 + 1/1000 + 40) 1098 100) = 0 := by
      refine List.countP_eq_zero.mpr fun i _ => ?_
      simp only [decide_eq_true_eq]
      rintro ⟨j, -, t, -, -, ht⟩
      unfold euclid at ht
      have g3 : (escape t).2 = 0 := rfl
      rw [g3, Real.sqrt_lt' (by norm_num)] at ht
      nlinarith [sq_nonneg (1098 - (escape t).1)]
    rw [hc1] at w2
    have w3 := (Nat.cast_nonneg _).trans w1
    push_cast at w2
    exact le_antisymm w2 w3

end Oneka
