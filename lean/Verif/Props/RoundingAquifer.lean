import Verif.Lemmas.FlHead
import Verif.Lemmas.Upstream
import Verif.Props.RoundingTrace
import Verif.Props.Pathlines

/-!
# Heads, velocities and traces of an aquifer model in floating-point arithmetic (C93, C94)

`m : Aquifer Fl` is a model whose parameters are floating-point numbers, computed with rounding; `m.exact` is the model with the same parameters, computed exactly.
-/

namespace Oneka
open Aquifer

section
variable [LibM]

/-! ## C93 -/

/-- C93: the discharge vector computed with rounding: each component is off by at most `(18 + 2n) 2^-53` times the size of its terms, where `n` is the number of wells. -/
theorem C93_discharge (m : Aquifer Fl) (x y : Fl) (hoff : m.exact.OffWells x.val y.val) (hn : m.wells.length ≤ 2 ^ 40) :
    ‖fv (m.discharge x y) - m.exact.discharge x.val y.val‖ ≤ (18 + 2 * m.wells.length) * 2 ^ (-53 : ℤ) * m.exact.dischargeTerms x.val y.val := by
  have n : (m.wells.length : ℝ) ≤ 2 ^ 40 := by exact_mod_cast hn
  have h := err_discharge m x y hoff (by
    unfold eps
    refine (mul_le_mul_of_nonneg_right (by linarith : 18 + 2 * (m.wells.length : ℝ) ≤ 18 + 2 * 2 ^ 40) (by positivity)).trans ?_
    norm_num [zpow_neg])
  exact (Prod.norm_def _).trans_le (max_le h.1.1 h.2.1)

/-- C93: the potential computed with rounding is off by at most `(19 + 2n) 2^-53` times the size of its terms. -/
theorem C93_potential (hlog : LogAccurate) (m : Aquifer Fl) (x y : Fl) (hoff : m.exact.OffWells x.val y.val) (hn : m.wells.length ≤ 2 ^ 40) :
    |(m.potential x y).val - m.exact.potential x.val y.val| ≤ (19 + 2 * m.wells.length) * 2 ^ (-53 : ℤ) * m.exact.potentialTerms x.val y.val := by
  have n : (m.wells.length : ℝ) ≤ 2 ^ 40 := by exact_mod_cast hn
  exact (err_potential hlog m x y hoff (by
    unfold eps
    refine (mul_le_mul_of_nonneg_right (by linarith : 19 + 2 * (m.wells.length : ℝ) ≤ 19 + 2 * 2 ^ 40) (by positivity)).trans ?_
    norm_num [zpow_neg])).1

/-- C93: the head computed with rounding. Where the potential is positive, and not too small for the size of its terms, a head is answered, and its relative error is at most
`(2 (19 + 2n) κ + 20) 2^-53`, where `κ` is the size of the terms relative to the potential; also where rounding decides between the two formulae for the head. -/
theorem C93_head (hlog : LogAccurate) (m : Aquifer Fl) (hm : m.exact.Physical) (x y : Fl) (hoff : m.exact.OffWells x.val y.val) (hn : m.wells.length ≤ 2 ^ 40)
    (hpos : 0 < m.exact.potential x.val y.val) (hκ : (19 + 2 * m.wells.length) * 2 ^ (-53 : ℤ) * m.exact.condition false x.val y.val ≤ 1/50) :
    ∃ h' h, m.head x y = .ok h' ∧ m.exact.head x.val y.val = .ok h ∧
      |h'.val - h| ≤ (2 * (19 + 2 * m.wells.length) * m.exact.condition false x.val y.val + 20) * 2 ^ (-53 : ℤ) * h := by
  have hp := C93_potential hlog m x y hoff hn
  have hκd : m.exact.condition false x.val y.val * m.exact.potential x.val y.val = m.exact.potentialTerms x.val y.val := by
    simp only [condition, Bool.false_eq_true, if_false]
    exact div_mul_cancel₀ _ hpos.ne'
  rw [← hκd, ← mul_assoc] at hp
  have κ0 : 0 ≤ m.exact.condition false x.val y.val := by
    have := potential_le_terms m.exact x.val y.val
    rw [← hκd] at this
    by_contra hcon
    have := mul_neg_of_neg_of_pos (not_le.mp hcon) hpos
    linarith
  obtain ⟨h', e1, e2⟩ := head_near m hm x y hpos hp (by positivity) hκ
  refine ⟨h', _, e1, by rw [head_eq, if_neg (not_le.mpr hpos)]; rfl, e2.trans_eq ?_⟩
  change _ * headOf m.conductivity.val m.thickness.val _ = _ * headOf m.conductivity.val m.thickness.val _
  congr 1
  change _ + 20 * (2 : ℝ) ^ (-53 : ℤ) = _
  ring

/-- C93: the velocity that the library computes with rounding, reversed, off the wells and where there is a saturated thickness `b`. If the rounding errors of the potential
cannot change the sign of the potential (`hκ`), a velocity is answered, and it is the exact upstream direction up to `(100 + 7n) 2^-53` times the velocity that the size of the
terms of the discharge corresponds to; in unconfined flow also times the size of the terms of the potential relative to the potential. -/
theorem C93_velocity (hlog : LogAccurate) (m : Aquifer Fl) (hm : m.exact.Physical) (confined : Bool) (f : ℝ × ℝ → ℝ × ℝ) (hf : m.exact.Upstream confined f) (q : Fl × Fl) (b : ℝ)
    (hoff : m.exact.OffWells q.1.val q.2.val) (hs : m.exact.Saturated confined q.1.val q.2.val b)
    (hκ : (100 + 7 * m.wells.length) * 2 ^ (-53 : ℤ) * m.exact.condition confined q.1.val q.2.val ≤ 1/100) :
    ∃ v, m.reverseVelocity confined q = .ok v ∧
      ‖fv v - f (fv q)‖ ≤ (100 + 7 * m.wells.length) * 2 ^ (-53 : ℤ) * m.exact.condition confined q.1.val q.2.val * (m.exact.dischargeTerms q.1.val q.2.val / (m.exact.porosity * b)) := by
  obtain ⟨v, w, hv, hw, h⟩ := velocity_fl hlog m hm confined q hoff hs hκ
  rw [upstream_eq m.exact hm confined hf (p := fv q) hoff hw] at h
  exact ⟨v, by rw [reverseVelocity_eq]; exact hv, h⟩

/-! ## C94 -/

/-- C94: traces through a model, everything computed with rounding (velocities, stages, positions, step control, time). `X` is the exact pathline upstream from the start, and in
the tube of radius `ρ` around it there are no wells, there is a saturated thickness, and the error of C93 is at most `ν`. Under the conditions of C91 the trace returns, without
warning, and the vertex at time `t` is within the bound of C91 of `X t`. -/
theorem C94_follows (hlog : LogAccurate) (hroot : RootAccurate) (m : Aquifer Fl) (hphys : m.exact.Physical) (confined : Bool) (f : ℝ × ℝ → ℝ × ℝ) (hup : m.exact.Upstream confined f)
    (X : ℝ → ℝ × ℝ) (xs ys D tol maxstep : Fl) (L M H ρ R ν η μ mm T : ℝ) (N : ℕ)
    (hη : η = 2 ^ (-53 : ℤ) * (R + 18 * ρ)) (hμ : μ = ν + L * η) (hm : mm = maxstep.val * (1 + 2 ^ (-51 : ℤ)) + η + 3 * (H * μ)) (hT : T = D.val * (1 + (N + 1) * 2 ^ (-52 : ℤ)))
    (hX : Pathline f (fv (xs, ys)) T X) (hR : ∀ t, 0 ≤ t → t ≤ T → ‖X t‖ ≤ R) (hf : Moderate f (Tube X T ρ) L M)
    (hflow : ∀ q ∈ Tube X T ρ, m.exact.OffWells q.1 q.2 ∧ (100 + 7 * m.wells.length) * 2 ^ (-53 : ℤ) * m.exact.condition confined q.1 q.2 ≤ 1/100 ∧
      ∃ b, m.exact.Saturated confined q.1 q.2 b ∧
        (100 + 7 * m.wells.length) * 2 ^ (-53 : ℤ) * m.exact.condition confined q.1 q.2 * (m.exact.dischargeTerms q.1 q.2 / (m.exact.porosity * b)) ≤ ν)
    (hD : 0 < D.val) (hD40 : D.val ≤ 2 ^ 40) (htol : 2 ^ (-50 : ℤ) ≤ tol.val) (hmax : 2 ^ (-50 : ℤ) ≤ maxstep.val) (h1 : (M + ν) * D.val ≤ 2 ^ 37 * tol.val)
    (h2 : (M + ν) * D.val ≤ 2 ^ 37 * maxstep.val) (hs : ‖fv (xs, ys)‖ ≤ 2 ^ 47 * maxstep.val)
    (hL : 0 < L) (hM : 0 ≤ M) (hH : 11/100 ≤ H) (hν : 0 ≤ ν) (hρ0 : 0 ≤ ρ) (hLH : L * H ≤ 1/100)
    (hρ : 22 * mm * (Real.exp (L * T) - 1) + (N * η + 2 * (T * μ)) * Real.exp (L * T) + 25 * (H * (M + μ)) + η ≤ ρ)
    (hfast : ∀ q ∈ Tube X T ρ, 6/5 * maxstep.val ≤ H * ‖f q‖) (hfine : 3 * (H * μ) + 10 * η ≤ maxstep.val / 100)
    (hN : 9 + 40 * D.val + 16 * ((M + ν) * D.val / tol.val) + 288 * ((M + ν) * D.val / maxstep.val) ≤ N) :
    ∃ r, computeBacktrace xs ys D tol maxstep (fun _ => m.reverseVelocity confined) = some r ∧ r.warning = none ∧
      ∃ path : List (ℝ × (Fl × Fl)), r.vertices = (xs, ys) :: path.map Prod.snd ∧ ((0, (xs, ys)) :: path).IsChain (StrideFl H (maxstep.val * (1 + 2 ^ (-51 : ℤ)))) ∧
        (∀ v ∈ path, v.1 ≤ T ∧ ‖fv v.2 - X v.1‖ ≤ 22 * mm * (Real.exp (L * v.1) - 1) + (N * η + 2 * (v.1 * μ)) * Real.exp (L * v.1)) ∧
        ∃ t, (0 :: path.map Prod.fst).getLast? = some t ∧ |t - D.val| ≤ (N + 1) * (2 ^ (-52 : ℤ) * D.val) := by
  have vel : ∀ q : Fl × Fl, fv q ∈ Tube X T ρ → ∃ v, m.reverseVelocity confined q = .ok v ∧ ‖fv v - f (fv q)‖ ≤ ν := by
    intro q hq
    obtain ⟨hoff, hκ, b, hb, hle⟩ := hflow _ hq
    obtain ⟨v, hv, h⟩ := C93_velocity hlog m hphys confined f hup q b hoff hb hκ
    exact ⟨v, hv, h.trans hle⟩
  refine C91_follows hroot _ f X xs ys D tol maxstep L M H ρ R ν η μ mm T N hη hμ hm hT hX hR hf (fun n q v hq hv => ?_) (fun n q hq => ?_) hD hD40 htol hmax h1 h2 hs hL hM hH hν hρ0 hLH hρ hfast
    hfine hN
  · obtain ⟨v', hv', h⟩ := vel q hq
    rw [hv'] at hv
    exact Except.ok.inj hv ▸ h
  · obtain ⟨v, hv, -⟩ := vel q hq
    exact ⟨v, hv⟩

end

/-! ## Examples -/

theorem nearestLib_log : @LogAccurate nearestLib := by
  intro x _
  refine (round53_accurate (Real.log x.val)).trans (mul_le_mul_of_nonneg_right ?_ (abs_nonneg _))
  norm_num [zpow_neg]

/-- floating-point numbers that are integers -/
theorem of_nat {n : ℕ} (hn : n ≤ 2 ^ 53) : (Fl.of n).val = n := by
  have := round53_exact n 0 (by rw [abs_of_nonneg (by positivity)]; exact_mod_cast hn)
  simp at this
  exact this


theorem of_pow {k : ℤ} : (Fl.of ((2:ℝ) ^ k)).val = (2:ℝ) ^ k := round53_zpow k

/-- A well in an unconfined aquifer, with a potential that increases to the east; conductivity 1, porosity 1/4, thickness 100. -/
noncomputable def mixed : Aquifer Fl :=
  ⟨0, Fl.of (1 : ℕ), Fl.of (2 ^ (-2 : ℤ)), Fl.of (100 : ℕ), [⟨0, 0, Fl.of (1 : ℕ), Fl.of (600 : ℕ)⟩], 0, 0, fun i => if i = 3 then Fl.of (2 ^ (-1 : ℤ)) else if i = 5 then Fl.of (1000 : ℕ) else 0⟩

theorem mixed_exact : mixed.exact = ⟨0, 1, 1/4, 100, [⟨0, 0, 1, 600⟩], 0, 0, fun i => if i = 3 then 1/2 else if i = 5 then 1000 else 0⟩ := by
  have h1 := of_nat (n := 1) (by norm_num)
  have h2 := of_nat (n := 100) (by norm_num)
  have h3 := of_nat (n := 600) (by norm_num)
  have h4 := of_nat (n := 1000) (by norm_num)
  have h5 := of_pow (k := -2)
  have h6 := of_pow (k := -1)
  have e5 : (2:ℝ) ^ (-2 : ℤ) = 1/4 := by norm_num [zpow_neg]
  have e6 : (2:ℝ) ^ (-1 : ℤ) = 1/2 := by norm_num [zpow_neg]
  unfold exact mixed
  simp only [List.map_cons, List.map_nil]
  rw [h1, h2, h3, h5, e5, Fl.zero_val, Nat.cast_one, Nat.cast_ofNat, Nat.cast_ofNat]
  congr 1
  funext i
  split_ifs with a b
  · rw [h6, e6]
  · rw [h4]; norm_num
  · exact Fl.zero_val

theorem mixed_physical : mixed.exact.Physical := by rw [mixed_exact]; exact ⟨by norm_num, by norm_num, by norm_num⟩

theorem thousand_fl : (Fl.of (1000 : ℕ)).val = 1000 := by rw [of_nat (by norm_num)]; norm_num

theorem mixed_off : mixed.exact.OffWells 1000 0 := by
  rw [mixed_exact]
  intro w hw e
  simp only [List.mem_singleton] at hw
  subst hw
  have := (Prod.mk.inj e).1
  norm_num at this

theorem mixed_log : 0 ≤ Real.log 1000000 ∧ Real.log 1000000 ≤ 1000000 :=
  ⟨Real.log_nonneg (by norm_num), (Real.log_le_sub_one_of_pos (by norm_num)).trans (by norm_num)⟩

theorem mixed_potential : 1500 ≤ mixed.exact.potential 1000 0 := by
  have h := mixed_log.1
  rw [mixed_exact, potential_eq]
  have e : (1000:ℝ) ^ 2 = 1000000 := by norm_num
  simp [conic, Well.r2, e]
  have : (0:ℝ) ≤ (fourPiInv : ℚ) := by unfold fourPiInv; norm_num
  have := mul_nonneg this h
  nlinarith

theorem mixed_condition : mixed.exact.condition false 1000 0 ≤ 40000 := by
  have h := mixed_log
  have hp := mixed_potential
  simp only [condition, Bool.false_eq_true, if_false]
  rw [div_le_iff₀ (by linarith)]
  refine le_trans ?_ (by linarith : (40000:ℝ) * 1500 ≤ _)
  have e : (1000:ℝ) ^ 2 = 1000000 := by norm_num
  rw [mixed_exact]
  simp [potentialTerms, Well.r2, e, abs_of_nonneg h.1]
  linarith [h.2]

/-- C93: the head and the velocity at (1000, 0). -/
example : letI := nearestLib
    (∃ h' h, mixed.head (Fl.of (1000 : ℕ)) 0 = .ok h' ∧ mixed.exact.head 1000 0 = .ok h ∧ |h'.val - h| ≤ 1/1000000 * h) ∧
    ∃ f, mixed.exact.Upstream false f ∧ ∃ b v, mixed.exact.Saturated false 1000 0 b ∧ mixed.reverseVelocity false (Fl.of (1000 : ℕ), 0) = .ok v ∧
      ‖fv v - f (1000, 0)‖ ≤ 1/100000 / b := by
  let _ := nearestLib
  have t := thousand_fl
  have z : (0 : Fl).val = 0 := Fl.zero_val
  have hn : mixed.wells.length = 1 := rfl
  have hκ := mixed_condition
  have hp : 0 < mixed.exact.potential 1000 0 := by linarith [mixed_potential]
  have hK : 0 < mixed.exact.conductivity := mixed_physical.1
  have hT : 0 < mixed.exact.thickness := mixed_physical.3
  constructor
  · obtain ⟨h', h, e1, e2, e3⟩ := C93_head nearestLib_log mixed mixed_physical (Fl.of (1000 : ℕ)) 0 (by rw [t, z]; exact mixed_off) (by rw [hn]; norm_num) (by rw [t, z]; exact hp) (by
      rw [t, z, hn]
      norm_num [zpow_neg]
      linarith)
    rw [t, z] at e2 e3
    have h0 : 0 < h := by
      rw [head_eq, if_neg (not_le.mpr hp)] at e2
      rw [← Except.ok.inj e2]
      exact headOf_pos hK hT hp
    refine ⟨h', h, e1, e2, e3.trans (mul_le_mul_of_nonneg_right ?_ h0.le)⟩
    rw [hn]
    norm_num [zpow_neg]
    linarith
  · obtain ⟨f, hf⟩ := exists_upstream mixed.exact mixed_physical false
    have hs : mixed.exact.Saturated false 1000 0 (min (headOf mixed.exact.conductivity mixed.exact.thickness (mixed.exact.potential 1000 0)) mixed.exact.thickness) := by
      simp only [Saturated, Bool.false_eq_true, if_false]
      exact ⟨_, headOf_pos hK hT hp, potential_headOf hK hT hp, rfl⟩
    obtain ⟨v, e1, e2⟩ := C93_velocity nearestLib_log mixed mixed_physical false f hf (Fl.of (1000 : ℕ), 0) _ (by rw [t, z]; exact mixed_off) (by rw [t, z]; exact hs) (by
      rw [t, z, hn]
      norm_num [zpow_neg]
      linarith)
    refine ⟨f, hf, _, v, hs, e1, ?_⟩
    set b := min (headOf mixed.exact.conductivity mixed.exact.thickness (mixed.exact.potential 1000 0)) mixed.exact.thickness
    have b0 : 0 < b := lt_min (headOf_pos hK hT hp) hT
    have d : mixed.exact.dischargeTerms 1000 0 ≤ 1 := by
      rw [mixed_exact]
      simp [dischargeTerms, Well.r2]
      norm_num [abs_of_pos]
    have φ : mixed.exact.porosity = 1/4 := by rw [mixed_exact]
    have e : fv (Fl.of (1000 : ℕ), 0) = (1000, 0) := by unfold fv; rw [t, z]
    simp only [t, z, hn, φ] at e2
    rw [e] at e2
    have κ0 : 0 ≤ mixed.exact.condition false 1000 0 := by
      simp only [condition, Bool.false_eq_true, if_false]
      exact div_nonneg (hp.le.trans (potential_le_terms _ _ _)) hp.le
    refine e2.trans ?_
    rw [show mixed.exact.dischargeTerms 1000 0 / (1/4 * b) = 4 * mixed.exact.dischargeTerms 1000 0 / b by field_simp, mul_div_assoc']
    refine div_le_div_of_nonneg_right ?_ b0.le
    have d4 : 4 * mixed.exact.dischargeTerms 1000 0 ≤ 4 := by linarith
    have k : (100 + 7 * ((1 : ℕ) : ℝ)) * 2 ^ (-53 : ℤ) * mixed.exact.condition false 1000 0 ≤ 1/1000000 := by
      norm_num [zpow_neg]
      linarith
    have k0 : 0 ≤ (100 + 7 * ((1 : ℕ) : ℝ)) * 2 ^ (-53 : ℤ) * mixed.exact.condition false 1000 0 := by positivity
    refine (mul_le_mul_of_nonneg_left d4 k0).trans ?_
    linarith


/-! ### A year upstream from a well of 31416 cubic metres per day -/

/-- the well, thickness 20, porosity 1/4 -/
noncomputable def pumping : Aquifer Fl := ⟨0, Fl.of (1 : ℕ), Fl.of (2 ^ (-2 : ℤ)), Fl.of (20 : ℕ), [⟨0, 0, Fl.of (1 : ℕ), Fl.of (31416 : ℕ)⟩], 0, 0, fun _ => 0⟩

theorem pumping_exact : pumping.exact = ⟨0, 1, 1/4, 20, [⟨0, 0, 1, 31416⟩], 0, 0, fun _ => 0⟩ := by
  have h1 := of_nat (n := 1) (by norm_num)
  have h2 := of_nat (n := 20) (by norm_num)
  have h3 := of_nat (n := 31416) (by norm_num)
  have h5 := of_pow (k := -2)
  have e5 : (2:ℝ) ^ (-2 : ℤ) = 1/4 := by norm_num [zpow_neg]
  unfold exact pumping
  simp only [List.map_cons, List.map_nil]
  rw [h1, h2, h3, h5, e5, Fl.zero_val, Nat.cast_one, Nat.cast_ofNat, Nat.cast_ofNat]

theorem pumping_physical : pumping.exact.Physical := by rw [pumping_exact]; exact ⟨by norm_num, by norm_num, by norm_num⟩

/-- about 1.00001 -/
noncomputable def strength : ℝ := 31416 * (twoPiInv : ℚ) / 5000

theorem strength_bounds : 1 ≤ strength ∧ strength ≤ 1 + 1/50000 := by
  unfold strength twoPiInv
  constructor <;> norm_num

/-- the upstream direction -/
noncomputable def leaving (q : ℝ × ℝ) : ℝ × ℝ := strength • away q

theorem pumping_upstream : pumping.exact.Upstream true leaving := by
  rw [pumping_exact]
  intro x y b hoff hs
  have hr : x^2 + y^2 ≠ 0 := by
    intro h
    have hx : x = 0 := by nlinarith [sq_nonneg x, sq_nonneg y]
    have hy : y = 0 := by nlinarith [sq_nonneg x, sq_nonneg y]
    exact hoff ⟨0, 0, 1, 31416⟩ (by simp) (by rw [hx, hy])
  obtain ⟨d1, d2⟩ := C29_partials _ x y hoff
  simp only [Saturated, if_true] at hs
  subst hs
  constructor
  · refine d1.congr_deriv ?_
    rw [discharge_eq]
    simp [leaving, strength, away, Well.r2]
    field_simp
    ring
  · refine d2.congr_deriv ?_
    rw [discharge_eq]
    simp [leaving, strength, away, Well.r2]
    field_simp
    ring

/-- the pathline on the axis -/
noncomputable def escape (t : ℝ) : ℝ × ℝ := (Real.sqrt (1000000 + 2000 * (strength * t)), 0)

theorem escape_sqrt {t : ℝ} (h0 : 0 ≤ t) (h1 : t ≤ 366) : 1000 ≤ Real.sqrt (1000000 + 2000 * (strength * t)) ∧ Real.sqrt (1000000 + 2000 * (strength * t)) ≤ 1317 := by
  obtain ⟨s1, s2⟩ := strength_bounds
  constructor
  · exact Real.le_sqrt_of_sq_le (by nlinarith)
  · refine Real.sqrt_le_iff.mpr ⟨by norm_num, ?_⟩
    have : strength * t ≤ (1 + 1/50000) * 366 := mul_le_mul s2 h1 h0 (by norm_num)
    linarith

theorem escape_path {T : ℝ} : Pathline leaving (1000, 0) T escape := by
  refine ⟨?_, fun t h0 h1 => ?_⟩
  · refine Prod.ext ?_ rfl
    show Real.sqrt (1000000 + 2000 * (strength * 0)) = 1000
    rw [show (1000000 + 2000 * (strength * 0) : ℝ) = 1000^2 by rw [mul_zero]; norm_num, Real.sqrt_sq (by norm_num)]
  · have hpos : (0:ℝ) < 1000000 + 2000 * (strength * t) := by
      have := mul_nonneg (by linarith [strength_bounds.1] : 0 ≤ strength) h0
      linarith
    have hs : 0 < Real.sqrt (1000000 + 2000 * (strength * t)) := Real.sqrt_pos.mpr hpos
    have h2 : HasDerivAt (fun t : ℝ => 1000000 + 2000 * (strength * t)) (2000 * strength) t := by
      simpa using (((hasDerivAt_id t).const_mul strength).const_mul 2000).const_add 1000000
    have h3 := (h2.sqrt hpos.ne').prodMk (hasDerivAt_const t (0:ℝ))
    refine h3.congr_deriv ?_
    refine Prod.ext ?_ ?_
    · show 2000 * strength / (2 * Real.sqrt (1000000 + 2000 * (strength * t))) =
        strength * (1000 * Real.sqrt (1000000 + 2000 * (strength * t)) / (Real.sqrt (1000000 + 2000 * (strength * t))^2 + 0^2))
      generalize Real.sqrt (1000000 + 2000 * (strength * t)) = s at hs
      rw [zero_pow two_ne_zero, add_zero]
      field_simp
      ring
    · simp [leaving, away, escape]

theorem escape_tube {T : ℝ} (hT : T ≤ 366) {q : ℝ × ℝ} (h : q ∈ Tube escape T 100) : 900 ≤ q.1 ∧ q.1 ≤ 1417 ∧ |q.2| ≤ 100 := by
  obtain ⟨t, h0, h1, h⟩ := h
  obtain ⟨s1, s2⟩ := escape_sqrt h0 (h1.trans hT)
  rw [Prod.norm_def, max_le_iff, Real.norm_eq_abs, Real.norm_eq_abs] at h
  simp only [escape, Prod.fst_sub, Prod.snd_sub, sub_zero] at h
  have := abs_le.mp h.1
  exact ⟨by linarith, by linarith, h.2⟩

theorem leaving_moderate {T : ℝ} (hT : T ≤ 366) : Moderate leaving (Tube escape T 100) (1/500) (113/100) where
  lip a ha b hb := by
    obtain ⟨s1, s2⟩ := strength_bounds
    have h := away_lip (escape_tube hT ha).1 (escape_tube hT hb).1
    unfold leaving
    rw [← smul_sub, norm_smul, Real.norm_eq_abs, abs_of_pos (by linarith)]
    have := mul_le_mul s2 h (norm_nonneg _) (by norm_num)
    have n := norm_nonneg (a - b)
    linarith
  bound a ha := by
    obtain ⟨s1, s2⟩ := strength_bounds
    obtain ⟨h1, h2, h3⟩ := escape_tube hT ha
    have h := (away_norm h1 h2 h3).2
    unfold leaving
    rw [norm_smul, Real.norm_eq_abs, abs_of_pos (by linarith)]
    have := mul_le_mul s2 h (norm_nonneg _) (by norm_num)
    linarith

theorem leaving_fast {T : ℝ} (hT : T ≤ 366) {q : ℝ × ℝ} (h : q ∈ Tube escape T 100) : 7/10 ≤ ‖leaving q‖ := by
  obtain ⟨s1, s2⟩ := strength_bounds
  obtain ⟨h1, h2, h3⟩ := escape_tube hT h
  have h := (away_norm h1 h2 h3).1
  unfold leaving
  rw [norm_smul, Real.norm_eq_abs, abs_of_pos (by linarith)]
  nlinarith

theorem pumping_flow {T : ℝ} (hT : T ≤ 366) (q : ℝ × ℝ) (h : q ∈ Tube escape T 100) :
    pumping.exact.OffWells q.1 q.2 ∧ (100 + 7 * pumping.wells.length) * 2 ^ (-53 : ℤ) * pumping.exact.condition true q.1 q.2 ≤ 1/100 ∧
      ∃ b, pumping.exact.Saturated true q.1 q.2 b ∧
        (100 + 7 * pumping.wells.length) * 2 ^ (-53 : ℤ) * pumping.exact.condition true q.1 q.2 * (pumping.exact.dischargeTerms q.1 q.2 / (pumping.exact.porosity * b)) ≤ 1/10000000000 := by
  obtain ⟨h1, h2, h3⟩ := escape_tube hT h
  have hn : pumping.wells.length = 1 := rfl
  rw [hn, pumping_exact]
  simp only [condition, if_true]
  refine ⟨?_, by norm_num [zpow_neg], 20, by simp [Saturated], ?_⟩
  · intro w hw e
    simp only [List.mem_singleton] at hw
    subst hw
    have := (Prod.mk.inj e).1
    linarith
  · have hr : 810000 ≤ q.1 ^ 2 + q.2 ^ 2 := by nlinarith [sq_nonneg q.2]
    have d : ∀ u : ℝ, |u| ≤ 1417 → |31416 / 6 * u / (q.1 ^ 2 + q.2 ^ 2)| ≤ 10 := by
      intro u hu
      rw [abs_div, abs_mul, abs_of_pos (by linarith : 0 < q.1 ^ 2 + q.2 ^ 2), abs_of_pos (by norm_num : (0:ℝ) < 31416 / 6), div_le_iff₀ (by linarith)]
      linarith
    have d1 := d q.1 (by rw [abs_of_pos (by linarith)]; exact h2)
    have d2 := d q.2 (by linarith)
    have hd : (Aquifer.mk 0 1 (1/4) 20 [⟨0, 0, 1, 31416⟩] 0 0 (fun _ => 0) : Aquifer ℝ).dischargeTerms q.1 q.2 ≤ 10 := by
      unfold dischargeTerms
      simp only [Well.r2, sub_zero, List.map_cons, List.map_nil, List.sum_cons, List.sum_nil, mul_zero, zero_mul, abs_zero, zero_add, add_zero]
      exact max_le d1 d2
    norm_num [zpow_neg]
    linarith

theorem exp_escape {t : ℝ} (ht : t ≤ 366) : Real.exp (1/500 * t) ≤ 2.084 := by
  refine (Real.exp_le_exp.mpr (by linarith : 1/500 * t ≤ 366/500)).trans ?_
  have h := Real.exp_bound' (x := 366/500) (by norm_num) (by norm_num) (n := 5) (by norm_num)
  refine h.trans ?_
  simp [Finset.sum_range_succ, Nat.factorial]
  norm_num

/-- C94: a year upstream with `tol = maxstep = 1`, everything computed with rounding: all vertices are within 24 m of the exact pathline, which ends more than 300 m from the start. -/
example : letI := nearestLib
    ∃ r, computeBacktrace (Fl.of (1000 : ℕ)) 0 (Fl.of (365 : ℕ)) (Fl.of (1 : ℕ)) (Fl.of (1 : ℕ)) (fun _ => pumping.reverseVelocity true) = some r ∧ r.warning = none ∧
      ∃ path : List (ℝ × (Fl × Fl)), r.vertices = (Fl.of (1000 : ℕ), 0) :: path.map Prod.snd ∧ (0 :: path.map Prod.fst).IsChain (· < ·) ∧
        (∀ v ∈ path, ‖fv v.2 - escape v.1‖ ≤ 24) ∧ ∃ t, (0 :: path.map Prod.fst).getLast? = some t ∧ |t - 365| ≤ 1/1000000 := by
  let _ := nearestLib
  have a := thousand_fl
  have b : (Fl.of (365 : ℕ)).val = 365 := by rw [of_nat (by norm_num)]; norm_num
  have c : (Fl.of (1 : ℕ)).val = 1 := by rw [of_nat (by norm_num)]; norm_num
  have z : (0 : Fl).val = 0 := Fl.zero_val
  have e0 : fv (Fl.of (1000 : ℕ), 0) = (1000, 0) := by unfold fv; rw [a, z]
  have hT : (365:ℝ) * (1 + ((150000 : ℕ) + 1) * (2:ℝ) ^ (-52 : ℤ)) ≤ 366 := by norm_num [zpow_neg]
  have hT0 : 0 ≤ (365:ℝ) * (1 + ((150000 : ℕ) + 1) * (2:ℝ) ^ (-52 : ℤ)) := by positivity
  obtain ⟨r, hr, hw, path, p1, p2, p3, t, p4, p5⟩ := C94_follows nearestLib_log nearestLib_root pumping pumping_physical true leaving pumping_upstream escape (Fl.of (1000 : ℕ)) 0 (Fl.of (365 : ℕ))
    (Fl.of (1 : ℕ)) (Fl.of (1 : ℕ)) (1/500) (113/100) 2 100 1317 (1/10000000000) _ _ _ _ 150000 rfl rfl rfl rfl (by rw [e0]; exact escape_path) (by
      intro t t0 tT
      rw [b] at tT
      obtain ⟨s1, s2⟩ := escape_sqrt t0 (tT.trans hT)
      refine (Prod.norm_def _).trans_le (max_le ?_ ?_)
      · simp only [escape]
        rw [Real.norm_eq_abs, abs_of_nonneg (by linarith)]; exact s2
      · simp [escape]) (leaving_moderate (by rw [b]; exact hT)) (pumping_flow (by rw [b]; exact hT))
    (by rw [b]; norm_num) (by rw [b]; norm_num) (by rw [c]; norm_num [zpow_neg]) (by rw [c]; norm_num [zpow_neg]) (by rw [b, c]; norm_num) (by rw [b, c]; norm_num)
    (by rw [e0, c, Prod.norm_def]; norm_num) (by norm_num) (by norm_num) (by norm_num) (by norm_num) (by norm_num) (by norm_num) (by
      rw [b, c]
      have h := exp_escape hT
      have h0 := Real.exp_pos (1/500 * (365 * (1 + ((150000 : ℕ) + 1) * (2:ℝ) ^ (-52 : ℤ))))
      set E := Real.exp (1/500 * (365 * (1 + ((150000 : ℕ) + 1) * (2:ℝ) ^ (-52 : ℤ))))
      norm_num [zpow_neg]
      linarith) (by
      intro q hq
      rw [b] at hq
      have := leaving_fast hT hq
      rw [c]; linarith) (by rw [c]; norm_num [zpow_neg]) (by rw [b, c]; norm_num)
  refine ⟨r, hr, hw, path, p1, strides_times p2, fun v hv => ?_, t, p4, ?_⟩
  · obtain ⟨u, w⟩ := p3 v hv
    refine w.trans ?_
    rw [b] at u
    have v0 : 0 ≤ v.1 := by
      have := List.isChain_iff_pairwise.mp (strides_times p2)
      rw [List.pairwise_cons] at this
      exact (this.1 v.1 (List.mem_map_of_mem hv)).le
    have u' := u.trans hT
    have h3 := exp_escape u'
    have h4 := Real.exp_pos (1/500 * v.1)
    rw [c]
    set E := Real.exp (1/500 * v.1)
    have h5 : v.1 * E ≤ 366 * 2.084 := mul_le_mul u' h3 h4.le (by norm_num)
    norm_num [zpow_neg]
    nlinarith
  · rw [b] at p5
    refine p5.trans ?_
    norm_num [zpow_neg]

end Oneka
