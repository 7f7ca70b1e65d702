import Verif.Props.Storage
import Verif.Props.FallExamples

/-!
# Examples for C156
-/

namespace Oneka

open Aquifer

theorem tilt_refilled : (tiltModel.refilled 2 (1/8) 10).Physical := ⟨by norm_num [refilled], by norm_num [refilled], by norm_num [refilled]⟩

/-- `C156_delivers`: the uniform flow of `ClockExamples.lean`, in an aquifer of half the porosity and thickness and twice the conductivity; confined or not. -/
example : (tiltModel.refilled 2 (1/8) 10).Delivers true 6 1 (-6) 0 (0, 0) ∧ (tiltModel.refilled 2 (1/8) 10).Delivers false 6 1 (-6) 0 (0, 0) := by
  have h1 : tiltModel.conductivity ≤ 2 := by norm_num [tiltModel]
  have h2 : 1/8 ≤ tiltModel.porosity := by norm_num [tiltModel]
  have h3 : 10 ≤ tiltModel.thickness := by norm_num [tiltModel]
  exact ⟨C156_delivers tilt_physical tilt_refilled h1 h2 h3 tilt_delivers,
    C156_delivers tilt_physical tilt_refilled h1 h2 h3 (C154_delivers tilt_physical (p := (0, 0)) (by rw [tilt_potential]; norm_num) tilt_delivers)⟩

/-- `C156_porosity`: with three times the porosity the water needs 18 days. -/
example : (tiltModel.refilled 1 (3 * (1/4)) 20).Delivers true (3 * 6) 1 (-6) 0 (0, 0) := (C156_porosity tilt_physical (k := 3) (by norm_num)).mpr tilt_delivers

/-- `C156_captures`, with two realizations of the calls of `ConfinedExamples.lean`, for which all is equal. -/
example (c : Bool) (t : DateTime) (i : ℕ) (L : RealizationLog) (hL : (realizations (oneka (deepCall c) (deepEnv t)).events)[i]? = some L) (u X Y : ℝ) (hu : 0 ≤ u) (h : L.Captures u X Y) : L.Captures (u + 1/5 + 1/5) X Y := by
  obtain ⟨obs, hr⟩ := deep_realized c t
  obtain ⟨R, F⟩ := hr i L hL
  have key : ∀ k : ℕ, (k:ℤ) < 1 → ∃ P, Follows L.model c (SWell.start ⟨1000, 1000, 1/4, .const 0⟩ 1 k) 365 (1/30) (1/5) P := by
    intro k hk
    obtain rfl : k = 0 := by omega
    rw [twoWays_start]
    exact ⟨_, deep_follows F c⟩
  exact C156_captures R R (K := L.model.conductivity) (n := L.model.porosity) (H := L.model.thickness) rfl le_rfl le_rfl le_rfl F.physical F.physical rfl rfl (D := 365) (D' := 365) (tol := 1) (tol' := 1) (maxstep := 1/30) (maxstep' := 1/30)
    rfl rfl rfl rfl rfl rfl (by norm_num) le_rfl (by norm_num) (by norm_num) (by norm_num) (by norm_num) (fun _ _ => rfl) (fun _ _ => rfl) key key hu h

/-- `C156_archived`: these calls, compared with twice and half the porosity. -/
example (c : Bool) (t : DateTime) : ∃ (d : Dict) (f : PField ℝ),
    loadOneka ((oneka (deepCall c) (deepEnv t)).events.foldl Effect.apply fun _ => none) (deepEnv t).now.archiveName = .ok d ∧ d.get "pfield" = some (.field (.field f)) ∧
    ∀ p q : ℤ, 0 < f.weightAt (1000 + p * 4) (1000 + q * 4) → ∃ L ∈ realizations (oneka (deepCall c) (deepEnv t)).events,
      ∃ j : ℕ, (L.model.refilled 10 (1/8) 20).Delivers c 365 (4 + 1/5) (1000 + p * 4) (1000 + q * 4) (SWell.start ⟨1000, 1000, 1/4, .const 0⟩ 1 j) := by
  classical
  obtain ⟨obs, hr⟩ := deep_realized c t
  have hF : ∀ L ∈ realizations (oneka (deepCall c) (deepEnv t)).events, DeepModel L.model := by
    intro L hL
    obtain ⟨i, hi⟩ := List.getElem?_of_mem hL
    exact (hr i L hi).2
  obtain ⟨d, f, k, w, h1, h2, h3, h4, h5⟩ := C156_archived (deepCall c) (deepInputs c) (deepEnv t) _ (deep_denotes c) (deep_returns c t) (fun _ => none) (D := 365) (tol := 1) (maxstep := 1/30) (δ := 1/5) rfl rfl rfl
    (by norm_num) (by norm_num) (by norm_num) (fun _ _ _ => rfl) (fun _ => 10) (fun _ => 1/2) (fun _ => 20) (fun _ => 10) (fun _ => 1/8) (fun _ => 20)
    (fun L hL => ⟨(hF L hL).physical, ⟨by norm_num [refilled], by norm_num [refilled], by norm_num [refilled]⟩, (hF L hL).conductivity.ge, by rw [(hF L hL).porosity]; norm_num, (hF L hL).thickness.le⟩)
    (fun L hL => ⟨⟨by norm_num [refilled], by norm_num [refilled], by norm_num [refilled]⟩, (hF L hL).conductivity.le, by rw [(hF L hL).porosity]; norm_num, (hF L hL).thickness.ge⟩)
  obtain rfl : k = 0 := by
    have : (0:ℤ) = k := h3
    omega
  obtain rfl : w = ⟨1000, 1000, 1/4, .const 0⟩ := (Option.some.inj h4).symm
  refine ⟨d, f, h1, h2, fun p q hpos => ?_⟩
  have key := (h5 (fun L hL j hj => by
    obtain rfl : j = 0 := by
      have : (j:ℤ) < 1 := hj
      omega
    have := deep_follows (hF L hL) c
    rw [← twoWays_start] at this
    exact ⟨_, this⟩) p q (.inr (le_refl (4:ℝ))) (1000 + p * 4) (1000 + q * 4) rfl rfl).2
  have hc := lt_of_lt_of_le hpos key
  rw [Nat.cast_pos, List.countP_pos_iff] at hc
  obtain ⟨L, hL, hh⟩ := hc
  simp only [decide_eq_true_eq] at hh
  obtain ⟨j, -, hj⟩ := hh
  exact ⟨L, hL, j, hj⟩

/-! ### Two calls -/

/-- the call of `ConfinedExamples.lean`, with another porosity and umbra -/
noncomputable def spongeCall (c : Bool) (po u : ℝ) : PyArgs := { deepCall c with pDist := fl po, umbra := fl u }

/-- the numbers in it -/
noncomputable def spongeInputs (c : Bool) (po u : ℝ) : Inputs := { deepInputs c with run := { (deepInputs c).run with pDist := .const po, umbra := u } }

/-- the models of all realizations -/
def SpongeModel (po : ℝ) (m : Aquifer ℝ) : Prop := m.porosity = po ∧ DeepModel { m with porosity := 1/4 }

section
variable {po u : ℝ} (hpo : 1/4 ≤ po) (hpo' : po ≤ 5/16) (hu : 0 < u)
include hpo hpo'

theorem SpongeModel.physical {m : Aquifer ℝ} (h : SpongeModel po m) : m.Physical := ⟨h.2.physical.1, by rw [h.1]; linarith, h.2.physical.3⟩

/-- east of the well water is traced back eastward -/
theorem SpongeModel.eastward {m : Aquifer ℝ} (h : SpongeModel po m) (c : Bool) {x : ℝ} (hx : 1000 < x) : m.toX.reverseVelocity c (.fin x, .fin 1000) = .ok (emb (1 / (40 * po), 0)) := by
  have hc : m.ConfinedAt (.fin x, .fin 1000) := (h.2.confined hx).1
  rw [reverse_confined hc c]
  have hoff : m.OffWells x 1000 := by
    intro w hw e
    have hw' : w ∈ ({ m with porosity := 1/4 } : Aquifer ℝ).wells := hw
    rw [h.2.wells, List.mem_singleton] at hw'
    subst hw'
    exact hx.ne' (Prod.mk.inj e).1
  have e1 : m.wells = [⟨1000, 1000, 1/4, 0⟩] := h.2.wells
  have e2 : m.coef = deepCoef := h.2.coef
  have e3 : m.thickness = 20 := h.2.thickness
  unfold Aquifer.reverseVelocity
  simp only [if_true]
  rw [velocityConfined_toX m (h.physical hpo hpo') hoff]
  unfold Aquifer.velocityConfined
  rw [discharge_eq, e1, e2, h.1, e3]
  simp [deepCoef, emb, Except.map]
  have : po ≠ 0 := by linarith
  field_simp
  norm_num

theorem sponge_no_endless (c : Bool) (t : DateTime) : ¬ EndlessRun (spongeInputs c po u) sevenObs (deepEnv t).run ⟨1000, 1000, 1/4, .const 0⟩ := by
  unfold EndlessRun
  rw [if_pos (by simp [spongeInputs, deepInputs, twoWaysInputs, exampleInputs])]
  rintro ⟨i, -, m, ev, cov, cf, hm, -, hc, k, hk, h⟩
  obtain rfl : k = 0 := by
    have : (k:ℤ) < 1 := hk
    omega
  obtain rfl : deepCoef = cf := Except.ok.inj hc
  have F : SpongeModel po { m with xo := 1000, yo := 1000, coef := deepCoef } :=
    ⟨const_sample hm.porosity, deep_model (u := (deepEnv t).run.u i) hm.wells_length (hm.wells 0 _ rfl) hm.conductivity rfl hm.thickness rfl rfl rfl⟩
  obtain ⟨r, hr, -⟩ := uniform_complete (g := fun _ => ({ m with xo := 1000, yo := 1000, coef := deepCoef } : Aquifer ℝ).toX.reverseVelocity c) (1001.25, 1000) (1 / (40 * po), 0) (D := 365) (tol := 1) (M := 1/30) (by norm_num) (by norm_num) (by norm_num)
    fun n s s0 s1 => by
      have e : emb (((1001.25, 1000) : ℝ × ℝ) + s • ((1 / (40 * po), 0) : ℝ × ℝ)) = (.fin (1001.25 + s * (1 / (40 * po))), .fin 1000) := by simp [emb]
      have hp : 0 ≤ s * (1 / (40 * po)) := by positivity
      rw [e, F.eastward hpo hpo' c (by linarith)]
  rw [← twoWays_start] at hr
  have : some r = none := hr.symm.trans h
  simp at this

omit hpo hpo' in
theorem sponge_denotes (c : Bool) : (spongeCall c po u).Denotes (spongeInputs c po u) := by
  have h := deep_denotes c
  exact ⟨h.1, h.2, h.3, h.4, h.5, h.6, fl_isReal _, h.8, h.9, h.10, h.11, h.12, fl_isReal _, h.14, h.15, h.16, h.17⟩

include hu in
theorem sponge_acceptable (c : Bool) : Acceptable (spongeCall c po u) := by
  have h := deep_acceptable c
  exact ⟨h.1, h.2, h.3, h.4, h.5, h.6, h.7, .inl ⟨_, rfl, (show (0:ℝ) ≤ po by linarith), (show po ≤ 1 by linarith)⟩, h.9, h.10, h.11, h.12, ⟨_, rfl, fin_pos hu⟩, h.14, h.15, h.16, h.17⟩

include hu in
theorem sponge_returns (c : Bool) (t : DateTime) : (oneka (spongeCall c po u) (deepEnv t)).ending = .returns .none :=
  C70_returns (env := deepEnv t) (sponge_acceptable hpo hpo' hu c) (sponge_denotes c) ⟨(by norm_num : (0:ℝ) < 10), (exampleInputs_regular 100).2⟩
    (fun _ => ⟨⟨by rintro ⟨x, m, h⟩; simp [spongeInputs, deepInputs] at h, by rintro ⟨x, m, h⟩; simp [spongeInputs, deepInputs] at h, twoWays_spread.2.2⟩, fun i j => twoWays_draws t i j⟩) perfect_correct
    perfect_converges sevenObs 0 _ (example_retained 100) rfl rfl (by simp [sevenObs, sixObs]) (fun o ho => (sevenObs_usable o ho).1) sevenObs_general
    (fun _ _ _ _ => ⟨deepCoef, rfl⟩) (sponge_no_endless hpo hpo' c t) rfl rfl

/-- the exact pathline -/
theorem sponge_follows {m : Aquifer ℝ} (h : SpongeModel po m) (c : Bool) : Follows m c (1001.25, 1000) 365 (1/30) (1/5) (fun t => (1001.25, 1000) + t • ((1 / (40 * po), 0) : ℝ × ℝ)) := by
  have hE := exp_eastward
  have hp0 : 0 < po := by linarith
  set v := 1 / (40 * po) with hv
  have v1 : 2/25 ≤ v := by rw [hv, le_div_iff₀ (by positivity)]; linarith
  have v2 : v ≤ 1/10 := by rw [hv, div_le_iff₀ (by positivity)]; linarith
  have hx : ∀ q ∈ Tube (fun t => (1001.25, 1000) + t • ((v, 0) : ℝ × ℝ)) 365 (6/5), (1000:ℝ) < q.1 := by
    rintro q ⟨t, h0, -, hq⟩
    have h1 := (norm_fst_le _).trans hq
    rw [Real.norm_eq_abs, abs_le] at h1
    simp at h1
    have : 0 ≤ t * v := by positivity
    linarith
  have eT : m.thickness = 20 := h.2.thickness
  have eK : m.conductivity = 10 := h.2.conductivity
  have eW : m.wells = [⟨1000, 1000, 1/4, 0⟩] := h.2.wells
  have eC : m.coef = deepCoef := h.2.coef
  have hpot : ∀ x y, m.potential x y = 1/2 * (x - 1000) + 1000000 := h.2.potential
  have hthick : ∀ q ∈ Tube (fun t => (1001.25, 1000) + t • ((v, 0) : ℝ × ℝ)) 365 (6/5), thickAt m c q = 20 := by
    intro q hq
    have := hx q hq
    unfold thickAt
    split_ifs
    · exact eT
    · rw [eT]
      refine min_eq_right (Real.le_sqrt_of_sq_le ?_)
      rw [hpot, eK]
      linarith
  have hf : ∀ q ∈ Tube (fun t => (1001.25, 1000) + t • ((v, 0) : ℝ × ℝ)) 365 (6/5), ((1 / 2 / (po * thickAt m c q), 0) : ℝ × ℝ) = (v, 0) := fun q hq => by
    rw [hthick q hq, hv]
    congr 1
    rw [div_div]
    congr 1
    ring
  have hnorm : ‖((v, 0) : ℝ × ℝ)‖ = v := by
    rw [Prod.norm_def, Real.norm_eq_abs, abs_of_nonneg (by linarith)]
    simp
    linarith
  have hphys := h.physical hpo hpo'
  refine ⟨fun q => (1 / 2 / (po * thickAt m c q), 0), 1/10000, 1/10, 23/50, 6/5, hphys, ?_, ⟨by simp, fun t t0 t1 => ?_⟩, fun q hq => ⟨fun w hw e => ?_, _, thickAt_saturated hphys c ?_⟩, fun a ha b hb => ?_, fun a ha => ?_,
    by norm_num, by norm_num, by norm_num, by norm_num, by linarith, fun q hq => ?_, by linarith⟩
  · intro x y b hoff hs
    obtain ⟨d1, d2⟩ := C29_partials m x y hoff
    have hb0 := saturated_pos hphys hs
    have hb : b = thickAt m c (x, y) := saturated_thickAt hphys (p := (x, y)) hs
    have e := discharge_eq m x y
    simp [eW, eC, deepCoef] at e
    refine ⟨d1.congr_deriv ?_, d2.congr_deriv ?_⟩
    · rw [e]
      simp only [← hb, h.1]
      field_simp
    · rw [e]
      simp
  · have := ((hasDerivAt_id t).smul_const ((v, 0) : ℝ × ℝ)).const_add (1001.25, 1000)
    rw [one_smul] at this
    refine this.congr_deriv ?_
    exact (hf _ ⟨t, t0, t1, by simp; norm_num⟩).symm
  · rw [eW, List.mem_singleton] at hw
    subst hw
    exact (hx q hq).ne' (Prod.mk.inj e).1
  · rw [hpot]
    linarith [hx q hq]
  · simp only [hf a ha, hf b hb]
    simp
  · simp only [hf a ha, hnorm]
    exact v2
  · simp only [hf q hq, hnorm]
    linarith

include hu in
/-- the realizations of these calls -/
theorem sponge_realized (c : Bool) (t : DateTime) : ∀ L ∈ realizations (oneka (spongeCall c po u) (deepEnv t)).events, L.model.Physical ∧
    ∀ j : ℕ, (j:ℤ) < 1 → ∃ P, Follows L.model c (SWell.start ⟨1000, 1000, 1/4, .const 0⟩ 1 j) 365 (1/30) (1/5) P := by
  obtain ⟨-, -, obs, k', w', -, -, -, -, i3, i4, -, i6, -⟩ := C68_stochastic (spongeCall c po u) (spongeInputs c po u) (deepEnv t) _ (sponge_denotes c) (by simp [spongeInputs, deepInputs, twoWaysInputs, exampleInputs]) (sponge_returns hpo hpo' hu c t) (fun _ => none)
  obtain rfl : k' = 0 := by simpa [spongeInputs, deepInputs, twoWaysInputs, exampleInputs] using i3.symm
  obtain rfl : w' = ⟨1000, 1000, 1/4, .const 0⟩ := (Option.some.inj i4).symm
  intro L hL
  obtain ⟨i, hi⟩ := List.getElem?_of_mem hL
  have R := i6 i L hi
  have F : SpongeModel po L.model := ⟨const_sample R.porosity, deep_model (u := (deepEnv t).run.u i) R.wells_length (R.wells 0 _ rfl) R.conductivity rfl R.thickness R.origin.1 R.origin.2 (Except.ok.inj R.coef).symm⟩
  refine ⟨F.physical hpo hpo', fun j hj => ?_⟩
  obtain rfl : j = 0 := by omega
  rw [twoWays_start]
  exact ⟨_, sponge_follows hpo hpo' F c⟩

end

/-- `C156_calls`: porosity 5/16 and umbra 3.6 against porosity 1/4 and umbra 4. -/
example (c : Bool) (t : DateTime) (fs : Files) : ∃ (d d' : Dict) (f f' : PField ℝ),
    loadOneka ((oneka (spongeCall c (5/16) (18/5)) (deepEnv t)).events.foldl Effect.apply fs) (deepEnv t).now.archiveName = .ok d ∧ d.get "pfield" = some (.field (.field f)) ∧
    loadOneka ((oneka (spongeCall c (1/4) 4) (deepEnv t)).events.foldl Effect.apply fs) (deepEnv t).now.archiveName = .ok d' ∧ d'.get "pfield" = some (.field (.field f')) ∧
    ∀ p q : ℤ, f.weightAt (1000 + p * 4) (1000 + q * 4) ≤ f'.weightAt (1000 + p * 4) (1000 + q * 4) := by
  obtain ⟨d, d', f, f', k, w, h1, h2, h3, h4, h5, h6, h7⟩ := C156_calls _ _ _ _ (deepEnv t) _ _ (sponge_denotes (po := 5/16) (u := 18/5) c) (sponge_denotes (po := 1/4) (u := 4) c) (sponge_returns (by norm_num) (by norm_num) (by norm_num) c t)
    (sponge_returns (by norm_num) (by norm_num) (by norm_num) c t) fs (by simp [spongeInputs, deepInputs, twoWaysInputs, exampleInputs]) rfl rfl rfl
    (fun i x x' hx hx' => by rw [const_sample hx, const_sample hx']; norm_num) (D := 365) (tol := 1) (maxstep := 1/30) (δ := 1/5) (δ' := 1/5) rfl rfl rfl (by norm_num) (by norm_num) (by norm_num) (fun _ _ _ => rfl)
    (show (4:ℝ) = 18/5 + 1/5 + 1/5 by norm_num) (show (0:ℝ) ≤ 18/5 by norm_num) (show (18/5:ℝ) ≤ 4 by norm_num) (le_refl (4:ℝ))
  obtain rfl : k = 0 := by
    have : (0:ℤ) = k := h5
    omega
  obtain rfl : w = ⟨1000, 1000, 1/4, .const 0⟩ := (Option.some.inj h6).symm
  exact ⟨d, d', f, f', h1, h2, h3, h4, h7 (sponge_realized (by norm_num) (by norm_num) (by norm_num) c t) (sponge_realized (by norm_num) (by norm_num) (by norm_num) c t)⟩

/-- `C154_calls`: `confined=True` and umbra 3.6 against `confined=False` and umbra 4. -/
example (t : DateTime) (fs : Files) : ∃ (d d' : Dict) (f f' : PField ℝ),
    loadOneka ((oneka (spongeCall true (1/4) (18/5)) (deepEnv t)).events.foldl Effect.apply fs) (deepEnv t).now.archiveName = .ok d ∧ d.get "pfield" = some (.field (.field f)) ∧
    loadOneka ((oneka (spongeCall false (1/4) 4) (deepEnv t)).events.foldl Effect.apply fs) (deepEnv t).now.archiveName = .ok d' ∧ d'.get "pfield" = some (.field (.field f')) ∧
    ∀ p q : ℤ, f.weightAt (1000 + p * 4) (1000 + q * 4) ≤ f'.weightAt (1000 + p * 4) (1000 + q * 4) := by
  obtain ⟨d, d', f, f', k, w, h1, h2, h3, h4, h5, h6, h7⟩ := C154_calls _ _ _ _ (deepEnv t) _ _ (sponge_denotes (po := 1/4) (u := 18/5) true) (sponge_denotes (po := 1/4) (u := 4) false) (sponge_returns (by norm_num) (by norm_num) (by norm_num) true t)
    (sponge_returns (by norm_num) (by norm_num) (by norm_num) false t) fs (by simp [spongeInputs, deepInputs, twoWaysInputs, exampleInputs]) rfl rfl rfl rfl
    (D := 365) (tol := 1) (maxstep := 1/30) (δ := 1/5) (δ' := 1/5) rfl rfl rfl (by norm_num) (by norm_num) (by norm_num) (fun _ _ _ => rfl)
    (show (4:ℝ) = 18/5 + 1/5 + 1/5 by norm_num) (show (0:ℝ) ≤ 18/5 by norm_num) (show (18/5:ℝ) ≤ 4 by norm_num) (le_refl (4:ℝ))
  obtain rfl : k = 0 := by
    have : (0:ℤ) = k := h5
    omega
  obtain rfl : w = ⟨1000, 1000, 1/4, .const 0⟩ := (Option.some.inj h6).symm
  exact ⟨d, d', f, f', h1, h2, h3, h4, h7 (sponge_realized (by norm_num) (by norm_num) (by norm_num) true t) (sponge_realized (by norm_num) (by norm_num) (by norm_num) false t)⟩

end Oneka
