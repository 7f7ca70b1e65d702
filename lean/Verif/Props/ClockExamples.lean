import Verif.Props.Clock
import Verif.Props.ConfinedExamples

/-!
# Examples for C154
-/

namespace Oneka

open Aquifer

/-- uniform flow to the east in an aquifer of the thickness 20; at the origin the head is 10 -/
noncomputable def tiltModel : Aquifer ℝ := ⟨0, 1, 1/4, 20, [], 0, 0, fun i => if i = 3 then -5 else if i = 5 then 50 else 0⟩

theorem tilt_physical : tiltModel.Physical := ⟨by norm_num [tiltModel], by norm_num [tiltModel], by norm_num [tiltModel]⟩

theorem tilt_potential (x y : ℝ) : tiltModel.potential x y = 50 - 5 * x := by
  rw [potential_eq]
  simp [tiltModel, conic]
  ring

/-- treated as confined, water needs 6 days from 6 m west of the origin to the origin -/
theorem tilt_carries : tiltModel.Carries true (fun s => (s - 6, 0)) 6 := by
  intro s _ _
  refine ⟨(1, 0), ⟨fun w hw => by simp [tiltModel] at hw, 20, by simp [Saturated, tiltModel], ?_, ?_⟩, ?_⟩
  · have := ((hasDerivAt_id (s - 6)).const_mul 5).const_sub 50
    refine (this.congr_deriv ?_).congr_of_eventuallyEq (.of_forall fun x => tilt_potential _ _)
    norm_num [tiltModel]
  · refine ((hasDerivAt_const (0:ℝ) (50 - 5 * (s - 6))).congr_deriv ?_).congr_of_eventuallyEq (.of_forall fun x => tilt_potential _ _)
    norm_num
  · exact ((hasDerivAt_id s).sub_const 6).prodMk (hasDerivAt_const s 0)

theorem tilt_delivers : tiltModel.Delivers true 6 1 (-6) 0 (0, 0) := ⟨_, 6, by norm_num, le_rfl, tilt_carries, by simp [euclid], by simp⟩

/-- `C154_faster`, `C154_slower`: water of this aquifer; the head at the goal is half the thickness, so the unconfined aquifer needs between 3 and 6 days. -/
example : ∃ (γ : ℝ → ℝ × ℝ) (τ : ℝ), 3 ≤ τ ∧ τ ≤ 6 ∧ tiltModel.Carries false γ τ ∧ γ 0 = (-6, 0) ∧ γ τ = (0, 0) := by
  obtain ⟨θ, τ, a1, a2, a3, a4, -, a6⟩ := C154_faster tilt_physical (by norm_num) (by rw [tilt_potential]; norm_num) tilt_carries
  have h0 : (fun s : ℝ => ((s - 6, 0) : ℝ × ℝ)) (θ τ) = (0, 0) := by simp [a4]
  refine ⟨_, τ, ?_, a2, a6, by simp [a3], h0⟩
  obtain ⟨θ', τ', b1, b2, b3, b4, -, b6⟩ := C154_slower tilt_physical (β := 1/2) a1 (by norm_num) (by norm_num) (by simp only [a4, tilt_potential]; norm_num [tiltModel]) a6
  -- two paths of the confined aquifer between the same places need the same time
  have hv : ∀ p v, tiltModel.FlowsWith true p v → v = (1, 0) := by
    rintro ⟨x, y⟩ v ⟨-, b, hs, d1, d2⟩
    obtain rfl : b = 20 := by simpa [Saturated, tiltModel] using hs
    have e1 := d1.unique (((((hasDerivAt_id x).const_mul 5).const_sub 50)).congr_of_eventuallyEq (.of_forall fun x => tilt_potential _ _))
    have e2 := d2.unique ((hasDerivAt_const y (50 - 5 * x)).congr_of_eventuallyEq (.of_forall fun y => tilt_potential _ _))
    norm_num [tiltModel] at e1 e2
    exact Prod.ext (by linarith) (by linarith)
  have hlin : ∀ t ∈ Set.Icc 0 τ', HasDerivAt (fun s => θ (θ' s) - 6 - s) 0 t := by
    intro t ht
    obtain ⟨v, hf, hd⟩ := b6 t ht.1 ht.2
    rw [hv _ _ hf] at hd
    have h1 : HasDerivAt (fun s => θ (θ' s) - 6) 1 t := ((ContinuousLinearMap.fst ℝ ℝ ℝ).hasFDerivAt.comp_hasDerivAt t hd).congr_deriv (by simp)
    exact (h1.sub (hasDerivAt_id t)).congr_deriv (by norm_num)
  have t0 : 0 ≤ τ' := a1.trans b1
  have hc := constant_of_has_deriv_right_zero (fun t ht => (hlin t ht).continuousAt.continuousWithinAt) (fun t ht => (hlin t ⟨ht.1, ht.2.le⟩).hasDerivWithinAt) τ' ⟨t0, le_rfl⟩
  simp only [b3, b4, a3, a4] at hc
  linarith

/-- `C154_delivers`, `C154_later` -/
example : tiltModel.Delivers false 6 1 (-6) 0 (0, 0) ∧ tiltModel.Delivers true (6 / (1/2)) 1 (-6) 0 (0, 0) := by
  have h := C154_delivers tilt_physical (p := (0, 0)) (by rw [tilt_potential]; norm_num) tilt_delivers
  exact ⟨h, C154_later tilt_physical (by norm_num) (by norm_num) (by rw [tilt_potential]; norm_num [tiltModel]) h⟩

theorem DeepModel.potential {m : Aquifer ℝ} (h : DeepModel m) (x y : ℝ) : m.potential x y = 1/2 * (x - 1000) + 1000000 := by
  rw [potential_eq, h.wells, h.coef, h.xo, h.yo]
  simp [conic, deepCoef]

/-- the traces of the calls of `ConfinedExamples.lean` follow exact pathlines, whatever the flag -/
theorem deep_follows {m : Aquifer ℝ} (h : DeepModel m) (c : Bool) : Follows m c (1001.25, 1000) 365 (1/30) (1/5) (twoWaysPath 0) := by
  have hE := exp_eastward
  have hdir : twoWaysDir 0 = (1/10, 0) := by simp [twoWaysDir]
  have hx : ∀ q ∈ Tube (twoWaysPath 0) 365 (11/10), (1000:ℝ) < q.1 := by
    rintro q ⟨t, h0, -, hq⟩
    have h1 := (norm_fst_le _).trans hq
    rw [Real.norm_eq_abs, abs_le] at h1
    simp only [twoWaysPath, hdir, Prod.fst_sub] at h1
    simp at h1
    linarith
  have hthick : ∀ q ∈ Tube (twoWaysPath 0) 365 (11/10), thickAt m c q = 20 := by
    intro q hq
    have := hx q hq
    unfold thickAt
    split_ifs
    · exact h.thickness
    · rw [h.thickness]
      refine min_eq_right (Real.le_sqrt_of_sq_le ?_)
      rw [h.potential, h.conductivity]
      linarith
  have hf : ∀ q ∈ Tube (twoWaysPath 0) 365 (11/10), ((2 / thickAt m c q, 0) : ℝ × ℝ) = (1/10, 0) := fun q hq => by rw [hthick q hq]; norm_num
  have hnorm : ‖((1/10, 0) : ℝ × ℝ)‖ = 1/10 := by simp [Prod.norm_def]
  refine ⟨fun q => (2 / thickAt m c q, 0), 1/10000, 1/10, 2/5, 11/10, h.physical, ?_, ⟨by simp [twoWaysPath], fun t t0 t1 => ?_⟩, fun q hq => ⟨fun w hw e => ?_, _, thickAt_saturated h.physical c ?_⟩, fun a ha b hb => ?_, fun a ha => ?_,
    by norm_num, by norm_num, by norm_num, by norm_num, by linarith, fun q hq => ?_, by linarith⟩
  · intro x y b hoff hs
    obtain ⟨d1, d2⟩ := C29_partials m x y hoff
    have hb0 := saturated_pos h.physical hs
    have hb : b = thickAt m c (x, y) := saturated_thickAt h.physical (p := (x, y)) hs
    have e := discharge_eq m x y
    simp [h.wells, h.coef, deepCoef] at e
    refine ⟨d1.congr_deriv ?_, d2.congr_deriv ?_⟩
    · rw [e]
      simp only [← hb, h.porosity]
      field_simp
      norm_num
    · rw [e]
      simp
  · have := ((hasDerivAt_id t).smul_const (twoWaysDir 0)).const_add (1001.25, 1000)
    rw [one_smul] at this
    refine this.congr_deriv ?_
    rw [hdir]
    exact (hf _ ⟨t, t0, t1, by simp; norm_num⟩).symm
  · rw [h.wells, List.mem_singleton] at hw
    subst hw
    exact (hx q hq).ne' (Prod.mk.inj e).1
  · rw [h.potential]
    linarith [hx q hq]
  · simp only [hf a ha, hf b hb]
    simp
  · simp only [hf a ha, hnorm, le_refl]
  · simp only [hf q hq, hnorm]
    norm_num

theorem deep_start {m : Aquifer ℝ} (h : DeepModel m) : m.conductivity * (1 * m.thickness) ^ 2 / 2 ≤ m.potential (SWell.start ⟨1000, 1000, 1/4, .const 0⟩ 1 0).1 (SWell.start ⟨1000, 1000, 1/4, .const 0⟩ 1 0).2 := by
  rw [twoWays_start, h.potential, h.conductivity, h.thickness]
  norm_num

/-- the realizations of these calls -/
theorem deep_realized (c : Bool) (t : DateTime) : ∃ obs, ∀ (i : ℕ) (L : RealizationLog), (realizations (oneka (deepCall c) (deepEnv t)).events)[i]? = some L →
    Realized { (deepInputs c).run with obs := obs } (deepEnv t).run.la ⟨1000, 1000, 1/4, .const 0⟩ (fun d j => d.sample ((deepEnv t).run.u i j)) ((deepEnv t).run.mvn i) ((deepEnv t).run.interrupt i) L ∧ DeepModel L.model := by
  obtain ⟨-, -, obs, k', w', -, -, -, -, i3, i4, -, i6, -⟩ := C68_stochastic (deepCall c) (deepInputs c) (deepEnv t) _ (deep_denotes c) (by simp [deepInputs, twoWaysInputs, exampleInputs]) (deep_returns c t) (fun _ => none)
  obtain rfl : k' = 0 := by simpa [deepInputs, twoWaysInputs, exampleInputs] using i3.symm
  obtain rfl : w' = ⟨1000, 1000, 1/4, .const 0⟩ := (Option.some.inj i4).symm
  refine ⟨obs, fun i L hL => ?_⟩
  have R := i6 i L hL
  exact ⟨R, deep_model R.wells_length (R.wells 0 _ rfl) R.conductivity R.porosity R.thickness R.origin.1 R.origin.2 (Except.ok.inj R.coef).symm⟩

/-- `C154_captures`, `C154_enough`: the realizations of the two calls capture the same places, up to the accuracy of the traces. -/
example (t : DateTime) (i j : ℕ) (L L' : RealizationLog) (hL : (realizations (oneka (deepCall true) (deepEnv t)).events)[i]? = some L) (hL' : (realizations (oneka (deepCall false) (deepEnv t)).events)[j]? = some L')
    (u X Y : ℝ) (hu : 0 ≤ u) : (L.Captures u X Y → L'.Captures (u + 1/5 + 1/5) X Y) ∧ (L'.Captures u X Y → L.Captures (u + 1/5 + 1/5) X Y) := by
  obtain ⟨obs, h⟩ := deep_realized true t
  obtain ⟨obs', h'⟩ := deep_realized false t
  obtain ⟨R, F⟩ := h i L hL
  obtain ⟨R', F'⟩ := h' j L' hL'
  have hmod : L'.model = L.model := by
    have hb : L'.model.base = L.model.base := R'.base.trans R.base.symm
    revert F F' hb
    generalize L.model = m
    generalize L'.model = m'
    intro F F' hb
    cases m
    cases m'
    obtain ⟨f1, f2, f3, f4, f5, f6, f7⟩ := F
    obtain ⟨g1, g2, g3, g4, g5, g6, g7⟩ := F'
    simp_all
  have key : ∀ c : Bool, ∀ k : ℕ, (k:ℤ) < 1 → ∃ P, Follows L.model c (SWell.start ⟨1000, 1000, 1/4, .const 0⟩ 1 k) 365 (1/30) (1/5) P := by
    intro c k hk
    obtain rfl : k = 0 := by omega
    rw [twoWays_start]
    exact ⟨_, deep_follows F c⟩
  refine ⟨C154_captures R R' hmod rfl rfl rfl (D := 365) (D' := 365) (tol := 1) (tol' := 1) (maxstep := 1/30) (maxstep' := 1/30) rfl rfl rfl rfl rfl rfl (by norm_num) le_rfl (by norm_num) (by norm_num) (by norm_num) (by norm_num)
      (fun _ _ => rfl) (fun _ _ => rfl) (key true) (key false) hu,
    C154_enough R R' hmod rfl rfl rfl (D := 365) (D' := 365) (tol := 1) (tol' := 1) (maxstep := 1/30) (maxstep' := 1/30) (β := 1) rfl rfl rfl rfl rfl rfl (by norm_num) one_pos le_rfl (by norm_num) (by norm_num) (by norm_num) (by norm_num) (by norm_num)
      (fun _ _ => rfl) (fun _ _ => rfl) (key true) (key false) (fun k hk => ?_) hu⟩
  obtain rfl : k = 0 := by
    have : (k:ℤ) < 1 := hk
    omega
  exact deep_start F

/-- `C154_archived`: both calls. -/
example (c : Bool) (t : DateTime) : ∃ (d : Dict) (f : PField ℝ),
    loadOneka ((oneka (deepCall c) (deepEnv t)).events.foldl Effect.apply fun _ => none) (deepEnv t).now.archiveName = .ok d ∧ d.get "pfield" = some (.field (.field f)) ∧
    ∀ p q : ℤ, 0 < f.weightAt (1000 + p * 4) (1000 + q * 4) → ∃ L ∈ realizations (oneka (deepCall c) (deepEnv t)).events,
      ∃ j : ℕ, L.model.Delivers (!c) (365 / 1) (4 + 1/5) (1000 + p * 4) (1000 + q * 4) (SWell.start ⟨1000, 1000, 1/4, .const 0⟩ 1 j) := by
  classical
  obtain ⟨d, f, k, w, h1, h2, h3, h4, h5⟩ := C154_archived (deepCall c) (deepInputs c) (deepEnv t) _ (deep_denotes c) (deep_returns c t) (fun _ => none) (D := 365) (tol := 1) (maxstep := 1/30) (δ := 1/5) (β := 1) rfl rfl rfl
    (by norm_num) (by norm_num) (by norm_num) (fun _ _ _ => rfl) one_pos le_rfl
  obtain rfl : k = 0 := by
    have : (0:ℤ) = k := h3
    omega
  obtain rfl : w = ⟨1000, 1000, 1/4, .const 0⟩ := (Option.some.inj h4).symm
  obtain ⟨obs, hr⟩ := deep_realized c t
  refine ⟨d, f, h1, h2, fun p q hpos => ?_⟩
  have key := h5 (fun L hL => by
    obtain ⟨i, hi⟩ := List.getElem?_of_mem hL
    obtain ⟨-, F⟩ := hr i L hi
    refine ⟨F.physical, fun j hj => ?_⟩
    obtain rfl : j = 0 := by
      have : (j:ℤ) < 1 := hj
      omega
    have := deep_follows F c
    rw [← twoWays_start] at this
    exact ⟨⟨_, this⟩, deep_start F⟩) p q (.inr (le_refl (4:ℝ))) (1000 + p * 4) (1000 + q * 4) rfl rfl
  cases c with
  | true =>
    have hc := lt_of_lt_of_le hpos (key.1 rfl)
    rw [Nat.cast_pos, List.countP_pos_iff] at hc
    obtain ⟨L, hL, hh⟩ := hc
    simp only [decide_eq_true_eq] at hh
    obtain ⟨j, -, hj⟩ := hh
    exact ⟨L, hL, j, by rw [div_one]; exact hj⟩
  | false =>
    have hc := lt_of_lt_of_le hpos (key.2 rfl)
    rw [Nat.cast_pos, List.countP_pos_iff] at hc
    obtain ⟨L, hL, hh⟩ := hc
    simp only [decide_eq_true_eq] at hh
    obtain ⟨j, -, hj⟩ := hh
    exact ⟨L, hL, j, hj⟩

end Oneka
