import Verif.Props.Fall
import Verif.Props.ClockExamples

/-!
# Examples for C155
-/

namespace Oneka

open Aquifer

/-- `C155_path`, `C155_head`: the uniform flow of `ClockExamples.lean`. The distance is 6, the potential falls by 30 in 6 days: here the bound is attained. -/
example : tiltModel.porosity * 20 * euclid (-6, 0) (0, 0) ^ 2 ≤ 6 * (80 - 50) ∧ 6 * (80 - 50) = tiltModel.porosity * 20 * euclid (-6, 0) (0, 0) ^ 2 ∧
    ∃ h₀, tiltModel.head (-6) 0 = .ok h₀ ∧ 10 < h₀ := by
  have hs : tiltModel.Saturated true (6 - 6) 0 20 := by simp [Saturated, tiltModel]
  obtain ⟨-, h2⟩ := C155_path tilt_physical (by norm_num) tilt_carries hs
  have hh : tiltModel.head (6 - 6) 0 = .ok 10 := by
    have e : Real.sqrt 100 = 10 := by rw [show (100:ℝ) = 10 ^ 2 by norm_num, Real.sqrt_sq (by norm_num)]
    rw [head_eq, if_neg (by rw [tilt_potential]; norm_num), tilt_potential]
    norm_num [headOf, tiltModel, e]
  obtain ⟨h₀, k1, -, k3⟩ := C155_head tilt_physical (by norm_num) tilt_carries hh
  refine ⟨?_, ?_, h₀, by simpa using k1, k3 (by simp)⟩
  · simpa [tilt_potential, show (50 : ℝ) + 5 * 6 = 80 by norm_num] using h2
  · norm_num [euclid, tiltModel]

/-- `C155_no_return`: this water is never twice at the same place. -/
example (s t : ℝ) (hs : 0 ≤ s) (hst : s < t) (ht : t ≤ 6) : ((t - 6, 0) : ℝ × ℝ) ≠ (s - 6, 0) := by
  intro h
  have := C155_no_return tilt_physical tilt_carries hs ht h ((s + t) / 2) (by linarith) (by linarith)
  have := (Prod.mk.inj this).1
  linarith

/-- `C155_no_return`: water at rest does come back to where it was. -/
example : ∃ m : Aquifer ℝ, m.Physical ∧ ∃ γ, m.Carries false γ 6 ∧ γ 6 = γ 0 ∧ ∀ r, 0 ≤ r → r ≤ 6 → γ r = γ 0 := by
  have hp : ∀ x y, ({ tiltModel with coef := fun i => if i = 5 then 50 else 0 } : Aquifer ℝ).potential x y = 50 := by
    intro x y
    rw [potential_eq]
    simp [tiltModel, conic]
  have hm : ({ tiltModel with coef := fun i => if i = 5 then 50 else 0 } : Aquifer ℝ).Physical := tilt_physical.1 |> fun h => ⟨h, tilt_physical.2, tilt_physical.3⟩
  have hc : ({ tiltModel with coef := fun i => if i = 5 then 50 else 0 } : Aquifer ℝ).Carries false (fun _ => (1, 1)) 6 := by
    intro s _ _
    refine ⟨0, ⟨fun w hw => by simp [tiltModel] at hw, _, thickAt_saturated hm false (p := ((1:ℝ), (1:ℝ))) (by rw [hp]; norm_num), ?_, ?_⟩, hasDerivAt_const s _⟩
    · simp only [hp]
      simpa using hasDerivAt_const (1:ℝ) (50:ℝ)
    · simp only [hp]
      simpa using hasDerivAt_const (1:ℝ) (50:ℝ)
  exact ⟨_, hm, _, hc, rfl, C155_no_return hm hc le_rfl le_rfl rfl⟩

/-- `C155_delivers`: nothing within 1 m of 8 m west arrives at the origin within 6 days in this aquifer if it is treated as confined. -/
example : ¬ tiltModel.Delivers true 6 1 (-8) 0 (0, 0) := by
  intro h
  obtain ⟨z, h1, h2⟩ := C155_delivers tilt_physical (by norm_num) (b := 20) (by simp [Saturated, tiltModel]) h
  rw [tilt_potential, tilt_potential] at h2
  have h3 := (norm_le_euclid z (-8, 0)).trans_lt h1
  have h4 := (norm_fst_le _).trans_lt h3
  rw [Real.norm_eq_abs, abs_lt] at h4
  simp only [Prod.fst_sub] at h4
  have h5 : z.1 ^ 2 ≤ euclid z (0, 0) ^ 2 := by
    unfold euclid
    rw [Real.sq_sqrt (by positivity)]
    nlinarith [sq_nonneg z.2]
  norm_num [tiltModel] at h2
  nlinarith [h4.1, h4.2]

/-- `C155_captures`, `C155_archived`: the calls of `ConfinedExamples.lean`. -/
example (c : Bool) (t : DateTime) (i : ℕ) (L : RealizationLog) (hL : (realizations (oneka (deepCall c) (deepEnv t)).events)[i]? = some L) (u X Y : ℝ) (hu : 0 ≤ u) (h : L.Captures u X Y) :
    ∃ z, euclid z (X, Y) < u + 1/5 ∧ L.model.potential 1001.25 1000 ≤ L.model.potential z.1 z.2 := by
  obtain ⟨obs, hr⟩ := deep_realized c t
  obtain ⟨R, F⟩ := hr i L hL
  obtain ⟨k, b, z, hk, hb, h1, h2⟩ := C155_captures R F.physical (D := 365) (tol := 1) (maxstep := 1/30) (δ := 1/5) rfl rfl rfl (by norm_num) (by norm_num) (by norm_num) (fun _ _ => rfl)
    (fun k hk => by
      obtain rfl : k = 0 := by
        have : (k:ℤ) < 1 := hk
        omega
      have := deep_follows F c
      rw [← twoWays_start] at this
      exact ⟨_, this⟩) hu h
  obtain rfl : k = 0 := by
    have : (k:ℤ) < 1 := hk
    omega
  refine ⟨z, h1, le_trans ?_ h2⟩
  have e : SWell.start ⟨1000, 1000, 1/4, .const 0⟩ ({ (deepInputs c).run with obs := obs } : RunArgs).npaths 0 = (1001.25, 1000) := twoWays_start
  rw [e]
  have hb0 := saturated_pos F.physical hb
  have hn := F.physical.porosity
  have : 0 ≤ L.model.porosity * b * euclid z (1001.25, 1000) ^ 2 / 365 := by positivity
  linarith

example (c : Bool) (t : DateTime) : ∃ (d : Dict) (f : PField ℝ),
    loadOneka ((oneka (deepCall c) (deepEnv t)).events.foldl Effect.apply fun _ => none) (deepEnv t).now.archiveName = .ok d ∧ d.get "pfield" = some (.field (.field f)) ∧
    ∀ p q : ℤ, p < -1 → f.weightAt (1000 + p * 4) (1000 + q * 4) = 0 := by
  classical
  obtain ⟨d, f, k, w, h1, h2, h3, h4, h5⟩ := C155_archived (deepCall c) (deepInputs c) (deepEnv t) _ (deep_denotes c) (deep_returns c t) (fun _ => none) (D := 365) (tol := 1) (maxstep := 1/30) (δ := 1/5) rfl rfl rfl
    (by norm_num) (by norm_num) (by norm_num) (fun _ _ _ => rfl)
  obtain ⟨d', f', k', w', i1, i2, i3, i4, i5⟩ := C131_archived (deepCall c) (deepInputs c) (deepEnv t) _ (deep_denotes c) (deep_returns c t) (fun _ => none) (D := 365) (tol := 1) (maxstep := 1/30) (δ := 1/5) rfl rfl rfl
    (by norm_num) (by norm_num) (by norm_num) (fun _ _ _ => rfl)
  obtain rfl : d = d' := Except.ok.inj (h1.symm.trans i1)
  obtain rfl : f = f' := by
    have := h2.symm.trans i2
    simpa using this
  obtain rfl : k = 0 := by
    have : (0:ℤ) = k := h3
    omega
  obtain rfl : k' = 0 := by
    have : (0:ℤ) = k' := i3
    omega
  obtain rfl : w = ⟨1000, 1000, 1/4, .const 0⟩ := (Option.some.inj h4).symm
  obtain rfl : w' = ⟨1000, 1000, 1/4, .const 0⟩ := (Option.some.inj i4).symm
  obtain ⟨obs, hr⟩ := deep_realized c t
  have hfol : ∀ L ∈ realizations (oneka (deepCall c) (deepEnv t)).events, L.model.Physical ∧ ∀ j : ℕ, (j:ℤ) < 1 → ∃ P, Follows L.model c (SWell.start ⟨1000, 1000, 1/4, .const 0⟩ 1 j) 365 (1/30) (1/5) P := by
    intro L hL
    obtain ⟨i, hi⟩ := List.getElem?_of_mem hL
    obtain ⟨-, F⟩ := hr i L hi
    refine ⟨F.physical, fun j hj => ?_⟩
    obtain rfl : j = 0 := by omega
    have := deep_follows F c
    rw [← twoWays_start] at this
    exact ⟨_, this⟩
  refine ⟨d, f, h1, h2, fun p q hp => ?_⟩
  have up := h5 hfol p q (.inr (le_refl (4:ℝ))) (1000 + p * 4) (1000 + q * 4) rfl rfl
  have lo := (i5 (fun L hL => (hfol L hL).2) p q (.inr (le_refl (4:ℝ))) (1000 + p * 4) (1000 + q * 4) rfl rfl).1
  rw [List.countP_eq_zero.mpr] at up
  · exact le_antisymm (by simpa using up) (le_trans (Nat.cast_nonneg _) lo)
  · intro L hL
    obtain ⟨i, hi⟩ := List.getElem?_of_mem hL
    obtain ⟨-, F⟩ := hr i L hi
    simp only [decide_eq_true_eq]
    rintro ⟨j, b, z, hj, hb, hz, hpot⟩
    obtain rfl : j = 0 := by
      have : (j:ℤ) < 1 := hj
      omega
    have e : SWell.start ⟨1000, 1000, 1/4, .const 0⟩ (deepInputs c).run.npaths 0 = (1001.25, 1000) := twoWays_start
    rw [e] at hpot
    have hb0 := saturated_pos F.physical hb
    have hn := F.physical.porosity
    have h0 : 0 ≤ L.model.porosity * b * euclid z (1001.25, 1000) ^ 2 / 365 := by positivity
    rw [F.potential, F.potential] at hpot
    have hz' : euclid z (1000 + p * 4, 1000 + q * 4) < 4 + 1/5 := hz
    have h4 := (norm_fst_le _).trans_lt ((norm_le_euclid z (1000 + p * 4, 1000 + q * 4)).trans_lt hz')
    rw [Real.norm_eq_abs, abs_lt] at h4
    simp only [Prod.fst_sub] at h4
    have : (p:ℝ) ≤ -2 := by exact_mod_cast (by omega : p ≤ -2)
    norm_num at hpot h0
    linarith [h4.1, h4.2]

end Oneka
