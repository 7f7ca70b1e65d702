import Verif.Props.Barrier
import Verif.Props.WidthExamples
import Verif.Props.DivideExamples

/-!
# Examples for C153
-/

namespace Oneka

open Aquifer

/-- `C153_line`: in the uniform flow of `WidthExamples.lean` all water crosses the line 4 m downstream of the well; confined or not, the well gets nothing from beyond. -/
example (confined : Bool) (D d X Y : ℝ) (h : windModel.Delivers confined D d X Y (3, 0)) : X - 4 ≤ d := by
  have := C153_line wind_physical (x := 4) (y := 0) (nx := 1) (ny := 0) (fun X Y h0 _ => ?_) (by norm_num) h
  · simpa using this
  · obtain ⟨k1, k2⟩ := twoPiInv_bounds
    have hX : X = 4 := by linarith
    subst hX
    rw [uniform_discharge wind_uniform]
    simp only [Well.r2]
    have h2 : (4 - 0) / ((4 - 0) ^ 2 + (Y - 0) ^ 2) ≤ (1/4 : ℝ) := by
      rw [div_le_iff₀ (by positivity)]
      nlinarith [sq_nonneg (Y - 0)]
    nlinarith

/-- a well that injects 100 into the same flow -/
noncomputable def injectModel : Aquifer ℝ := ⟨0, 1, 1/4, 20, [⟨0, 0, 2, -100⟩], 0, 0, fun i => if i = 3 then -5 else 0⟩

theorem inject_physical : injectModel.Physical := ⟨by norm_num [injectModel], by norm_num [injectModel], by norm_num [injectModel]⟩

/-- `C153_injecting`: it captures nothing beyond 3 m, and there is water to which this applies. -/
example (confined : Bool) (D d X Y : ℝ) (k : ℕ) (h : injectModel.Delivers confined D d X Y (SWell.start ⟨0, 0, 2, .const (-100)⟩ 10 k)) : euclid (X, Y) (0, 0) < 3 + d := by
  have := C153_injecting inject_physical (w := ⟨0, 0, 2, -100⟩) (rest := []) (List.Perm.refl _) (G := 5) (by norm_num) ⟨0, 0, 2, .const (-100)⟩ (by norm_num) rfl rfl (fun x y _ => ?_) ?_ 10 k h
  · norm_num at this ⊢
    exact this
  · rw [discharge_eq]
    have e3 : (if (3 : Fin 6) = 3 then (-5:ℝ) else 0) = -5 := rfl
    simp [injectModel, euclid]
  · have := Real.pi_lt_d2
    norm_num
    linarith

/-- The call of `DivideExamples.lean` meets the hypotheses of `C153_archived`: all water crosses the line 2 m downstream of the well, so the nodes 8 m and more downstream have no weight. -/
example (t : DateTime) : ∃ (d : Dict) (f : PField ℝ),
    loadOneka ((oneka pumpedWays (pumpedEnv t)).events.foldl Effect.apply fun _ => none) (pumpedEnv t).now.archiveName = .ok d ∧ d.get "pfield" = some (.field (.field f)) ∧
    ∀ p q : ℤ, p ≤ -2 → f.weightAt (1000 + p * 4) (1000 + q * 4) = 0 := by
  obtain ⟨-, -, obs, k', w', -, -, -, -, h6, h7, -, h9, -⟩ := C68_stochastic pumpedWays pumpedInputs (pumpedEnv t) _ pumped_denotes (by simp [pumpedInputs, exampleInputs]) (pumped_returns t) (fun _ => none)
  obtain rfl : k' = 0 := by
    have : (0:ℤ) = k' := h6
    omega
  obtain rfl : w' = ⟨1000, 1000, 1/4, .const (1/2)⟩ := (Option.some.inj h7).symm
  obtain ⟨d, f, k, w, h1, h2, h3, h4, h5⟩ := C153_archived pumpedWays pumpedInputs (pumpedEnv t) _ pumped_denotes (pumped_returns t) (fun _ => none) (D := 1) (tol := 1) (maxstep := 1/2000) (δ := 1/100) rfl rfl rfl
    (by norm_num) (by norm_num) (by norm_num) (fun _ _ _ => rfl) (g := fun p => (p.1 - 998) * (-1) + (p.2 - 0) * 0) (gx := fun _ => -1) (gy := fun _ => 0) (fun L hL => by
      obtain ⟨i, hi⟩ := List.getElem?_of_mem hL
      have R := h9 i L hi
      obtain ⟨m1, m2, -⟩ := pumped_model (pumped_draws t i) R.wells_length (R.wells 0 _ rfl) R.conductivity R.porosity R.thickness (Except.ok.inj R.coef).symm
      refine ⟨m1, line_gradient 998 0 (-1) 0, fun p h0 _ => ?_⟩
      obtain ⟨k1, k2⟩ := twoPiInv_bounds
      have hX : p.1 = 998 := by linarith
      rw [uniform_discharge m2, hX]
      simp only [Well.r2]
      have h2 : (-(1/2) : ℝ) ≤ (998 - 1000) / ((998 - 1000) ^ 2 + (p.2 - 1000) ^ 2) := by
        rw [le_div_iff₀ (by positivity)]
        nlinarith [sq_nonneg (p.2 - 1000)]
      nlinarith)
  obtain rfl : k = 0 := by
    have : (0:ℤ) = k := h3
    omega
  obtain rfl : w = ⟨1000, 1000, 1/4, .const (1/2)⟩ := (Option.some.inj h4).symm
  refine ⟨d, f, h1, h2, fun p q hp => ?_⟩
  refine h5 (fun L hL j hj => ?_) (fun j hj => ?_) p q (.inr (show (3:ℝ) ≤ 4 by norm_num)) (1000 + p * 4) (1000 + q * 4) rfl rfl (fun z hz => ?_)
  · obtain ⟨i, hi⟩ := List.getElem?_of_mem hL
    have R := h9 i L hi
    obtain ⟨-, -, P, m3⟩ := pumped_model (pumped_draws t i) R.wells_length (R.wells 0 _ rfl) R.conductivity R.porosity R.thickness (Except.ok.inj R.coef).symm
    obtain rfl : j = 0 := by
      have : (j:ℤ) < 1 := hj
      omega
    rw [← pumped_start] at m3
    exact ⟨P, m3⟩
  · obtain rfl : j = 0 := by
      have : (j:ℤ) < 1 := hj
      omega
    show ((SWell.start ⟨1000, 1000, 1/4, .const (1/2)⟩ 1 0).1 - 998) * (-1) + _ * 0 ≤ 0
    rw [pumped_start]
    norm_num
  · show (3:ℝ) + 1/100 ≤ euclid z (1000 + p * 4, 1000 + q * 4)
    have hn := norm_le_euclid z (1000 + p * 4, 1000 + q * 4)
    rw [Prod.norm_def, max_le_iff, Real.norm_eq_abs] at hn
    have h1 : z.1 - (1000 + p * 4) ≤ euclid z (1000 + p * 4, 1000 + q * 4) := by have := (neg_le_abs _).trans hn.1; simp only [Prod.fst_sub] at this; linarith
    have hz : (z.1 - 998) * (-1) + (z.2 - 0) * 0 ≤ 0 := hz
    have hp' : (p:ℝ) ≤ -2 := by exact_mod_cast hp
    linarith

end Oneka
