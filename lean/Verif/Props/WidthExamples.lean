import Verif.Props.Width
import Verif.Props.ArrivalExamples
import Mathlib.Analysis.ODE.ExistUnique
import Mathlib.Analysis.Calculus.ContDiff.Operations

/-!
# Examples for C142
-/

namespace Oneka

open Aquifer Set

/-! ## A pumping well in a uniform flow -/

/-- a well of radius 2 that pumps 100 in a flow to the east that discharges 5 -/
noncomputable def windModel : Aquifer ℝ := ⟨0, 1, 1/4, 20, [⟨0, 0, 2, 100⟩], 0, 0, fun i => if i = 3 then -5 else 0⟩

theorem wind_physical : windModel.Physical := ⟨by norm_num [windModel], by norm_num [windModel], by norm_num [windModel]⟩

theorem wind_uniform : windModel.UniformFlow ⟨0, 0, 2, 100⟩ 5 0 := by
  refine ⟨rfl, ⟨?_, ?_, ?_⟩, ?_, ?_⟩ <;> simp [windModel] <;> decide

/-- the velocity of the water -/
noncomputable def windVelocity (p : ℝ × ℝ) : ℝ × ℝ := (1 - 20 * (twoPiInv : ℝ) * (p.1 / (p.1 ^ 2 + p.2 ^ 2)), -(20 * (twoPiInv : ℝ) * (p.2 / (p.1 ^ 2 + p.2 ^ 2))))

theorem wind_flows {p : ℝ × ℝ} (hp : p ≠ (0, 0)) : windModel.FlowsWith true p (windVelocity p) := by
  have hoff : windModel.OffWells p.1 p.2 := by
    intro w hw e
    rw [show windModel.wells = [⟨0, 0, 2, 100⟩] from rfl, List.mem_singleton] at hw
    subst hw
    exact hp e
  obtain ⟨d1, d2⟩ := C29_partials windModel _ _ hoff
  rw [uniform_discharge wind_uniform] at d1 d2
  refine ⟨hoff, 20, by simp [Saturated, windModel], d1.congr_deriv ?_, d2.congr_deriv ?_⟩
  · simp only [windVelocity, Well.r2, show windModel.porosity = 1/4 from rfl, sub_zero]
    ring
  · simp only [windVelocity, Well.r2, show windModel.porosity = 1/4 from rfl, sub_zero]
    ring

/-- from every place but the well, water flows for a while -/
theorem wind_carries {p : ℝ × ℝ} (hp : p ≠ (0, 0)) {U : Set (ℝ × ℝ)} (hU : U ∈ nhds p) : ∃ γ τ, 0 < τ ∧ γ 0 = p ∧ windModel.Carries true γ τ ∧ γ τ ∈ U := by
  have hne : p.1 ^ 2 + p.2 ^ 2 ≠ 0 := by
    intro h
    have a1 : p.1 ^ 2 = 0 := by nlinarith [sq_nonneg p.1, sq_nonneg p.2]
    have a2 : p.2 ^ 2 = 0 := by nlinarith [sq_nonneg p.1, sq_nonneg p.2]
    exact hp (Prod.ext (pow_eq_zero_iff two_ne_zero |>.mp a1) (pow_eq_zero_iff two_ne_zero |>.mp a2))
  have hC : ContDiffAt ℝ 1 windVelocity p := by
    have hr : ContDiffAt ℝ 1 (fun p : ℝ × ℝ => p.1 ^ 2 + p.2 ^ 2) p := (contDiffAt_fst.pow 2).add (contDiffAt_snd.pow 2)
    exact (contDiffAt_const.sub (contDiffAt_const.mul (contDiffAt_fst.div hr hne))).prodMk (contDiffAt_const.mul (contDiffAt_snd.div hr hne)).neg
  obtain ⟨γ, g0, ε, hε, hd⟩ := hC.exists_forall_mem_closedBall_exists_eq_forall_mem_Ioo_hasDerivAt₀ 0
  have hc : ContinuousAt γ 0 := (hd 0 ⟨by linarith, by linarith⟩).continuousAt
  have hev : ∀ᶠ s in nhds (0:ℝ), γ s ≠ (0, 0) ∧ γ s ∈ U := (hc.eventually_ne (by rw [g0]; exact hp)).and (hc (by rw [g0]; exact hU))
  obtain ⟨η, hη, hball⟩ := Metric.eventually_nhds_iff.mp hev
  have m1 := min_le_left ε η
  have m2 := min_le_right ε η
  have hpos : 0 < min ε η := lt_min hε hη
  refine ⟨γ, min ε η / 2, by positivity, g0, fun s s0 s1 => ?_, (hball (by rw [Real.dist_eq, sub_zero, abs_of_nonneg (by positivity)]; linarith)).2⟩
  exact ⟨_, wind_flows (hball (by rw [Real.dist_eq, sub_zero, abs_of_nonneg s0]; linarith)).1, hd s ⟨by linarith, by linarith⟩⟩

/-- It meets the hypotheses of `C142_streamline`, `C142_width` and `C142_stagnation`: the water that is 3 m east and 4 m north of the well. -/
example : ∃ γ τ, 0 < τ ∧ γ 0 = (3, 4) ∧ windModel.Carries true γ τ ∧ leftOf ⟨0, 0, 2, 100⟩ 5 0 (γ τ) ≠ 0 ∧
    (∃ c : ℝ, |2 * Real.pi * c - 1| < 1 / 10 ^ 16 ∧ 20 - leftOf ⟨0, 0, 2, 100⟩ 5 0 (γ τ) = 100 * c * (bearing ⟨0, 0, 2, 100⟩ 5 0 (3, 4) - bearing ⟨0, 0, 2, 100⟩ 5 0 (γ τ))) ∧
    fromAxis ⟨0, 0, 2, 100⟩ 5 0 (γ τ) ≤ fromAxis ⟨0, 0, 2, 100⟩ 5 0 (3, 4) ∧
    below ⟨0, 0, 2, 100⟩ 5 0 (3, 4) ≤ max (below ⟨0, 0, 2, 100⟩ 5 0 (γ τ)) ((1 + 1 / 10 ^ 16) * stagnation ⟨0, 0, 2, 100⟩ 5 0) := by
  obtain ⟨γ, τ, h0, g0, hγ, hpos⟩ := wind_carries (p := (3, 4)) (by simp) (U := {q | 0 < q.2}) ((isOpen_lt continuous_const continuous_snd).mem_nhds (by simp))
  have hpos : 0 < (γ τ).2 := hpos
  have hne : leftOf ⟨0, 0, 2, 100⟩ 5 0 (γ τ) ≠ 0 := ne_of_gt (by simp only [leftOf]; linarith)
  refine ⟨γ, τ, h0, g0, hγ, hne, ?_, ?_, ?_⟩
  · obtain ⟨c, h1, h2⟩ := C142_streamline wind_physical wind_uniform (by norm_num) h0.le hγ hne
    refine ⟨c, h1, ?_⟩
    rw [g0] at h2
    rw [← h2]
    norm_num [leftOf]
  · rw [← g0]
    exact (C142_width wind_physical wind_uniform (by norm_num) (by norm_num) h0.le hγ).1
  · rw [← g0]
    exact C142_stagnation wind_physical wind_uniform (by norm_num) (by norm_num) h0.le hγ

/-- The strip from which water can come to this well is 20 m wide, and the water stands still 3 m below it. -/
example : halfWidth ⟨0, 0, 2, 100⟩ 5 0 = 10 ∧ 3 < stagnation ⟨0, 0, 2, 100⟩ 5 0 ∧ stagnation ⟨0, 0, 2, 100⟩ 5 0 < 10 / 3 := by
  have h1 := Real.pi_gt_three
  have h2 := Real.pi_lt_d2
  have hs : Real.sqrt ((5:ℝ) ^ 2 + 0 ^ 2) = 5 := by
    rw [show (5:ℝ) ^ 2 + 0 ^ 2 = 5 ^ 2 by norm_num]
    exact Real.sqrt_sq (by norm_num)
  unfold halfWidth stagnation
  rw [hs]
  refine ⟨by norm_num, ?_, ?_⟩
  · rw [lt_div_iff₀ (by positivity)]
    norm_num
    linarith
  · rw [div_lt_iff₀ (by positivity)]
    norm_num
    linarith

/-- It meets the hypotheses of `C142_delivers`: no water comes from 20 m north of the axis, or from 10 m downstream, to a starting point. -/
example (D x : ℝ) (n : ℤ) (k : ℕ) : ¬ windModel.Delivers true D 1 x 20 (SWell.start ⟨0, 0, 2, .const 100⟩ n k) ∧ ¬ windModel.Delivers true D 1 10 0 (SWell.start ⟨0, 0, 2, .const 100⟩ n k) := by
  have h2 := Real.pi_gt_three
  have hs : Real.sqrt ((5:ℝ) ^ 2 + 0 ^ 2) = 5 := by
    rw [show (5:ℝ) ^ 2 + 0 ^ 2 = 5 ^ 2 by norm_num]
    exact Real.sqrt_sq (by norm_num)
  constructor <;> intro hd
  · obtain ⟨h, -⟩ := C142_delivers wind_physical wind_uniform (by norm_num) (by norm_num) (by norm_num) ⟨0, 0, 2, .const 100⟩ rfl rfl rfl n k hd
    unfold fromAxis leftOf halfWidth at h
    rw [hs] at h
    norm_num at h
  · obtain ⟨-, h⟩ := C142_delivers wind_physical wind_uniform (by norm_num) (by norm_num) (by norm_num) ⟨0, 0, 2, .const 100⟩ rfl rfl rfl n k hd
    unfold below downstream stagnation at h
    rw [hs] at h
    have : (1 + 1 / 10 ^ 16) * ((100:ℝ) / (2 * Real.pi * 5)) < 4 := by
      rw [mul_div_assoc', div_lt_iff₀ (by positivity)]
      norm_num
      linarith
    have hm := max_lt (show (2:ℝ) + 1 < 4 by norm_num) this
    have h := h.trans (add_lt_add_right hm 1)
    norm_num at h

/-! ## A call -/

theorem twoWays_uniform {m : Aquifer ℝ} (i : ℕ) (hw : m.wells = [⟨1000, 1000, 1/4, 0⟩]) (hc : m.coef = twoWaysCoef i) :
    m.UniformFlow ⟨1000, 1000, 1/4, 0⟩ (-(5 * (twoWaysDir i).1)) (-(5 * (twoWaysDir i).2)) := by
  refine ⟨hw, ⟨?_, ?_, ?_⟩, ?_, ?_⟩ <;> rw [hc] <;> unfold twoWaysCoef <;> (try unfold twoWaysDir) <;> split_ifs <;> simp_all <;> norm_num

/-- The call of `CaptureExactExamples.lean` meets the hypotheses of `C142_archived`, and each realization those of `C142_captures`: the flow of all its realizations is uniform, so nodes 8 m north and 8 m east of the well are in no capture zone. -/
example (t : DateTime) : ∃ (d : Dict) (f : PField ℝ),
    loadOneka ((oneka twoWays (twoWaysEnv t)).events.foldl Effect.apply fun _ => none) (twoWaysEnv t).now.archiveName = .ok d ∧ d.get "pfield" = some (.field (.field f)) ∧
    ∀ p q : ℤ, 2 ≤ p → 2 ≤ q → f.weightAt (1000 + p * 4) (1000 + q * 4) ≤ 0 := by
  classical
  obtain ⟨d, f, k, w, h1, h2, h3, h4, h5⟩ := C142_archived twoWays twoWaysInputs (twoWaysEnv t) _ twoWays_denotes (twoWays_returns t) (fun _ => none) (D := 365) (tol := 1) (maxstep := 1/30) (δ := 1/5) rfl rfl rfl
    (by norm_num) (by norm_num) (by norm_num) (fun _ _ _ => rfl)
  obtain ⟨-, -, obs, k', w', -, -, -, -, h6, h7, -, h9, -⟩ := C68_stochastic twoWays twoWaysInputs (twoWaysEnv t) _ twoWays_denotes (by simp [twoWaysInputs, exampleInputs]) (twoWays_returns t) (fun _ => none)
  obtain rfl : k = 0 := by
    have : (0:ℤ) = k := h3
    omega
  obtain rfl : k' = 0 := by
    have : (0:ℤ) = k' := h6
    omega
  obtain rfl : w = ⟨1000, 1000, 1/4, .const 0⟩ := (Option.some.inj h4).symm
  obtain rfl : w' = ⟨1000, 1000, 1/4, .const 0⟩ := (Option.some.inj h7).symm
  refine ⟨d, f, h1, h2, fun p q p2 q2 => ?_⟩
  have key := h5 (fun L hL => by
    obtain ⟨i, hi⟩ := List.getElem?_of_mem hL
    have R := h9 i L hi
    refine ⟨(twoWays_facts (twoWays_draws t i) R.wells_length (R.wells 0 _ rfl) R.conductivity R.porosity R.thickness).1, fun j hj => ?_⟩
    obtain rfl : j = 0 := by
      have : (j:ℤ) < 1 := hj
      omega
    have := twoWays_model i (twoWays_draws t i) R.wells_length (R.wells 0 _ rfl) R.conductivity R.porosity R.thickness (Except.ok.inj R.coef).symm
    rw [← twoWays_start] at this
    exact ⟨_, this⟩) p q (.inr (le_refl (4:ℝ))) (1000 + p * 4) (1000 + q * 4) rfl rfl
  refine key.trans (le_of_eq ?_)
  rw [Nat.cast_eq_zero, List.countP_eq_zero]
  intro L hL hh
  simp only [decide_eq_true_eq] at hh
  obtain ⟨i, hi⟩ := List.getElem?_of_mem hL
  have R := h9 i L hi
  obtain ⟨f1, f2, f3, f4⟩ := twoWays_facts (twoWays_draws t i) R.wells_length (R.wells 0 _ rfl) R.conductivity R.porosity R.thickness
  have hq1 : (2:ℝ) ≤ p := by exact_mod_cast p2
  have hq2 : (2:ℝ) ≤ q := by exact_mod_cast q2
  have hdir : (twoWaysDir i).1 ^ 2 + (twoWaysDir i).2 ^ 2 = (1/10) ^ 2 ∧ ((twoWaysDir i) = (1/10, 0) ∨ (twoWaysDir i) = (0, 1/10)) := by
    unfold twoWaysDir
    split_ifs <;> norm_num
  have hs : (-(5 * (twoWaysDir i).1)) ^ 2 + (-(5 * (twoWaysDir i).2)) ^ 2 = (1/2) ^ 2 := by
    have := hdir.1
    linear_combination 25 * this
  obtain ⟨h, -⟩ := hh _ _ _ (twoWays_uniform i f4 (Except.ok.inj R.coef).symm) le_rfl (by rw [hs]; norm_num)
  unfold fromAxis leftOf halfWidth at h
  rw [hs, Real.sqrt_sq (by norm_num), div_lt_iff₀ (by norm_num)] at h
  have hu : twoWaysInputs.run.umbra = 4 := rfl
  rw [hu] at h
  obtain ⟨ha, hb⟩ := abs_lt.mp h
  rcases hdir.2 with e | e <;> rw [e] at ha hb <;> norm_num at ha hb <;> linarith

end Oneka
