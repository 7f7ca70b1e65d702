import Verif.Props.Confined
import Verif.Props.ArrivalExamples
import Verif.Lemmas.UniformOnly

/-!
# Examples for C136

Two calls with an idle well in uniform flow, one path and 100 realizations, that differ in `confined` only. The coefficients that are drawn make the potential so large that the aquifer is confined wherever the traces go.
-/

namespace Oneka

open Aquifer

/-- the arguments -/
noncomputable def deepCall (c : Bool) : PyArgs := { twoWays with cDist := fl 10, confined := .bool c }

/-- the numbers in it -/
noncomputable def deepInputs (c : Bool) : Inputs := { twoWaysInputs with run := { twoWaysInputs.run with cDist := .const 10, confined := c } }

/-- the coefficients that are drawn -/
noncomputable def deepCoef : Fin 6 → ℝ := fun j => if j = 3 then 1/2 else if j = 5 then 1000000 else 0

/-- the environment -/
noncomputable def deepEnv (t : DateTime) : CallEnv := { exampleCallEnv 0 t with run := { exampleEnv 0 with mvn := fun _ _ _ => .ok deepCoef, interrupt := fun _ _ _ => none } }

theorem deep_acceptable (c : Bool) : Acceptable (deepCall c) := by
  have h := twoWays_acceptable
  exact ⟨h.1, h.2, h.3, h.4, h.5, h.6, .inl ⟨_, rfl, (show (0:ℝ) ≤ 10 by norm_num), trivial⟩, h.8, h.9, h.10, h.11, h.12, h.13, h.14, ⟨c, rfl⟩, h.16, h.17⟩

theorem deep_denotes (c : Bool) : (deepCall c).Denotes (deepInputs c) := by
  have h := twoWays_denotes
  exact ⟨h.1, h.2, h.3, h.4, h.5, fl_isReal _, h.7, h.8, h.9, h.10, h.11, h.12, h.13, h.14, rfl, h.16, h.17⟩

theorem deep_otherwise : (deepInputs true).otherwise = deepInputs false := rfl

/-- the models of all realizations -/
structure DeepModel (m : Aquifer ℝ) : Prop where
  conductivity : m.conductivity = 10
  porosity : m.porosity = 1/4
  thickness : m.thickness = 20
  wells : m.wells = [⟨1000, 1000, 1/4, 0⟩]
  xo : m.xo = 1000
  yo : m.yo = 1000
  coef : m.coef = deepCoef

theorem deep_model {m : Aquifer ℝ} {u : ℕ → ℝ} (hl : m.wells.length = 1) (hw : ∃ d, m.wells[0]? = some ⟨1000, 1000, 1/4, d⟩ ∧ (Dist.const 0).sample (u 0) = .ok d) (hc : (Dist.const 10).sample (u 1) = .ok m.conductivity)
    (hp : (Dist.const (1/4)).sample (u 2) = .ok m.porosity) (ht : (Dist.const 20).sample (u 3) = .ok m.thickness) (hx : m.xo = 1000) (hy : m.yo = 1000) (hf : m.coef = deepCoef) : DeepModel m := by
  obtain ⟨d, hd, hd'⟩ := hw
  obtain rfl := const_sample hd'
  refine ⟨const_sample hc, const_sample hp, const_sample ht, ?_, hx, hy, hf⟩
  obtain ⟨w, hw⟩ := List.length_eq_one_iff.mp hl
  rw [hw] at hd ⊢
  rw [Option.some.inj hd]

theorem DeepModel.physical {m : Aquifer ℝ} (h : DeepModel m) : m.Physical := ⟨by rw [h.conductivity]; norm_num, by rw [h.porosity]; norm_num, by rw [h.thickness]; norm_num⟩

/-- east of the well the aquifer is confined, and water is traced back eastward -/
theorem DeepModel.confined {m : Aquifer ℝ} (h : DeepModel m) {x : ℝ} (hx : 1000 < x) : m.ConfinedAt (.fin x, .fin 1000) ∧ m.toX.reverseVelocity true (.fin x, .fin 1000) = .ok (emb (1/10, 0)) := by
  have hoff : m.OffWells x 1000 := by
    intro w hw e
    rw [h.wells, List.mem_singleton] at hw
    subst hw
    exact hx.ne' (Prod.mk.inj e).1
  constructor
  · have hpot : m.potential x 1000 = 1/2 * (x - 1000) + 1000000 := by
      rw [potential_eq, h.wells, h.coef, h.xo, h.yo]
      simp [conic, deepCoef]
    have hhead : m.head x 1000 = .ok ((m.potential x 1000 + 10 * 20 ^ 2 / 2) / (10 * 20)) := by
      rw [head_eq, if_neg (by rw [hpot]; linarith), headOf, h.conductivity, h.thickness, if_neg (by rw [hpot]; norm_num; linarith)]
    refine ⟨(m.potential x 1000 + 10 * 20 ^ 2 / 2) / (10 * 20), ?_, ?_, ?_⟩
    · show m.toX.head (.fin x) (.fin 1000) = _
      rw [head_toX m h.physical hoff, hhead]
      rfl
    · rw [hpot, div_pos_iff_of_pos_right (by norm_num)]
      norm_num
      linarith
    · rw [hpot, h.thickness, le_div_iff₀ (by norm_num)]
      norm_num
      linarith
  · unfold Aquifer.reverseVelocity
    simp only [if_true]
    rw [velocityConfined_toX m h.physical hoff]
    unfold Aquifer.velocityConfined
    rw [discharge_eq, h.wells, h.coef, h.xo, h.yo, h.porosity, h.thickness]
    simp [deepCoef, emb, Except.map]
    norm_num

/-- so are all traces -/
theorem DeepModel.traced {m : Aquifer ℝ} (h : DeepModel m) {g : ℕ → XR × XR → Except PyErr (XR × XR)} (hg : ∀ n x, 1000 < x → g n (.fin x, .fin 1000) = m.toX.reverseVelocity true (.fin x, .fin 1000)) :
    ∃ r, computeBacktrace (.fin (SWell.start ⟨1000, 1000, 1/4, .const 0⟩ 1 0).1) (.fin (SWell.start ⟨1000, 1000, 1/4, .const 0⟩ 1 0).2) (.fin 365) (.fin 1) (.fin (1/30)) g = some r ∧ r.warning = none := by
  rw [twoWays_start]
  refine uniform_complete (1001.25, 1000) (1/10, 0) (by norm_num) (by norm_num) (by norm_num) fun n s s0 s1 => ?_
  have e : emb (((1001.25, 1000) : ℝ × ℝ) + s • ((1/10, 0) : ℝ × ℝ)) = (.fin (1001.25 + s * (1/10)), .fin 1000) := by simp [emb]
  have hx : (1000:ℝ) < 1001.25 + s * (1/10) := by linarith
  rw [e, hg n _ hx, (h.confined hx).2]

theorem deep_no_endless (c : Bool) (t : DateTime) : ¬ EndlessRun (deepInputs c) sevenObs (deepEnv t).run ⟨1000, 1000, 1/4, .const 0⟩ := by
  unfold EndlessRun
  rw [if_pos (by simp [deepInputs, twoWaysInputs, exampleInputs])]
  rintro ⟨i, -, m, ev, cov, cf, hm, -, hc, k, hk, h⟩
  obtain rfl : k = 0 := by
    have : (k:ℤ) < 1 := hk
    omega
  obtain rfl : deepCoef = cf := Except.ok.inj hc
  have F := deep_model (m := { m with xo := 1000, yo := 1000, coef := deepCoef }) hm.wells_length (hm.wells 0 _ rfl) hm.conductivity hm.porosity hm.thickness rfl rfl rfl
  obtain ⟨r, hr, -⟩ := F.traced (g := fun _ => ({ m with xo := 1000, yo := 1000, coef := deepCoef } : Aquifer ℝ).toX.reverseVelocity c) fun n x hx => reverse_confined (F.confined hx).1 c
  have : some r = none := hr.symm.trans h
  simp at this

theorem deep_returns (c : Bool) (t : DateTime) : (oneka (deepCall c) (deepEnv t)).ending = .returns .none :=
  C70_returns (env := deepEnv t) (deep_acceptable c) (deep_denotes c) ⟨(by norm_num : (0:ℝ) < 10), (exampleInputs_regular 100).2⟩ (fun _ => ⟨⟨by rintro ⟨x, m, h⟩; simp [deepInputs] at h, twoWays_spread.2⟩, fun i j => twoWays_draws t i j⟩) perfect_correct
    perfect_converges sevenObs 0 _ (example_retained 100) rfl rfl (by simp [sevenObs, sixObs]) (fun o ho => (sevenObs_usable o ho).1) sevenObs_general
    (fun _ _ _ _ => ⟨deepCoef, rfl⟩) (deep_no_endless c t) rfl rfl

/-- C136: the two calls meet all hypotheses, and archive the same field. -/
example (t : DateTime) (fs : Files) : ∃ (d d' : Dict) (f f' : PField ℝ),
    loadOneka ((oneka (deepCall true) (deepEnv t)).events.foldl Effect.apply fs) (deepEnv t).now.archiveName = .ok d ∧ d.get "pfield" = some (.field (.field f)) ∧
    loadOneka ((oneka (deepCall false) (deepEnv t)).events.foldl Effect.apply fs) (deepEnv t).now.archiveName = .ok d' ∧ d'.get "pfield" = some (.field (.field f')) ∧
    ∀ X Y, (f'.IsNode X Y ↔ f.IsNode X Y) ∧ (f.IsNode X Y → f'.weightAt X Y = f.weightAt X Y) := by
  obtain ⟨d, d', f, f', k, w, h1, h2, h3, h4, h5, h6, -, -, h7⟩ := C136_call (deepCall true) (deepCall false) (deepInputs true) (deepEnv t) _ _ (deep_denotes true) (deep_denotes false) (deep_returns true t) (deep_returns false t) fs
  refine ⟨d, d', f, f', h1, h2, h3, h4, h7 fun i L hL j hj => ?_⟩
  obtain ⟨-, -, obs, k', w', -, -, -, -, i3, i4, -, i6, -⟩ := C68_stochastic (deepCall true) (deepInputs true) (deepEnv t) _ (deep_denotes true) (by simp [deepInputs, twoWaysInputs, exampleInputs]) (deep_returns true t) fs
  obtain rfl : k = 0 := by simpa [deepInputs, twoWaysInputs, exampleInputs] using h5.symm
  obtain rfl : k' = 0 := by simpa [deepInputs, twoWaysInputs, exampleInputs] using i3.symm
  obtain rfl : w = ⟨1000, 1000, 1/4, .const 0⟩ := (Option.some.inj h6).symm
  obtain rfl : w' = ⟨1000, 1000, 1/4, .const 0⟩ := (Option.some.inj i4).symm
  have R := i6 i L hL
  have F := deep_model R.wells_length (R.wells 0 _ rfl) R.conductivity R.porosity R.thickness R.origin.1 R.origin.2 (Except.ok.inj R.coef).symm
  obtain rfl : j = 0 := by
    have : (j:ℤ) < 1 := hj
    omega
  obtain ⟨r, hr, hw⟩ := F.traced (g := L.model.confinedOnly ((deepEnv t).run.interrupt i 0)) fun n x hx => if_pos (F.confined hx).1
  refine ⟨r, ?_, hw⟩
  exact hr

/-- C136: east of the well of these calls the two functions give the same velocity. -/
example {m : Aquifer ℝ} (h : DeepModel m) {x : ℝ} (hx : 1000 < x) : m.toX.velocity (.fin x) (.fin 1000) = .ok (m.toX.velocityConfined (.fin x) (.fin 1000)) := by
  obtain ⟨z, h1, h2, h3⟩ := (h.confined hx).1
  exact C136_velocity m _ _ z h1 h2 h3

end Oneka
