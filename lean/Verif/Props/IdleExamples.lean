import Verif.Props.Idle
import Verif.Props.ConfinedExamples

/-!
# Examples for C137

The call of ConfinedExamples.lean, and the same call with an idle well five kilometres away.
-/

namespace Oneka

open Aquifer

/-- the call with one more well -/
noncomputable def sparedCall : PyArgs := { deepCall true with wells := .list [.tuple [fl 1000, fl 1000, fl (1/4), fl 0], .tuple [fl 5000, fl 5000, fl 1, fl 0]] }

/-- the numbers in it -/
noncomputable def sparedInputs : Inputs := (deepInputs true).withIdle 5000 5000 1

/-- the environment -/
noncomputable def sparedEnv (t : DateTime) : CallEnv := (deepEnv t).withIdle (deepInputs true).run.wells.length

theorem spared_wells : sparedInputs.run.wells = [⟨1000, 1000, 1/4, .const 0⟩, ⟨5000, 5000, 1, .const 0⟩] := rfl

theorem spared_acceptable : Acceptable sparedCall := by
  have h := deep_acceptable true
  refine ⟨h.1, h.2, ?_, h.4, h.5, h.6, h.7, h.8, h.9, h.10, h.11, h.12, h.13, h.14, h.15, h.16, h.17⟩
  refine ⟨_, rfl, ?_, 0, .inl rfl, le_rfl, by simp⟩
  intro w hw
  rcases List.mem_cons.mp hw with rfl | hw
  · exact ⟨_, _, _, _, .inl rfl, ⟨_, rfl, trivial⟩, ⟨_, rfl, trivial⟩, ⟨_, rfl, fin_pos (by norm_num)⟩, .inl ⟨_, rfl, trivial, trivial⟩⟩
  · obtain rfl := List.mem_singleton.mp hw
    exact ⟨_, _, _, _, .inl rfl, ⟨_, rfl, trivial⟩, ⟨_, rfl, trivial⟩, ⟨_, rfl, fin_pos (by norm_num)⟩, .inl ⟨_, rfl, trivial, trivial⟩⟩

theorem spared_denotes : sparedCall.Denotes sparedInputs := by
  have h := deep_denotes true
  exact ⟨h.1, h.2, h.3, h.4, h.5, h.6, h.7, h.8, ⟨_, rfl, .cons ⟨_, _, _, _, .inl rfl, fl_isReal _, fl_isReal _, fl_isReal _, fl_isReal _⟩ (.cons ⟨_, _, _, _, .inl rfl, fl_isReal _, fl_isReal _, fl_isReal _, fl_isReal _⟩ .nil)⟩,
    h.10, h.11, h.12, h.13, h.14, h.15, h.16, h.17⟩

/-- no observation is near the idle well -/
theorem spared_far : ∀ o ∈ (deepInputs true).run.obs, (deepInputs true).buffer < o.dist 5000 5000 := by
  have e : (deepInputs true).buffer = 100 := rfl
  have eo : (deepInputs true).run.obs = sevenObs := rfl
  intro o ho
  rw [e, Obs.dist, Real.lt_sqrt (by norm_num)]
  rw [eo] at ho
  simp only [sevenObs, sixObs, List.cons_append, List.nil_append, List.mem_cons, List.not_mem_nil, or_false] at ho
  rcases ho with rfl | rfl | rfl | rfl | rfl | rfl | rfl <;> norm_num

theorem spared_retained : filterObs sparedInputs.run.obs (sparedInputs.run.wells.map fun w => (w.xw, w.yw)) sparedInputs.buffer = .ok sevenObs :=
  (C137_filter (deepInputs true).run.obs [(1000, 1000)] (deepInputs true).buffer 5000 5000 spared_far).trans (example_retained 100)

/-- on the way of the traces the idle well makes no difference -/
theorem spared_elsewhere {x : ℝ} : Elsewhere 5000 5000 (.fin x, .fin 1000) := ⟨(x, 1000), rfl, fun e => by simp at e⟩

theorem spared_model {m : Aquifer ℝ} {u : ℕ → ℝ} (hl : m.wells.length = 2) (hw : ∃ d, m.wells[0]? = some ⟨1000, 1000, 1/4, d⟩ ∧ (Dist.const 0).sample (u 0) = .ok d)
    (hw' : ∃ d, m.wells[1]? = some ⟨5000, 5000, 1, d⟩ ∧ (Dist.const 0).sample (u 1) = .ok d) (hc : (Dist.const 10).sample (u 2) = .ok m.conductivity)
    (hp : (Dist.const (1/4)).sample (u 3) = .ok m.porosity) (ht : (Dist.const 20).sample (u 4) = .ok m.thickness) (hx : m.xo = 1000) (hy : m.yo = 1000) (hf : m.coef = deepCoef) :
    ∃ m0, DeepModel m0 ∧ m = m0.withIdle 5000 5000 1 := by
  obtain ⟨d, hd, hd'⟩ := hw
  obtain rfl := const_sample hd'
  obtain ⟨d, he, he'⟩ := hw'
  obtain rfl := const_sample he'
  have hwells : m.wells = [⟨1000, 1000, 1/4, 0⟩, ⟨5000, 5000, 1, 0⟩] := by
    obtain ⟨a, b, hab⟩ := List.length_eq_two.mp hl
    rw [hab] at hd he ⊢
    rw [Option.some.inj hd, show b = _ from Option.some.inj he]
  refine ⟨{ m with wells := [⟨1000, 1000, 1/4, 0⟩] }, ⟨const_sample hc, const_sample hp, const_sample ht, rfl, hx, hy, hf⟩, ?_⟩
  show m = { m with wells := [⟨1000, 1000, 1/4, 0⟩] ++ [⟨5000, 5000, 1, 0⟩] }
  rw [List.singleton_append, ← hwells]

theorem spared_no_endless (t : DateTime) : ¬ EndlessRun sparedInputs sevenObs (sparedEnv t).run ⟨1000, 1000, 1/4, .const 0⟩ := by
  unfold EndlessRun
  rw [if_pos (by simp [sparedInputs, Inputs.withIdle, deepInputs, twoWaysInputs, exampleInputs])]
  rintro ⟨i, -, m, ev, cov, cf, hm, -, hc, k, hk, h⟩
  obtain rfl : k = 0 := by
    have : (k:ℤ) < 1 := hk
    omega
  obtain rfl : deepCoef = cf := Except.ok.inj hc
  obtain ⟨m0, F, e⟩ := spared_model (m := { m with xo := 1000, yo := 1000, coef := deepCoef }) hm.wells_length (hm.wells 0 _ rfl) (hm.wells 1 _ rfl) hm.conductivity hm.porosity hm.thickness rfl rfl rfl
  obtain ⟨r, hr, -⟩ := F.traced (g := fun _ => ({ m with xo := 1000, yo := 1000, coef := deepCoef } : Aquifer ℝ).toX.reverseVelocity true) fun n x hx => by rw [e]; exact idle_reverse m0 spared_elsewhere true
  have : some r = none := hr.symm.trans h
  simp at this

theorem spared_returns (t : DateTime) : (oneka sparedCall (sparedEnv t)).ending = .returns .none :=
  C70_returns (env := sparedEnv t) spared_acceptable spared_denotes ⟨(by norm_num : (0:ℝ) < 10), (exampleInputs_regular 100).2⟩
    (fun _ => ⟨⟨by rintro ⟨x, m, h⟩; simp [sparedInputs, Inputs.withIdle, deepInputs] at h, twoWays_spread.2.1, twoWays_spread.2.2.1, by
      intro w hw
      rw [spared_wells] at hw
      rintro ⟨x, m, h⟩
      rcases List.mem_cons.mp hw with rfl | hw
      · simp at h
      · obtain rfl := List.mem_singleton.mp hw
        simp at h⟩, fun i j => by
      simp only [sparedEnv, CallEnv.withIdle]
      split_ifs
      · exact twoWays_draws t i _
      · exact twoWays_draws t i _⟩) perfect_correct
    perfect_converges sevenObs 0 _ spared_retained rfl rfl (by simp [sevenObs, sixObs]) (fun o ho => (sevenObs_usable o ho).1) sevenObs_general
    (fun _ _ _ _ => ⟨deepCoef, rfl⟩) (spared_no_endless t) rfl rfl

/-- C137: the two calls meet all hypotheses, and archive the same field. -/
example (t : DateTime) (fs : Files) : ∃ (d d' : Dict) (f f' : PField ℝ),
    loadOneka ((oneka (deepCall true) (deepEnv t)).events.foldl Effect.apply fs) (deepEnv t).now.archiveName = .ok d ∧ d.get "pfield" = some (.field (.field f)) ∧
    loadOneka ((oneka sparedCall (sparedEnv t)).events.foldl Effect.apply fs) (deepEnv t).now.archiveName = .ok d' ∧ d'.get "pfield" = some (.field (.field f')) ∧
    ∀ X Y, (f'.IsNode X Y ↔ f.IsNode X Y) ∧ (f.IsNode X Y → f'.weightAt X Y = f.weightAt X Y) := by
  obtain ⟨d, d', f, f', k, w, h1, h2, h3, h4, h5, h6, -, -, h7⟩ := C137_call (deepCall true) sparedCall (deepInputs true) (deepEnv t) _ _ 5000 5000 1 (deep_denotes true) spared_denotes (deep_returns true t) (spared_returns t)
    spared_far fs
  refine ⟨d, d', f, f', h1, h2, h3, h4, h7 fun i L hL j hj => ?_⟩
  obtain ⟨-, -, obs, k', w', -, -, -, -, i3, i4, -, i6, -⟩ := C68_stochastic (deepCall true) (deepInputs true) (deepEnv t) _ (deep_denotes true) (by simp [deepInputs, twoWaysInputs, exampleInputs]) (deep_returns true t) fs
  obtain rfl : k = 0 := by simpa [deepInputs, twoWaysInputs, exampleInputs] using h5.symm
  obtain rfl : k' = 0 := by simpa [deepInputs, twoWaysInputs, exampleInputs] using i3.symm
  obtain rfl : w = ⟨1000, 1000, 1/4, .const 0⟩ := (Option.some.inj h6).symm
  obtain rfl : w' = ⟨1000, 1000, 1/4, .const 0⟩ := (Option.some.inj i4).symm
  have R := i6 i L hL
  have F := deep_model R.wells_length (R.wells 0 _ rfl) R.conductivity R.porosity R.thickness R.origin.1 R.origin.2 (Except.ok.inj R.coef).symm
  obtain rfl : j = 0 := by
    have : (j:ℤ) < 1 := hj
    omega
  obtain ⟨r, hr, hw⟩ := F.traced (g := L.model.elsewhereOnly true 5000 5000 ((deepEnv t).run.interrupt i 0)) fun n x hx => if_pos spared_elsewhere
  exact ⟨r, hr, hw⟩

/-- C137: a model with a well, and seven observations at other places. -/
example (la : LinAlg) : ((strongModel.withIdle 5000 5000 1).fitRegionalFlow la sevenObs 0 0).2 = (strongModel.fitRegionalFlow la sevenObs 0 0).2 :=
  (C137_model strongModel 5000 5000 1).2 (by simp [strongModel]) la sevenObs 0 0 fun o ho e => by
    simp only [sevenObs, sixObs, List.cons_append, List.nil_append, List.mem_cons, List.not_mem_nil, or_false] at ho
    rcases ho with rfl | rfl | rfl | rfl | rfl | rfl | rfl <;> norm_num at e

end Oneka
