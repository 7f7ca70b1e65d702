import Verif.Props.Arrival
import Verif.Props.CaptureExactExamples

/-!
# Examples for C131, and recorded water that never reaches the well
-/

namespace Oneka

open Aquifer Set

/-! ## A pumping well -/

/-- a well of radius 2 that pumps 100 in an aquifer at rest -/
noncomputable def strongModel : Aquifer ℝ := ⟨0, 1, 1/4, 20, [⟨0, 0, 2, 100⟩], 0, 0, fun _ => 0⟩

theorem strong_physical : strongModel.Physical := ⟨by norm_num [strongModel], by norm_num [strongModel], by norm_num [strongModel]⟩

/-- It meets the hypotheses of `C131_pumping`: within one metre of the rim all water flows inward, with at least 1 m/d. -/
theorem strong_inward : strongModel.Inward true 0 0 2 (2 + 1) 1 := by
  refine C131_pumping (w := ⟨0, 0, 2, 100⟩) (rest := []) (c := 1) (G := 0) strong_physical (List.Perm.refl _) (by norm_num) (by norm_num) le_rfl (fun x y _ _ => ?_) ?_
  · rw [discharge_eq]
    simp [strongModel, euclid]
  · have := Real.pi_lt_d2
    norm_num [strongModel]
    linarith

/-- the path of the water that is at the eastern starting point at the time 0 -/
noncomputable def strongPath : ℝ → ℝ × ℝ := fun s => (Real.sqrt (9 - 40 * (twoPiInv : ℝ) * s), 0)

theorem twoPiInv_bounds : (3/20 : ℝ) < twoPiInv ∧ (twoPiInv : ℝ) < 4/25 := by
  unfold twoPiInv
  constructor <;> norm_num

theorem strong_carries : strongModel.Carries true strongPath 1 := by
  intro s s0 s1
  obtain ⟨k1, k2⟩ := twoPiInv_bounds
  have hpos : 0 < 9 - 40 * (twoPiInv : ℝ) * s := by nlinarith
  have hx : 0 < Real.sqrt (9 - 40 * (twoPiInv : ℝ) * s) := Real.sqrt_pos.mpr hpos
  have hoff : strongModel.OffWells (strongPath s).1 (strongPath s).2 := by
    intro w hw e
    rw [show strongModel.wells = [⟨0, 0, 2, 100⟩] from rfl, List.mem_singleton] at hw
    subst hw
    exact hx.ne' (Prod.mk.inj e).1
  obtain ⟨d1, d2⟩ := C29_partials strongModel _ _ hoff
  have hr2 : (⟨0, 0, 2, 100⟩ : Well ℝ).r2 (strongPath s).1 (strongPath s).2 = (strongPath s).1 ^ 2 := by simp [Well.r2, strongPath]
  have e := discharge_eq strongModel (strongPath s).1 (strongPath s).2
  rw [show strongModel.wells = [⟨0, 0, 2, 100⟩] from rfl] at e
  simp only [List.map_cons, List.map_nil, List.sum_cons, List.sum_nil, hr2, show strongModel.coef = fun _ => 0 from rfl] at e
  refine ⟨(-(20 * (twoPiInv : ℝ)) / Real.sqrt (9 - 40 * (twoPiInv : ℝ) * s), 0), ⟨hoff, 20, by simp [Saturated, strongModel], d1.congr_deriv ?_, d2.congr_deriv ?_⟩, ?_⟩
  · rw [e]
    have hx' := hx.ne'
    simp only [strongPath, show strongModel.porosity = 1/4 from rfl]
    field_simp
    ring
  · rw [e]
    simp [strongPath]
  · have h1 : HasDerivAt (fun s => 9 - 40 * (twoPiInv : ℝ) * s) (-(40 * (twoPiInv : ℝ))) s := by
      have := ((hasDerivAt_id s).const_mul (40 * (twoPiInv : ℝ))).const_sub 9
      exact this.congr_deriv (by simp)
    have h2 := (h1.sqrt hpos.ne').prodMk (hasDerivAt_const s (0:ℝ))
    refine h2.congr_deriv (Prod.ext ?_ rfl)
    simp only
    field_simp
    norm_num

/-- It meets the hypotheses of `C131_enters`: after a day the water is in the well. -/
example : euclid (strongPath 1) (0, 0) ≤ 2 := by
  have := C131_enters (t := ⟨0, 0, 2, .const 100⟩) (by norm_num) (c := 1) one_pos strong_inward (τ := 0) (T := 1) le_rfl (by norm_num) strong_carries 1 0 (by
    refine Prod.ext ?_ ?_
    · have : Real.sqrt 9 = 3 := by rw [show (9:ℝ) = 3 ^ 2 by norm_num]; exact Real.sqrt_sq (by norm_num)
      simp [strongPath, SWell.start, this]
      norm_num
    · simp [strongPath, SWell.start])
  simpa using this

/-! ## A call that records what never reaches the well -/

/-- the call of `CaptureExactExamples.lean`, in which the well is idle, with an umbra of 3 -/
noncomputable def idleWays : PyArgs := { twoWays with umbra := fl 3 }

/-- the numbers in it -/
noncomputable def idleInputs : Inputs := { twoWaysInputs with run := { twoWaysInputs.run with umbra := 3 } }

theorem idleWays_acceptable : Acceptable idleWays := by
  have h := twoWays_acceptable
  exact ⟨h.1, h.2, h.3, h.4, h.5, h.6, h.7, h.8, h.9, h.10, h.11, h.12, ⟨_, rfl, fin_pos (by norm_num)⟩, h.14, h.15, h.16, h.17⟩

theorem idleWays_denotes : idleWays.Denotes idleInputs := by
  have h := twoWays_denotes
  exact ⟨h.1, h.2, h.3, h.4, h.5, h.6, h.7, h.8, h.9, h.10, h.11, h.12, fl_isReal _, h.14, h.15, h.16, h.17⟩

theorem idleWays_no_endless (t : DateTime) : ¬ EndlessRun idleInputs sevenObs (twoWaysEnv t).run ⟨1000, 1000, 1/4, .const 0⟩ := by
  unfold EndlessRun
  rw [if_pos (by simp [idleInputs, twoWaysInputs, exampleInputs])]
  rintro ⟨i, -, m, ev, cov, c, hm, -, hc, k, hk, h⟩
  obtain rfl : k = 0 := by
    have : (k:ℤ) < 1 := hk
    omega
  obtain rfl : twoWaysCoef i = c := Except.ok.inj hc
  have F := twoWays_model (m := { m with xo := 1000, yo := 1000, coef := twoWaysCoef i }) i (twoWays_draws t i) hm.wells_length (hm.wells 0 _ rfl) hm.conductivity hm.porosity hm.thickness rfl
  obtain ⟨r, hr, -⟩ := C95_track (tol := 1) F (by norm_num) (by norm_num) (by norm_num)
  have e := twoWays_start
  rw [← e] at hr
  have : some r = none := hr.symm.trans h
  simp at this

theorem idleWays_returns (t : DateTime) : (oneka idleWays (twoWaysEnv t)).ending = .returns .none :=
  C70_returns (env := twoWaysEnv t) idleWays_acceptable idleWays_denotes (exampleInputs_regular 100) (fun _ => ⟨twoWays_spread, twoWays_draws t⟩) perfect_correct
    perfect_converges sevenObs 0 _ (example_retained 100) rfl rfl (by simp [sevenObs, sixObs]) (fun o ho => (sevenObs_usable o ho).1) sevenObs_general
    (fun _ i _ _ => ⟨twoWaysCoef i, rfl⟩) (idleWays_no_endless t) rfl rfl

/-- in the models of this call all water moves the same way -/
theorem twoWays_velocity {m : Aquifer ℝ} (i : ℕ) (hm : m.Physical) (hp : m.porosity = 1/4) (hT : m.thickness = 20) (hw : m.wells = [⟨1000, 1000, 1/4, 0⟩]) (hc : m.coef = twoWaysCoef i)
    {p v : ℝ × ℝ} (h : m.FlowsWith true p v) : v = -twoWaysDir i := by
  have up : m.Upstream true fun _ => twoWaysDir i := by
    intro x y b hoff hs
    obtain ⟨d1, d2⟩ := C29_partials m x y hoff
    simp only [Saturated, if_true] at hs
    subst hs
    have e := discharge_eq m x y
    have c0 : m.coef 0 = 0 := by rw [hc]; unfold twoWaysCoef; split_ifs <;> simp_all
    have c1 : m.coef 1 = 0 := by rw [hc]; unfold twoWaysCoef; split_ifs <;> simp_all
    have c2 : m.coef 2 = 0 := by rw [hc]; unfold twoWaysCoef; split_ifs <;> simp_all
    have c3 : m.coef 3 = 5 * (twoWaysDir i).1 := by rw [hc]; unfold twoWaysCoef twoWaysDir; split_ifs <;> simp_all; norm_num
    have c4 : m.coef 4 = 5 * (twoWaysDir i).2 := by rw [hc]; unfold twoWaysCoef twoWaysDir; split_ifs <;> simp_all; norm_num
    simp only [hw, c0, c1, c2, c3, c4, List.map_cons, List.map_nil, List.sum_cons, List.sum_nil, zero_mul, mul_zero, zero_add, add_zero, sub_zero] at e
    constructor
    · refine d1.congr_deriv ?_
      rw [e, hp, hT]
      ring
    · refine d2.congr_deriv ?_
      rw [e, hp, hT]
      ring
  have := flowsWith_upstream hm up h
  rw [← this, neg_neg]

theorem twoWays_facts {m : Aquifer ℝ} {u : ℕ → ℝ} (hu : ∀ j, 0 ≤ u j ∧ u j < 1) (hl : m.wells.length = 1)
    (hw : ∃ d, m.wells[0]? = some ⟨1000, 1000, 1/4, d⟩ ∧ (Dist.const 0).sample (u 0) = .ok d) (hc : (Dist.tuple [5, 10, 20]).sample (u 1) = .ok m.conductivity)
    (hp : (Dist.const (1/4)).sample (u 2) = .ok m.porosity) (ht : (Dist.const 20).sample (u 3) = .ok m.thickness) :
    m.Physical ∧ m.porosity = 1/4 ∧ m.thickness = 20 ∧ m.wells = [⟨1000, 1000, 1/4, 0⟩] := by
  have hp := const_sample hp
  have ht := const_sample ht
  obtain ⟨d, hd, hd'⟩ := hw
  obtain rfl := const_sample hd'
  have hc' : 0 < m.conductivity := by
    obtain ⟨x, h1, h2⟩ := sample_ok (exampleCall_acceptable 100).cDist (exampleCall_denotes 100).cDist (exampleInputs_spread 100).1 (hu 1).1 (hu 1).2
    have h1 : (Dist.tuple [5, 10, 20]).sample (u 1) = .ok x := h1
    rw [hc] at h1
    obtain rfl := Except.ok.inj h1
    exact h2 (exampleInputs_regular 100).1
  refine ⟨⟨hc', by rw [hp]; norm_num, by rw [ht]; norm_num⟩, hp, ht, ?_⟩
  obtain ⟨w, hw⟩ := List.length_eq_one_iff.mp hl
  rw [hw] at hd ⊢
  rw [Option.some.inj hd]

/-- a particle does not change a coordinate in which it does not move -/
theorem carried_straight {m : Aquifer ℝ} {dir : ℝ × ℝ} (hv : ∀ p v, m.FlowsWith true p v → v = -dir) {γ : ℝ → ℝ × ℝ} {τ : ℝ} (h0 : 0 ≤ τ) (h : m.Carries true γ τ) :
    (dir.1 = 0 → (γ τ).1 = (γ 0).1) ∧ (dir.2 = 0 → (γ τ).2 = (γ 0).2) := by
  have hd : ∀ s ∈ Icc 0 τ, HasDerivAt γ (-dir) s := by
    intro s hs
    obtain ⟨v, h1, h2⟩ := h s hs.1 hs.2
    rwa [hv _ _ h1] at h2
  constructor
  · intro hz
    have d1 : ∀ s ∈ Icc 0 τ, HasDerivAt (fun s => (γ s).1) 0 s := fun s hs => by
      have := (ContinuousLinearMap.fst ℝ ℝ ℝ).hasFDerivAt.comp_hasDerivAt s (hd s hs)
      exact this.congr_deriv (by simp [hz])
    exact constant_of_has_deriv_right_zero (fun s hs => (d1 s hs).continuousAt.continuousWithinAt) (fun s hs => (d1 s ⟨hs.1, hs.2.le⟩).hasDerivWithinAt) τ ⟨h0, le_rfl⟩
  · intro hz
    have d1 : ∀ s ∈ Icc 0 τ, HasDerivAt (fun s => (γ s).2) 0 s := fun s hs => by
      have := (ContinuousLinearMap.snd ℝ ℝ ℝ).hasFDerivAt.comp_hasDerivAt s (hd s hs)
      exact this.congr_deriv (by simp [hz])
    exact constant_of_has_deriv_right_zero (fun s hs => (d1 s hs).continuousAt.continuousWithinAt) (fun s hs => (d1 s ⟨hs.1, hs.2.le⟩).hasDerivWithinAt) τ ⟨h0, le_rfl⟩

/-- **C131: recorded water need not reach the well.** A call that is accepted and returns, about a well that does not pump: in its archive the nodes 4 m east and 8 to 36 m north of the well have been captured in 50 of 100 realizations,
although in no realization any water within the umbra of such a node ever comes to the rim of the well. -/
theorem C131_misses (t : DateTime) : ∃ (d : Dict) (f : PField ℝ), (oneka idleWays (twoWaysEnv t)).ending = .returns .none ∧
    loadOneka ((oneka idleWays (twoWaysEnv t)).events.foldl Effect.apply fun _ => none) (twoWaysEnv t).now.archiveName = .ok d ∧ d.get "pfield" = some (.field (.field f)) ∧ f.total = 100 ∧
    ∀ p : ℤ, 2 ≤ p → p ≤ 9 → f.weightAt 1004 (1000 + p * 4) = 50 ∧
      ∀ L ∈ realizations (oneka idleWays (twoWaysEnv t)).events, ¬ L.model.Reaches true 3 1004 (1000 + p * 4) 1000 1000 (1/4) := by
  classical
  obtain ⟨d, f, k, w, h1, h2, h3, h4, h5⟩ := C95_call idleWays idleInputs (twoWaysEnv t) _ idleWays_denotes (idleWays_returns t) (fun _ => none) (D := 365) (tol := 1) (maxstep := 1/30) rfl rfl rfl
    (by norm_num) (by norm_num) (by norm_num) (fun _ _ _ => rfl)
  obtain ⟨d', f', obs, k', w', g1, g2, -, -, h6, h7, h8, h9, h10, -⟩ := C68_stochastic idleWays idleInputs (twoWaysEnv t) _ idleWays_denotes (by simp [idleInputs, twoWaysInputs, exampleInputs]) (idleWays_returns t) (fun _ => none)
  obtain rfl : d = d' := Except.ok.inj (h1.symm.trans g1)
  have hff : f = f' := by
    have := h2.symm.trans g2
    simpa using this
  obtain rfl : k = 0 := by
    have : (0:ℤ) = k := h3
    omega
  obtain rfl : k' = 0 := by
    have : (0:ℤ) = k' := h6
    omega
  obtain rfl : w = ⟨1000, 1000, 1/4, .const 0⟩ := (Option.some.inj h4).symm
  obtain rfl : w' = ⟨1000, 1000, 1/4, .const 0⟩ := (Option.some.inj h7).symm
  have hl : (realizations (oneka idleWays (twoWaysEnv t)).events).length = 2 * 50 := by
    have : ((realizations (oneka idleWays (twoWaysEnv t)).events).length : ℤ) = 100 := h8
    omega
  have key := h5 (1/5) (fun i _ => twoWaysPath i) (fun i L hL j hj => by
    obtain rfl : j = 0 := by
      have : (j:ℤ) < 1 := hj
      omega
    have R := h9 i L hL
    have := twoWays_model i (twoWays_draws t i) R.wells_length (R.wells 0 _ rfl) R.conductivity R.porosity R.thickness (Except.ok.inj R.coef).symm
    rw [← twoWays_start] at this
    exact this)
  rw [hl] at key
  have far : ∀ {P : ℝ × ℝ} {e X Y : ℝ}, euclid P (X, Y) < e → |X - P.1| < e ∧ |Y - P.2| < e := by
    intro P e X Y h
    have := (norm_le_euclid P (X, Y)).trans_lt h
    rw [Prod.norm_def, max_lt_iff] at this
    exact this
  refine ⟨d, f, idleWays_returns t, h1, h2, ?_, fun p p1 p2 => ⟨?_, fun L hL => ?_⟩⟩
  · rw [hff, h10]
    show (((100:ℤ)) : ℝ) = 100
    norm_num
  · have q1 : (2:ℝ) ≤ p := by exact_mod_cast p1
    have q2 : (p:ℝ) ≤ 9 := by exact_mod_cast p2
    obtain ⟨lo, hi⟩ := key 1 p (.inr (by show (3:ℝ) ≤ 4; norm_num)) 1004 (1000 + p * 4) (by show (1004:ℝ) = 1000 + (1:ℤ) * 4; norm_num) rfl
    have e1 : (List.range (2 * 50)).countP (fun i => decide (i % 2 = 1)) ≤ (List.range (2 * 50)).countP (fun i => decide (∃ j : ℕ, (j:ℤ) < idleInputs.run.npaths ∧
        Passes (twoWaysPath i) 365 (idleInputs.run.umbra - 1/5) 1004 (1000 + p * 4))) := by
      refine List.countP_mono_left fun i _ h => ?_
      rw [decide_eq_true_eq] at h ⊢
      refine ⟨0, Int.zero_lt_one, 40 * p, by linarith, by linarith, ?_⟩
      have : twoWaysPath i (40 * p) = ((1001.25 : ℝ), (1000 + p * 4 : ℝ)) := by
        unfold twoWaysPath twoWaysDir
        rw [if_neg (by omega)]
        refine Prod.ext ?_ ?_ <;> simp
        ring
      rw [this, show idleInputs.run.umbra - 1/5 = 14/5 by show (3:ℝ) - 1/5 = 14/5; norm_num]
      simp only [euclid]
      rw [Real.sqrt_lt' (by norm_num)]
      norm_num
    have e2 : (List.range (2 * 50)).countP (fun i => decide (∃ j : ℕ, (j:ℤ) < idleInputs.run.npaths ∧ Passes (twoWaysPath i) 365 (idleInputs.run.umbra + 1/5) 1004 (1000 + p * 4))) ≤
        (List.range (2 * 50)).countP (fun i => decide (i % 2 = 1)) := by
      refine List.countP_mono_left fun i _ h => ?_
      rw [decide_eq_true_eq] at h ⊢
      obtain ⟨-, -, s, s0, s1, h⟩ := h
      rw [show idleInputs.run.umbra + 1/5 = 16/5 by show (3:ℝ) + 1/5 = 16/5; norm_num] at h
      by_contra hn
      have := (far h).2
      simp only [twoWaysPath, twoWaysDir, if_pos (show i % 2 = 0 by omega)] at this
      have := (abs_lt.mp this).2
      simp at this
      linarith
    rw [(range_even 50).2] at e1 e2
    exact le_antisymm (hi.trans (by exact_mod_cast e2)) (le_trans (by exact_mod_cast e1) lo)
  · rintro ⟨γ, τ, t0, hγ, hd, hr⟩
    have q1 : (2:ℝ) ≤ p := by exact_mod_cast p1
    obtain ⟨i, hi⟩ := List.getElem?_of_mem hL
    have R := h9 i L hi
    obtain ⟨f1, f2, f3, f4⟩ := twoWays_facts (twoWays_draws t i) R.wells_length (R.wells 0 _ rfl) R.conductivity R.porosity R.thickness
    obtain ⟨s1, s2⟩ := carried_straight (fun p v h => twoWays_velocity i f1 f2 f3 f4 (Except.ok.inj R.coef).symm h) t0 hγ
    have n1 := far hd
    have n2 := (norm_le_euclid (γ τ) (1000, 1000)).trans hr
    rw [Prod.norm_def, max_le_iff, Real.norm_eq_abs, Real.norm_eq_abs, abs_le, abs_le] at n2
    simp only [Prod.fst_sub, Prod.snd_sub] at n2
    rw [abs_lt, abs_lt] at n1
    unfold twoWaysDir at s1 s2
    split_ifs at s1 s2 with hpar
    · have := s2 rfl
      linarith [n1.2.1, n1.2.2, n2.2.1, n2.2.2]
    · have := s1 rfl
      linarith [n1.1.1, n1.1.2, n2.1.1, n2.1.2]

/-- The call meets the hypotheses of `C131_archived`: every realization has exact pathlines that its traces follow within 1/5 m. -/
example (t : DateTime) : ∃ (d : Dict) (f : PField ℝ),
    loadOneka ((oneka twoWays (twoWaysEnv t)).events.foldl Effect.apply fun _ => none) (twoWaysEnv t).now.archiveName = .ok d ∧ d.get "pfield" = some (.field (.field f)) ∧
    ∀ p q : ℤ, 0 < f.weightAt (1000 + p * 4) (1000 + q * 4) → ∃ L ∈ realizations (oneka twoWays (twoWaysEnv t)).events,
      ∃ j : ℕ, L.model.Delivers true 365 (4 + 1/5) (1000 + p * 4) (1000 + q * 4) (SWell.start ⟨1000, 1000, 1/4, .const 0⟩ 1 j) := by
  classical
  obtain ⟨d, f, k, w, h1, h2, h3, h4, h5⟩ := C131_archived twoWays twoWaysInputs (twoWaysEnv t) _ twoWays_denotes (twoWays_returns t) (fun _ => none) (D := 365) (tol := 1) (maxstep := 1/30) (δ := 1/5) rfl rfl rfl
    (by norm_num) (by norm_num) (by norm_num) (fun _ _ _ => rfl)
  obtain ⟨-, -, obs, k', w', -, -, -, -, h6, h7, -, h9, -⟩ := C68_stochastic twoWays twoWaysInputs (twoWaysEnv t) _ twoWays_denotes (by simp [twoWaysInputs, exampleInputs]) (twoWays_returns t) (fun _ => none)
  obtain rfl : k = 0 := by
    have : (0:ℤ) = k := h3
    omega
  obtain rfl : k' = 0 := by
    have : (0:ℤ) = k' := h6
    omega
  obtain rfl : w = ⟨1000, 1000, 1/4, .const 0⟩ := (Option.some.inj h4).symm
  obtain rfl : w' = ⟨1000, 1000, 1/4, .const 0⟩ := (Option.some.inj h7).symm
  refine ⟨d, f, h1, h2, fun p q hpos => ?_⟩
  have key := (h5 (fun L hL j hj => by
    obtain ⟨i, hi⟩ := List.getElem?_of_mem hL
    obtain rfl : j = 0 := by
      have : (j:ℤ) < 1 := hj
      omega
    have R := h9 i L hi
    have := twoWays_model i (twoWays_draws t i) R.wells_length (R.wells 0 _ rfl) R.conductivity R.porosity R.thickness (Except.ok.inj R.coef).symm
    rw [← twoWays_start] at this
    exact ⟨_, this⟩) p q (.inr (le_refl (4:ℝ))) (1000 + p * 4) (1000 + q * 4) rfl rfl).2
  have hc := lt_of_lt_of_le hpos key
  rw [Nat.cast_pos, List.countP_pos_iff] at hc
  obtain ⟨L, hL, hh⟩ := hc
  simp only [decide_eq_true_eq] at hh
  obtain ⟨j, -, hj⟩ := hh
  exact ⟨L, hL, j, hj⟩

end Oneka
