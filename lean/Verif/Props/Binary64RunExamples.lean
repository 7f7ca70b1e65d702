import Verif.Props.Binary64Run
import Verif.Props.Binary64ZoneExamples
import Verif.Props.FlRunExamples
import Verif.Props.FlUtilitiesExamples

/-!
# Cases that meet the hypotheses of C126

Two levels in uniform flow, one trace from a well at `(3584, 4096)` whose discharge is distributed uniformly between -1 and 1.
-/

namespace Oneka
open PField Aquifer

/-- C126: three observations, a well and a buffer of 2 metres. -/
example : @LibObs.Accurate nearestObs ∧ (∀ o ∈ flThreeObs, o.Ordinary) ∧ flThreeObs.length ≤ 2 ^ 40 ∧ (∀ w ∈ [(flInt 0 (by norm_num), flInt 0 (by norm_num))], w.1.Ordinary ∧ w.2.Ordinary) ∧ (flInt 2 (by norm_num)).Ordinary := by
  have v : ∀ (n : ℤ) h, (flInt n h).val = n := fun _ _ => rfl
  have o : ∀ (n : ℤ) h, 1 ≤ n → n ≤ 100 → (flInt n h).Ordinary := by
    intro n h h1 h2
    have h1' : (1:ℝ) ≤ n := by exact_mod_cast h1
    have h2' : (n:ℝ) ≤ 100 := by exact_mod_cast h2
    refine .of_val (v n h) ?_ ?_
    · rw [abs_of_pos (by linarith)]; norm_num [_root_.zpow_neg]; linarith
    · rw [abs_of_pos (by linarith)]; norm_num; linarith
  have z : ∀ h, (flInt 0 h).Ordinary := fun h => Or.inl (by rw [v]; norm_num)
  refine ⟨nearestObs_accurate, ?_, by simp [flThreeObs], by simp only [List.mem_singleton]; rintro w rfl; exact ⟨z (by norm_num), z (by norm_num)⟩, o 2 _ (by norm_num) (by norm_num)⟩
  intro ob ho
  simp only [flThreeObs, List.mem_cons, List.not_mem_nil, or_false] at ho
  rcases ho with rfl | rfl | rfl
  · exact ⟨o _ (by norm_num) (by norm_num) (by norm_num), o _ (by norm_num) (by norm_num) (by norm_num), o _ (by norm_num) (by norm_num) (by norm_num), o _ (by norm_num) (by norm_num) (by norm_num), by rw [v]; norm_num⟩
  · exact ⟨o _ (by norm_num) (by norm_num) (by norm_num), o _ (by norm_num) (by norm_num) (by norm_num), o _ (by norm_num) (by norm_num) (by norm_num), o _ (by norm_num) (by norm_num) (by norm_num), by rw [v]; norm_num⟩
  · exact ⟨o _ (by norm_num) (by norm_num) (by norm_num), z (by norm_num), o _ (by norm_num) (by norm_num) (by norm_num), o _ (by norm_num) (by norm_num) (by norm_num), by rw [v]; norm_num⟩

/-- natural numbers of ordinary sizes -/
theorem ordinary_nat (n : ℕ) (h1 : 1 ≤ n) (h2 : n ≤ 2 ^ 40) : (Fl.of (n : ℕ)).Ordinary := by
  have h1' : (1:ℝ) ≤ n := by exact_mod_cast h1
  have h2' : (n:ℝ) ≤ 2 ^ 40 := by exact_mod_cast h2
  refine .of_val (of_nat (h2.trans (by norm_num))) ?_ ?_
  · rw [abs_of_pos (by linarith)]
    exact le_trans (by norm_num [_root_.zpow_neg]) h1'
  · rw [abs_of_pos (by linarith)]
    exact h2'.trans_eq (by norm_num)

theorem half_draw : (Fl.of (2 ^ (-1 : ℤ))).IsDraw := Or.inr ⟨by rw [of_pow]; exact two_zpow_le (by norm_num), by rw [of_pow]; norm_num⟩

theorem ordinary_neg_one : (-Fl.of (1 : ℕ)).Ordinary := by
  refine .of_val (r := -1) ?_ (by norm_num) (by norm_num)
  change -(Fl.of (1 : ℕ)).val = -1
  rw [of_nat (by norm_num)]; norm_num

theorem ordinary_quarter : (Fl.of (2 ^ (-2 : ℤ))).Ordinary := .of_val of_pow (by norm_num) (by norm_num)

/-- C126: a uniform and a triangular distribution. -/
example : (FlDist.pair (-Fl.of (1 : ℕ)) (Fl.of (1 : ℕ))).Ordinary ∧ (FlDist.triple (Fl.of (10 : ℕ)) (Fl.of (20 : ℕ)) (Fl.of (30 : ℕ))).Ordinary ∧ (Fl.of (2 ^ (-1 : ℤ))).IsDraw :=
  ⟨⟨ordinary_neg_one, ordinary_nat 1 (by norm_num) (by norm_num)⟩, ⟨ordinary_nat 10 (by norm_num) (by norm_num), ordinary_nat 20 (by norm_num) (by norm_num), ordinary_nat 30 (by norm_num) (by norm_num)⟩, half_draw⟩

/-! ## The run -/

noncomputable def streamCoef (i : Fin 6) : Fl := if i = 3 then Fl.of (1 : ℕ) else 0

/-- As `drift`, with a well that happens not to be pumped. -/
noncomputable def stream : Aquifer Fl :=
  ⟨0, Fl.of (1 : ℕ), Fl.of (2 ^ (-2 : ℤ)), Fl.of (4 : ℕ), [⟨Fl.of (3584 : ℕ), Fl.of (4096 : ℕ), Fl.of (511 : ℕ), 0⟩], Fl.of (3584 : ℕ), Fl.of (4096 : ℕ), streamCoef⟩

noncomputable def streamReal : Aquifer ℝ := ⟨0, 1, 1/4, 4, [⟨3584, 4096, 511, 0⟩], 3584, 4096, fun i => if i = 3 then 1 else 0⟩

theorem stream_exact : stream.exact = streamReal := by
  have h1 := of_nat (n := 1) (by norm_num)
  have h2 := of_nat (n := 4) (by norm_num)
  have h3 := of_nat (n := 3584) (by norm_num)
  have h4 := of_nat (n := 4096) (by norm_num)
  have h6 := of_nat (n := 511) (by norm_num)
  have h5 := of_pow (k := -2)
  have e5 : (2:ℝ) ^ (-2 : ℤ) = 1/4 := by norm_num [_root_.zpow_neg]
  unfold Aquifer.exact stream streamReal
  simp only [List.map_nil, List.map_cons]
  rw [h1, h2, h3, h4, h5, h6, e5, Fl.zero_val, Nat.cast_one, Nat.cast_ofNat, Nat.cast_ofNat, Nat.cast_ofNat, Nat.cast_ofNat]
  congr 1
  funext i
  unfold streamCoef
  split_ifs
  · simpa using h1
  · exact Fl.zero_val

theorem streamCoef_ordinary (i : Fin 6) : (streamCoef i).Ordinary := by
  unfold streamCoef
  split_ifs
  · exact ordinary_nat 1 (by norm_num) (by norm_num)
  · exact Fl.Ordinary.zero

theorem stream_ordinary : stream.Ordinary := by
  have h1 := of_nat (n := 1) (by norm_num)
  have h2 := of_nat (n := 4) (by norm_num)
  have h5 := of_pow (k := -2)
  have o := ordinary_nat
  refine ⟨⟨o 1 (by norm_num) (by norm_num), ?_⟩, ⟨ordinary_quarter, ?_⟩, ⟨o 4 (by norm_num) (by norm_num), ?_⟩, o 3584 (by norm_num) (by norm_num), o 4096 (by norm_num) (by norm_num), streamCoef_ordinary, ?_, ?_⟩
  · show 0 < (Fl.of (1 : ℕ)).val
    rw [h1]; norm_num
  · show 0 < (Fl.of (2 ^ (-2 : ℤ))).val
    rw [h5]; positivity
  · show 0 < (Fl.of (4 : ℕ)).val
    rw [h2]; norm_num
  · intro w hw
    obtain rfl := List.mem_singleton.mp hw
    exact ⟨o 3584 (by norm_num) (by norm_num), o 4096 (by norm_num) (by norm_num), Fl.Ordinary.zero⟩
  · simp [stream]

theorem stream_upstream : stream.exact.Upstream true fun _ => (1, 0) := by
  rw [stream_exact]
  intro x y b hoff hs
  obtain ⟨d1, d2⟩ := C29_partials _ x y hoff
  simp only [Saturated, if_true] at hs
  subst hs
  constructor
  · refine d1.congr_deriv ?_
    rw [discharge_eq]
    simp [streamReal]
  · refine d2.congr_deriv ?_
    rw [discharge_eq]
    simp [streamReal]

theorem stream_follows : letI := nearestLib
    OrdinaryFollows stream true (Fl.of (4096 : ℕ), Fl.of (4096 : ℕ)) (Fl.of (100 : ℕ)) (Fl.of (1 : ℕ)) (Fl.of (1 : ℕ)) 5000 5000 8 driftPath := by
  let _ := nearestLib
  have a : (Fl.of (4096 : ℕ)).val = 4096 := by rw [of_nat (by norm_num)]; norm_num
  have b : (Fl.of (100 : ℕ)).val = 100 := by rw [of_nat (by norm_num)]; norm_num
  have c : (Fl.of (1 : ℕ)).val = 1 := by rw [of_nat (by norm_num)]; norm_num
  have e0 : fv (Fl.of (4096 : ℕ), Fl.of (4096 : ℕ)) = (4096, 4096) := by unfold fv; rw [a]
  have hT : (100:ℝ) * (1 + ((40000 : ℕ) + 1) * (2:ℝ) ^ (-52 : ℤ)) ≤ 101 := by norm_num [_root_.zpow_neg]
  have hexp : ∀ T : ℝ, T ≤ 101 → Real.exp (1/10000 * T) ≤ 1 + 103/10000 := by
    intro T hT
    have h := Real.exp_bound' (x := 101/10000) (by norm_num) (by norm_num) (n := 2) (by norm_num)
    have h' : Real.exp (1/10000 * T) ≤ Real.exp (101/10000) := Real.exp_le_exp.mpr (by linarith)
    refine (h'.trans h).trans ?_
    simp [Finset.sum_range_succ, Nat.factorial]
    norm_num
  refine ⟨fun _ => (1, 0), 1/10000, 1, 2, 60, 4200, 1/10000000000, _, _, _, _, _, 40000, {
    η_eq := rfl
    μ_eq := rfl
    mm_eq := rfl
    T_eq := rfl
    E_eq := rfl
    physical := ⟨stream_ordinary.conductivity.2, stream_ordinary.porosity.2, stream_ordinary.thickness.2⟩
    upstream := stream_upstream
    exact := ?_
    bounded := ?_
    within := ?_
    moderate := ⟨by
        intro a _ b _
        rw [sub_self, norm_zero]
        positivity, by intro a _; rw [Prod.norm_def]; norm_num⟩
    flow := ?_
    D_pos := by rw [b]; norm_num
    D_le := by rw [b]; norm_num
    tol_ge := by rw [c]; norm_num [_root_.zpow_neg]
    maxstep_ge := by rw [c]; norm_num [_root_.zpow_neg]
    tol_way := by rw [b, c]; norm_num
    maxstep_way := by rw [b, c]; norm_num
    near := by rw [e0, c, Prod.norm_def]; norm_num
    L_pos := by norm_num
    M_nonneg := by norm_num
    H_ge := by norm_num
    ν_nonneg := by norm_num
    ρ_nonneg := by norm_num
    H_le := by norm_num
    wide := ?_
    fast := by intro q _; rw [c, Prod.norm_def]; norm_num
    fine := by rw [c]; norm_num [_root_.zpow_neg]
    steps := by rw [b, c]; norm_num
    precision := ?_
    moves := ?_ }, ?_, by norm_num⟩
  · rw [e0]
    refine ⟨by norm_num [driftPath], fun t _ _ => ?_⟩
    exact ((hasDerivAt_id t).const_add 4096).prodMk (hasDerivAt_const t (4096:ℝ))
  · intro t t0 tT
    rw [b] at tT
    refine (Prod.norm_def _).trans_le (max_le ?_ ?_)
    · simp only [driftPath]; rw [Real.norm_eq_abs, abs_of_nonneg (by linarith)]; linarith
    · simp only [driftPath]; rw [Real.norm_eq_abs]; norm_num
  · intro q hq
    rw [b] at hq
    obtain ⟨q1, q2⟩ := drift_tube hT hq
    have q1 := abs_le.mp q1
    have q2 := abs_le.mp q2
    exact ⟨abs_le.mpr ⟨by linarith, by linarith⟩, abs_le.mpr ⟨by linarith, by linarith⟩⟩
  · intro q hq
    rw [b] at hq
    obtain ⟨q1, -⟩ := drift_tube hT hq
    have q1 := abs_le.mp q1
    rw [stream_exact]
    have hdt : streamReal.dischargeTerms q.1 q.2 = 1 := by
      unfold dischargeTerms
      simp [streamReal]
    refine ⟨?_, ?_, 4, by simp [Saturated, streamReal], ?_⟩
    · simp only [OffWells, streamReal, List.mem_singleton]
      rintro w rfl e
      have h1 : q.1 = 3584 := (Prod.mk.inj e).1
      linarith
    · simp only [condition, if_true]; norm_num [_root_.zpow_neg, stream]
    · rw [hdt]
      simp only [condition, if_true]
      norm_num [_root_.zpow_neg, stream, streamReal]
  · rw [b, c]
    have h := hexp _ hT
    have h0 := Real.exp_pos (1/10000 * (100 * (1 + ((40000 : ℕ) + 1) * (2:ℝ) ^ (-52 : ℤ))))
    set E := Real.exp (1/10000 * (100 * (1 + ((40000 : ℕ) + 1) * (2:ℝ) ^ (-52 : ℤ))))
    norm_num [_root_.zpow_neg]
    linarith
  · rw [b, c]
    have h := hexp _ hT
    have h0 := Real.exp_pos (1/10000 * (100 * (1 + ((40000 : ℕ) + 1) * (2:ℝ) ^ (-52 : ℤ))))
    set E := Real.exp (1/10000 * (100 * (1 + ((40000 : ℕ) + 1) * (2:ℝ) ^ (-52 : ℤ))))
    norm_num [_root_.zpow_neg]
    linarith
  · refine ⟨100, by norm_num, by rw [b], ?_⟩
    refine le_trans ?_ (norm_fst_le _)
    simp only [driftPath, Prod.fst_sub]
    norm_num
  · intro q hq
    rw [b] at hq
    obtain ⟨q1, q2⟩ := drift_tube hT hq
    have q1 := abs_le.mp q1
    have q2 := abs_le.mp q2
    rw [abs_of_pos (by linarith), abs_of_pos (by linarith)]
    norm_num
    refine ⟨⟨?_, ?_⟩, ?_, ?_⟩ <;> linarith

/-- two levels -/
noncomputable def streamObs : List FlObs :=
  [⟨Fl.of (4160 : ℕ), Fl.of (4096 : ℕ), Fl.of (10 : ℕ), Fl.of (1 : ℕ)⟩, ⟨Fl.of (4160 : ℕ), Fl.of (4160 : ℕ), Fl.of (10 : ℕ), Fl.of (1 : ℕ)⟩]

/-- the target -/
noncomputable def streamWell : FlSWell := ⟨Fl.of (3584 : ℕ), Fl.of (4096 : ℕ), Fl.of (511 : ℕ), .pair (-Fl.of (1 : ℕ)) (Fl.of (1 : ℕ))⟩

/-- the arguments of the run -/
noncomputable def streamArgs : FlRunArgs where
  target := 0
  npaths := 1
  duration := Fl.of (100 : ℕ)
  base := 0
  cDist := .const (Fl.of (1 : ℕ))
  pDist := .const (Fl.of (2 ^ (-2 : ℤ)))
  tDist := .const (Fl.of (4 : ℕ))
  wells := [streamWell]
  obs := streamObs
  spacing := Fl.of (50 : ℕ)
  umbra := Fl.of (20 : ℕ)
  confined := true
  tol := Fl.of (1 : ℕ)
  maxstep := Fl.of (1 : ℕ)

/-- the draw 1/2 gives no discharge -/
theorem stream_sample : streamWell.q.sample (Fl.of (2 ^ (-1 : ℤ))) = .ok 0 := by
  refine congrArg Except.ok (Fl.ext' ?_)
  have r1 := of_nat (n := 1) (by norm_num)
  have rh := of_pow (k := -1)
  have eh : (2:ℝ) ^ (-1 : ℤ) = 1/2 := by norm_num
  have vs : ∀ a b : Fl, (a - b).val = round53 (a.val - b.val) := fun _ _ => rfl
  have neg : ∀ a : Fl, (-a).val = -a.val := fun _ => rfl
  have a1 : round53 (1 - -1) = 2 := round_nat 2 (by norm_num) (by norm_num) (by norm_num)
  have a2 : round53 (2 * (1/2)) = 1 := round_nat 1 (by norm_num) (by norm_num) (by norm_num)
  unfold flUniform
  rw [Fl.val_add, Fl.val_mul, vs, neg, r1, rh, eh, Nat.cast_one, a1, a2, neg_add_cancel, round53_zero]
  exact Fl.zero_val.symm

/-- A solver with one answer, with unlimited exponents and in binary64. -/
noncomputable def streamSolver : FlLinAlg := ⟨fun _ => .ok streamCoef, fun _ _ _ => 0, fun A => .ok A⟩

noncomputable def streamSolver64 : B64LinAlg := ⟨fun _ => .ok fun i => (streamCoef i).to64, fun _ _ _ => (0 : Fl).to64, fun A => .ok A⟩

theorem streamSolver_extends : streamSolver64.Extends streamSolver where
  lstsq _ _ _ := fun i => (streamCoef_ordinary i).same.1
  inverse _ _ _ := fun _ _ => Fl.Ordinary.zero.same.1

theorem streamArgs_ordinary : streamArgs.Ordinary := by
  have o := ordinary_nat
  have v : ∀ n : ℕ, n ≤ 2 ^ 53 → (Fl.of (n : ℕ)).val = n := fun n h => of_nat h
  refine ⟨by simp [streamArgs], ⟨o 100 (by norm_num) (by norm_num), ?_⟩, ⟨o 1 (by norm_num) (by norm_num), ?_⟩, ⟨o 1 (by norm_num) (by norm_num), ?_⟩, Fl.Ordinary.zero, o 50 (by norm_num) (by norm_num),
    o 20 (by norm_num) (by norm_num), ⟨o 1 (by norm_num) (by norm_num), ordinary_quarter, o 4 (by norm_num) (by norm_num)⟩, ?_, by simp [streamArgs], ?_, ?_⟩
  · change 0 < (Fl.of (100 : ℕ)).val
    rw [v _ (by norm_num)]; norm_num
  · change 0 < (Fl.of (1 : ℕ)).val
    rw [v _ (by norm_num)]; norm_num
  · change 0 < (Fl.of (1 : ℕ)).val
    rw [v _ (by norm_num)]; norm_num
  · intro w hw
    obtain rfl := List.mem_singleton.mp hw
    exact ⟨o 3584 (by norm_num) (by norm_num), o 4096 (by norm_num) (by norm_num), o 511 (by norm_num) (by norm_num), ordinary_neg_one, o 1 (by norm_num) (by norm_num)⟩
  · intro ob ho
    simp only [streamArgs, streamObs, List.mem_cons, List.not_mem_nil, or_false] at ho
    rcases ho with rfl | rfl <;>
      refine ⟨o 4160 (by norm_num) (by norm_num), o _ (by norm_num) (by norm_num), o 10 (by norm_num) (by norm_num), o 1 (by norm_num) (by norm_num), ?_⟩ <;>
      · rw [v _ (by norm_num)]; norm_num
  · intro ob ho w hw e
    obtain rfl := List.mem_singleton.mp hw
    simp only [streamArgs, streamObs, List.mem_cons, List.not_mem_nil, or_false] at ho
    have := (Prod.mk.inj e).1
    rcases ho with rfl | rfl <;>
      · simp only [streamWell] at this
        rw [v _ (by norm_num), v _ (by norm_num)] at this
        norm_num at this

/-- the weighted system of the two levels exists, for each model with this aquifer -/
theorem stream_rows : letI := nearestLib; letI := nearestObs
    ∃ rows, stream.flConstructFit (Fl.of (3584 : ℕ)) (Fl.of (4096 : ℕ)) streamObs = .ok rows := by
  let _ := nearestLib
  let _ := nearestObs
  have row : ∀ o ∈ streamObs, ∃ r, stream.flFitRow (Fl.of (3584 : ℕ)) (Fl.of (4096 : ℕ)) o = .ok r := by
    intro o ho
    have hz : o.z = Fl.of (10 : ℕ) := by
      simp only [streamObs, List.mem_cons, List.not_mem_nil, or_false] at ho
      rcases ho with rfl | rfl <;> rfl
    have hh : stream.thickness ≤ o.z - stream.base := by
      change (Fl.of (4 : ℕ)).val ≤ (o.z - 0).val
      have : (o.z - 0).val = round53 (o.z.val - (0 : Fl).val) := rfl
      rw [this, hz, of_nat (by norm_num), of_nat (n := 10) (by norm_num), Fl.zero_val, sub_zero, round_nat 10 (by norm_num) rfl rfl]
      norm_num
    unfold flFitRow flFosm
    simp only [if_pos hh]
    exact ⟨_, if_neg (by simp [stream])⟩
  obtain ⟨r1, h1⟩ := row _ (List.mem_cons_self ..)
  obtain ⟨r2, h2⟩ := row _ (List.mem_cons_of_mem _ (List.mem_cons_self ..))
  refine ⟨[r1, r2], ?_⟩
  simp only [streamObs, flConstructFit, h1, h2]

theorem stream_drawn {c p t : Fl} {qs : List Fl} (h : streamArgs.Drawn (fun _ => Fl.of (2 ^ (-1 : ℤ))) c p t qs) : OrdinaryDraw c p t qs := by
  obtain ⟨h1, h2, h3, h4, h5⟩ := h
  have o := ordinary_nat
  obtain rfl := Except.ok.inj h3
  obtain rfl := Except.ok.inj h4
  obtain rfl := Except.ok.inj h5
  obtain ⟨q, rfl⟩ := List.length_eq_one_iff.mp h1
  have hq := h2 0 _ _ rfl rfl
  refine ⟨⟨o 1 (by norm_num) (by norm_num), by rw [of_nat (by norm_num)]; norm_num⟩, ⟨ordinary_quarter, by rw [of_pow]; positivity⟩, ⟨o 4 (by norm_num) (by norm_num), by rw [of_nat (by norm_num)]; norm_num⟩, ?_⟩
  intro q' hq'
  obtain rfl := List.mem_singleton.mp hq'
  rw [stream_sample] at hq
  rw [← Except.ok.inj hq]
  exact Fl.Ordinary.zero

theorem stream_realized : letI := nearestLib; letI := nearestObs
    streamArgs.Realized streamSolver streamWell (fun _ => Fl.of (2 ^ (-1 : ℤ))) (fun ev _ => .ok ev) stream := by
  let _ := nearestLib
  let _ := nearestObs
  obtain ⟨rows, hr⟩ := stream_rows
  refine ⟨rfl, rfl, ?_, rfl, rfl, rfl, ⟨rfl, rfl⟩, streamCoef, fun _ _ => 0, ?_, rfl⟩
  · intro j s v hs hv
    have hj : j = 0 := by
      have := (List.getElem?_eq_some_iff.mp hs).1
      simpa [streamArgs] using this
    subst hj
    simp only [streamArgs, stream, List.getElem?_cons_zero, Option.some.injEq] at hs hv
    subst hs hv
    exact ⟨rfl, rfl, rfl, stream_sample⟩
  · change (stream.flFitRegionalFlow streamSolver streamObs (Fl.of (3584 : ℕ)) (Fl.of (4096 : ℕ))).2 = _
    rw [flFit_snd, hr]
    rfl

/-- the only starting point -/
theorem stream_start : letI := nearestLib
    TrigRange 1 ∧ ∀ (j : ℕ) (θ : Fl), (flAngles 1)[j]? = some θ → flStart (Fl.of (3584 : ℕ)) (Fl.of (4096 : ℕ)) (Fl.of (511 : ℕ)) θ = (Fl.of (4096 : ℕ), Fl.of (4096 : ℕ)) := by
  let _ := nearestLib
  have c : (Fl.of (511 : ℕ)).val = 511 := by rw [of_nat (by norm_num)]; norm_num
  have x : (Fl.of (3584 : ℕ)).val = 3584 := by rw [of_nat (by norm_num)]; norm_num
  have y : (Fl.of (4096 : ℕ)).val = 4096 := by rw [of_nat (by norm_num)]; norm_num
  have z : (0 : Fl).val = 0 := Fl.zero_val
  have hcos : ∀ θ : Fl, θ.val = 0 → (LibM.cos θ).val = 1 := by
    intro θ hθ
    change round53 (Real.cos θ.val) = 1
    rw [hθ, Real.cos_zero]
    have := Fl.of_nat 1 (by norm_num)
    simpa [Fl.of] using this
  have hsin : ∀ θ : Fl, θ.val = 0 → (LibM.sin θ).val = 0 := by
    intro θ hθ
    change round53 (Real.sin θ.val) = 0
    rw [hθ, Real.sin_zero, round53_zero]
  have hstart : ∀ θ : Fl, θ.val = 0 → flStart (Fl.of (3584 : ℕ)) (Fl.of (4096 : ℕ)) (Fl.of (511 : ℕ)) θ = (Fl.of (4096 : ℕ), Fl.of (4096 : ℕ)) := by
    intro θ hθ
    have two : round53 512 = 512 := round_nat 512 (by norm_num) (by norm_num) (by norm_num)
    have r : round53 4096 = 4096 := by
      have := Fl.of_nat 4096 (by norm_num)
      simpa [Fl.of] using this
    unfold flStart
    refine Prod.ext (Fl.ext' ?_) (Fl.ext' ?_)
    · dsimp only
      rw [Fl.val_add, Fl.val_mul, Fl.val_add, one_fl, hcos θ hθ, c, x, y, show (511:ℝ) + 1 = 512 by norm_num, two, mul_one, two, show (512:ℝ) + 3584 = 4096 by norm_num, r]
    · dsimp only
      rw [Fl.val_add, Fl.val_mul, hsin θ hθ, mul_zero, round53_zero, y, zero_add, r]
  have hangle : ∀ (j : ℕ) (θ : Fl), (flAngles 1)[j]? = some θ → j = 0 ∧ θ.val = 0 := by
    intro j θ hθ
    have hj : j < 1 := by
      have := (List.getElem?_eq_some_iff.mp hθ).1
      rwa [flAngles_length] at this
    obtain rfl : j = 0 := by omega
    refine ⟨rfl, ?_⟩
    rw [angle_get 1 0 (by norm_num)] at hθ
    rw [← Option.some.inj hθ, Fl.val_add, Fl.val_mul, z, add_zero]
    have : ((0 : ℕ) : Fl).val = 0 := by
      have := Fl.of_nat 0 (by norm_num)
      simp only [Nat.cast_zero] at this
      change (Fl.of ((0:ℕ):ℝ)).val = 0
      rw [Nat.cast_zero]; exact this
    rw [this, zero_mul, round53_zero, round53_zero]
  have hr : TrigRange 1 := by
    intro θ hθ
    obtain ⟨j, hj⟩ := List.mem_iff_getElem?.mp hθ
    have h0 := (hangle j θ hj).2
    rw [hcos θ h0, hsin θ h0]
    refine ⟨Or.inr ⟨?_, by norm_num⟩, Or.inl rfl⟩
    rw [abs_one]
    exact (two_zpow_le (by norm_num : (-100 : ℤ) ≤ 0)).trans_eq (by norm_num)
  exact ⟨hr, fun j θ hθ => hstart θ (hangle j θ hθ).2⟩

open Classical in
/-- C126: three realizations, all draws 1/2 and the coefficients drawn the expected ones, in binary64 arithmetic: total weight 3, all of it at the node at `(4134, 4096)`, and nothing 50 m beside it. -/
example : letI := nearestLib; letI := nearestObs
    ∃ c f, b64CreateStochastic streamArgs.to64 3 streamSolver64 (fun _ _ => (Fl.of (2 ^ (-1 : ℤ))).to64) (fun _ ev _ => .ok ev) = some (.ok c) ∧ PField.Is64 c f ∧ f.exact.total = 3 ∧
      f.exact.weightAt 4134 4096 = 3 ∧ f.exact.weightAt 4134 4146 = 0 := by
  let _ := nearestLib
  let _ := nearestObs
  have b : (Fl.of (100 : ℕ)).val = 100 := by rw [of_nat (by norm_num)]; norm_num
  have o : (Fl.of (1 : ℕ)).val = 1 := by rw [of_nat (by norm_num)]; norm_num
  have x : (Fl.of (3584 : ℕ)).val = 3584 := by rw [of_nat (by norm_num)]; norm_num
  have y : (Fl.of (4096 : ℕ)).val = 4096 := by rw [of_nat (by norm_num)]; norm_num
  have u : (Fl.of (20 : ℕ)).val = 20 := by rw [of_nat (by norm_num)]; norm_num
  have d : (Fl.of (50 : ℕ)).val = 50 := by rw [of_nat (by norm_num)]; norm_num
  have hmem : ∀ (i : ℕ) (m : Aquifer Fl), (List.replicate 3 stream)[i]? = some m → m = stream := fun i m hm => List.eq_of_mem_replicate (List.mem_of_getElem? hm)
  obtain ⟨c', f, h1, h0, h2, h3⟩ := C126_frequencies (X := ⟨0, 1, 5000⟩) (Y := ⟨0, 1, 5000⟩) (S := 20) (η := 1/1000) (δ := 8) nearestLib_log nearestLib_root nearestLib_trig nearestObs_accurate streamArgs_ordinary
    stream_start.1 3 streamSolver_extends (u := fun _ _ => Fl.of (2 ^ (-1 : ℤ))) (fun _ _ => half_draw) (mvn64 := fun _ ev _ => .ok ev) (mvn := fun _ ev _ => .ok ev) (fun _ _ _ _ _ h _ => h)
    (fun _ _ _ _ _ _ h => stream_drawn h) streamWell ⟨0, rfl, .inl rfl⟩ (by change 0 < (Fl.of (50 : ℕ)).val; rw [d]; norm_num)
    (by change Axis.Fits _ (Fl.of (3584 : ℕ)).val (Fl.of (50 : ℕ)).val; rw [d, x]; exact ⟨⟨3584, by norm_num⟩, ⟨25, by norm_num⟩, by norm_num, by norm_num, by norm_num, by norm_num⟩)
    (by change Axis.Fits _ (Fl.of (4096 : ℕ)).val (Fl.of (50 : ℕ)).val; rw [d, y]; exact ⟨⟨4096, by norm_num⟩, ⟨25, by norm_num⟩, by norm_num, by norm_num, by norm_num, by norm_num⟩)
    (by norm_num) (by change _ ≤ (Fl.of (20 : ℕ)).val; rw [u]; norm_num) (by change (Fl.of (20 : ℕ)).val ≤ _; rw [u]) (by change 2 * (Fl.of (1 : ℕ)).val ≤ _; rw [o]; norm_num)
    (by change _ ≤ (Fl.of (20 : ℕ)).val * _; rw [u]; norm_num [_root_.zpow_neg]) (List.replicate 3 stream) (by simp) (by simp) (fun i m hm => by rw [hmem i m hm]; exact stream_realized)
    (fun m hm => by rw [List.eq_of_mem_replicate hm]; exact streamCoef_ordinary) (fun _ _ => driftPath) (fun i m hm j θ hθ => by
      rw [hmem i m hm]
      change OrdinaryFollows _ true (flStart (Fl.of (3584 : ℕ)) (Fl.of (4096 : ℕ)) (Fl.of (511 : ℕ)) θ) _ _ _ _ _ _ _
      rw [stream_start.2 j θ hθ]
      exact stream_follows)
  have e1 : streamArgs.umbra.val = 20 := u
  have e2 : streamArgs.spacing.val = 50 := d
  have e3 : streamWell.xw.val = 3584 := x
  have e4 : streamWell.yw.val = 4096 := y
  have e5 : streamArgs.duration.val = 100 := b
  have e6 : streamArgs.npaths = 1 := rfl
  rw [e1, e2, e3, e4, e5, e6, show Int.toNat 3 = 3 from rfl] at h3
  refine ⟨c', f, h1, h0, by rw [h2, show Int.toNat 3 = 3 from rfl]; norm_num, ?_, ?_⟩
  · obtain ⟨w1, w2⟩ := h3 11 0 (.inr (by norm_num)) 4134 4096 (by norm_num) (by norm_num)
    refine le_antisymm (w2.trans ((Nat.cast_le.mpr List.countP_le_length).trans (by simp))) (le_trans ?_ w1)
    rw [List.countP_eq_length.mpr]
    · simp
    · intro i _
      simp only [decide_eq_true_eq]
      refine ⟨0, by norm_num, 38, by norm_num, by norm_num, ?_⟩
      unfold euclid driftPath
      norm_num
  · obtain ⟨w1, w2⟩ := h3 11 1 (.inr (by norm_num)) 4134 4146 (by norm_num) (by norm_num)
    have hc1 : ((List.range 3).countP fun i => ∃ j, j < 1 ∧ Passes ((fun _ _ => driftPath : ℕ → ℕ → ℝ → ℝ × ℝ) i j) 100 (20 + 1/1000 + 8) 4134 4146) = 0 := by
      refine List.countP_eq_zero.mpr fun i _ => ?_
      simp only [decide_eq_true_eq]
      rintro ⟨j, -, t, -, -, ht⟩
      unfold euclid driftPath at ht
      rw [Real.sqrt_lt' (by norm_num)] at ht
      simp only at ht
      nlinarith [sq_nonneg (4134 - (4096 + t))]
    rw [hc1] at w2
    have w3 := (Nat.cast_nonneg _).trans w1
    push_cast at w2
    exact le_antisymm w2 w3

/-- C126: the fit of this run. -/
example : letI := nearestLib; letI := nearestObs
    stream.Ordinary ∧ stream.base.Ordinary ∧ streamSolver64.Extends streamSolver ∧ (∀ o ∈ streamObs, o.Ordinary) ∧ (∀ o ∈ streamObs, stream.exact.OffWells o.x.val o.y.val) ∧
      ∃ c, (stream.flFitRegionalFlow streamSolver streamObs (Fl.of (3584 : ℕ)) (Fl.of (4096 : ℕ))).2 = .ok c := by
  let _ := nearestLib
  let _ := nearestObs
  obtain ⟨rows, hr⟩ := stream_rows
  refine ⟨stream_ordinary, Fl.Ordinary.zero, streamSolver_extends, streamArgs_ordinary.obs, fun o ho => ?_, (streamCoef, fun _ _ => 0), ?_⟩
  · have := streamArgs_ordinary.away o ho streamWell (List.mem_singleton_self _)
    rw [stream_exact]
    simp only [OffWells, streamReal, List.mem_singleton]
    rintro w rfl
    simp only [streamWell] at this
    rw [of_nat (by norm_num), of_nat (n := 4096) (by norm_num)] at this
    simpa using this
  · rw [flFit_snd, hr]
    rfl

/-- C126: the deterministic run with these arguments. -/
example : letI := nearestLib; letI := nearestObs
    OrdinaryDraw streamArgs.cDist.mean streamArgs.pDist.mean streamArgs.tDist.mean (streamArgs.wells.map fun w => w.q.mean) ∧
      ∀ w m ev cov, streamArgs.IsTarget w → streamArgs.meanModel.flFitRegionalFlow streamSolver streamArgs.obs w.xw w.yw = (m, .ok (ev, cov)) → streamArgs.Stays w m := by
  let _ := nearestLib
  let _ := nearestObs
  have o := ordinary_nat
  have e3 : streamWell.q.mean = 0 := by
    refine Fl.ext' ?_
    have vd : ∀ a b : Fl, (a / b).val = round53 (a.val / b.val) := fun _ _ => rfl
    have neg : ∀ a : Fl, (-a).val = -a.val := fun _ => rfl
    unfold FlDist.mean streamWell
    simp only
    rw [vd, Fl.val_add, neg, neg_add_cancel, round53_zero, zero_div, round53_zero, Fl.zero_val]
  refine ⟨⟨⟨o 1 (by norm_num) (by norm_num), ?_⟩, ⟨ordinary_quarter, ?_⟩, ⟨o 4 (by norm_num) (by norm_num), ?_⟩, ?_⟩, ?_⟩
  · change 0 < (Fl.of (1 : ℕ)).val
    rw [of_nat (by norm_num)]; norm_num
  · change 0 < (Fl.of (2 ^ (-2 : ℤ))).val
    rw [of_pow]; positivity
  · change 0 < (Fl.of (4 : ℕ)).val
    rw [of_nat (by norm_num)]; norm_num
  · intro q hq
    obtain rfl : q = streamWell.q.mean := by simpa [streamArgs] using hq
    rw [e3]
    exact Fl.Ordinary.zero
  · intro w m ev cov hw h
    obtain rfl : w = streamWell := Except.ok.inj ((flGetWell_iff.mpr hw).symm.trans (flGetWell_iff.mpr (⟨0, rfl, .inl rfl⟩ : streamArgs.IsTarget streamWell)))
    have hm := flFit_ok (congrArg Prod.snd h)
    have hev : ev = streamCoef := by
      have := congrArg Prod.snd h
      rw [flFit_snd] at this
      revert this
      cases streamArgs.meanModel.flConstructFit streamWell.xw streamWell.yw streamArgs.obs with
      | error e => intro h; cases h
      | ok rows =>
        intro h
        exact (Prod.mk.inj (Except.ok.inj h)).1.symm
    rw [h] at hm
    obtain rfl : m = stream := by
      rw [(Prod.mk.inj hm).1, hev]
      simp only [FlRunArgs.meanModel, streamArgs, List.map_cons, List.map_nil, e3, stream]
      rfl
    refine ⟨streamCoef_ordinary, fun θ hθ => ?_⟩
    obtain ⟨j, hj⟩ := List.mem_iff_getElem?.mp hθ
    have hf := stream_follows
    obtain ⟨f, L, M, H, ρ, R, ν, η, μ, mm, T, E, N, h, hp, hM⟩ := hf
    have k := stays_in_tube nearestLib_log nearestLib_root h hp hM
    rw [← stream_start.2 j θ hj] at k
    exact ⟨_, _, k⟩

/-- C126: the report on a field of two nodes with the weights 1 and 3 of 3. -/
example : ∃ (c : PField B64) (f : PField Fl), PField.Is64 c f ∧ (Fl.of (50 : ℕ)).Ordinary ∧ (∃ b, f.body = some b ∧ ¬b.totalWeight ≤ 0) ∧
    ∀ b, f.body = some b → b.totalWeight.Ordinary ∧ (∀ i j, i < b.pgrid.rows → j < b.pgrid.cols → (b.pgrid.val i j).Ordinary) ∧ b.pgrid.rows * b.pgrid.cols ≤ 2 ^ 40 := by
  have o := ordinary_nat
  have s : ∀ n : ℕ, 1 ≤ n → n ≤ 2 ^ 40 → Is64 (Fl.of (n : ℕ)).to64 (Fl.of (n : ℕ)) := fun n h1 h2 => (o n h1 h2).same.1
  let g : ℕ → ℕ → Fl := fun i _ => if i = 0 then Fl.of (1 : ℕ) else Fl.of (3 : ℕ)
  have hg : ∀ i j, (g i j).Ordinary := by
    intro i j
    simp only [g]
    split_ifs
    · exact o 1 (by norm_num) (by norm_num)
    · exact o 3 (by norm_num) (by norm_num)
  refine ⟨⟨(Fl.of (50 : ℕ)).to64, (Fl.of (50 : ℕ)).to64, 2, 1, some ⟨(Fl.of (100 : ℕ)).to64, (Fl.of (100 : ℕ)).to64, (Fl.of (100 : ℕ)).to64, (Fl.of (150 : ℕ)).to64, (Fl.of (3 : ℕ)).to64, ⟨2, 1, fun i j => (g i j).to64⟩,
      ⟨2, 1, fun _ _ => false⟩⟩⟩,
    ⟨Fl.of (50 : ℕ), Fl.of (50 : ℕ), 2, 1, some ⟨Fl.of (100 : ℕ), Fl.of (100 : ℕ), Fl.of (100 : ℕ), Fl.of (150 : ℕ), Fl.of (3 : ℕ), ⟨2, 1, g⟩, ⟨2, 1, fun _ _ => false⟩⟩⟩,
    ⟨⟨s 50 (by norm_num) (by norm_num), s 50 (by norm_num) (by norm_num)⟩, ⟨rfl, rfl⟩, ⟨s 100 (by norm_num) (by norm_num), s 100 (by norm_num) (by norm_num), s 100 (by norm_num) (by norm_num), s 150 (by norm_num) (by norm_num)⟩,
      s 3 (by norm_num) (by norm_num), ⟨rfl, rfl, fun i j => (hg i j).same.1⟩, rfl⟩, o 50 (by norm_num) (by norm_num), ⟨_, rfl, ?_⟩, ?_⟩
  · change ¬(Fl.of (3 : ℕ)).val ≤ (0 : Fl).val
    rw [of_nat (by norm_num), Fl.zero_val]
    norm_num
  · intro b hb
    obtain rfl := Option.some.inj hb
    exact ⟨o 3 (by norm_num) (by norm_num), fun i j _ _ => hg i j, by norm_num⟩

end Oneka
