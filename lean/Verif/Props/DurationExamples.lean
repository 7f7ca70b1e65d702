import Verif.Props.Duration
import Verif.Props.StatisticsExamples

/-!
# C130: a longer duration can lose places; and cases that meet the hypotheses of C130
-/

namespace Oneka

open Aquifer

/-! ## A longer duration can lose places -/

/-- an idle well in converging flow -/
noncomputable def bentArgs : RunArgs where
  target := 0
  npaths := 1
  duration := .fin (1/20)
  base := 0
  cDist := .const 1
  pDist := .const (1/4)
  tDist := .const 20
  wells := [⟨0, 0, 1, .const 0⟩]
  obs := sixObs
  spacing := 1
  umbra := 4/5
  confined := true
  tol := .fin 1
  maxstep := .fin 10

/-- the coefficients that are drawn -/
noncomputable def bentCoef : Fin 6 → ℝ := fun i => if i = 2 then 100 else if i = 5 then 1000 else 0

/-- the environment: these coefficients, and no interrupts -/
noncomputable def bentEnv : Env := { exampleEnv 0 with mvn := fun _ _ _ => .ok bentCoef, interrupt := fun _ _ _ => none }

/-- the model of the realization -/
noncomputable def bentModel : Aquifer ℝ := ⟨0, 1, 1/4, 20, [⟨0, 0, 1, 0⟩], 0, 0, bentCoef⟩

theorem bent_physical : bentModel.Physical := ⟨by simp [bentModel], by simp [bentModel], by simp [bentModel]⟩

theorem bent_velocity (n : ℕ) (x y : ℝ) (hx : 0 < x) : finPart (fun _ => bentModel.toX.backVelocity true) n (x, y) = .ok (20 * y, 20 * x) := by
  have hoff : bentModel.OffWells x y := by
    intro w hw e
    obtain rfl := List.mem_singleton.mp hw
    exact hx.ne' (Prod.mk.inj e).1
  refine finPart_ok.mpr ?_
  show bentModel.toX.backVelocity true (.fin x, .fin y) = _
  rw [backVelocity_toX bentModel bent_physical true hoff]
  unfold backVelocity
  simp only [if_true, velocityConfined, discharge_eq]
  simp [bentModel, bentCoef, Except.map]
  refine congrArg emb (Prod.ext ?_ ?_) <;> ring

theorem bent_trial (g : ℕ → ℝ × ℝ → Except PyErr (ℝ × ℝ)) (hg : ∀ n x y, 0 < x → g n (x, y) = .ok (20 * y, 20 * x)) :
    (∃ k est ds, trial g 1 (2, 0) (0, 40) (1/20) = .ok ((463/150, 47/20), k, est, ds) ∧ est < 1 ∧ ds < 10) ∧
    (∃ k est ds, trial g 1 (2, 0) (0, 40) (1/10) = .ok ((566/75, 36/5), k, est, ds) ∧ est < 1 ∧ ds < 10) := by
  constructor
  · refine ⟨(47, 926/15), 17/10000, Real.sqrt ((463/150 - 2)^2 + (47/20)^2), ?_, by norm_num, ?_⟩
    · unfold trial
      simp only [sc, scq, PyMath.q_real, Prod.mk_add_mk, bind, Except.bind, pure, Except.pure]
      norm_num [hg, normInf, norm2]
    · rw [Real.sqrt_lt' (by norm_num)]
      norm_num
  · refine ⟨(144, 20 * (566/75)), 39/625, Real.sqrt ((566/75 - 2)^2 + (36/5)^2), ?_, by norm_num, ?_⟩
    · unfold trial
      simp only [sc, scq, PyMath.q_real, Prod.mk_add_mk, bind, Except.bind, pure, Except.pure]
      norm_num [hg, normInf, norm2]
    · rw [Real.sqrt_lt' (by norm_num)]
      norm_num

theorem bent_loop {g : ℕ → ℝ × ℝ → Except PyErr (ℝ × ℝ)} {D est ds : ℝ} {p k : ℝ × ℝ} (h0 : 0 < D) (h1 : D ≤ 1/10) (hg : g 0 (2, 0) = .ok (0, 40))
    (ht : trial g 1 (2, 0) (0, 40) D = .ok (p, k, est, ds)) (he : est < 1) (hd : ds < 10) (hc : ∀ dt : ℝ, dt = 1/10 → clipDt D 0 dt = D) :
    ∃ ss, computeBacktrace 2 0 D 1 10 g = some ⟨[(2, 0), p], ss, none⟩ := by
  unfold computeBacktrace
  rw [hg]
  simp only
  rw [traceLoop]
  have e0 : (PyMath.q 0 : ℝ) = 0 := by simp
  have e1 : (PyMath.q (1/10) : ℝ) * PyMath.sign D = 1/10 := by
    show ((1/10 : ℚ) : ℝ) * Real.sign D = 1/10
    rw [Real.sign_of_pos h0]
    norm_num
  rw [e0, hc _ e1, if_pos (by simpa using h0.ne'), ht]
  simp only [he, hd, and_self, if_true, zero_add]
  rw [traceLoop, if_neg (by simp)]
  exact ⟨_, rfl⟩

theorem bent_traces : (∃ ss, computeBacktrace (.fin 2) (.fin 0) (.fin (1/20)) (.fin 1) (.fin 10) (fun _ => bentModel.toX.reverseVelocity true) = some ⟨[floats (2, 0), floats (463/150, 47/20)], ss, none⟩) ∧
    (∃ ss, computeBacktrace (.fin 2) (.fin 0) (.fin (1/10)) (.fin 1) (.fin 10) (fun _ => bentModel.toX.reverseVelocity true) = some ⟨[floats (2, 0), floats (566/75, 36/5)], ss, none⟩) := by
  simp only [reverseVelocity_eq]
  obtain ⟨⟨k, est, ds, t1, t2, t3⟩, ⟨k', est', ds', t1', t2', t3'⟩⟩ := bent_trial _ bent_velocity
  have hg := bent_velocity 0 2 0 (by norm_num)
  rw [show ((20 * 0, 20 * 2) : ℝ × ℝ) = (0, 40) by norm_num] at hg
  obtain ⟨ss, h⟩ := bent_loop (D := 1/20) (by norm_num) (by norm_num) hg t1 t2 t3 (by rintro _ rfl; unfold clipDt; rw [if_pos (by show |(1/20:ℝ)| < |0 + 1/10|; norm_num [abs_of_pos])]; norm_num)
  obtain ⟨ss', h'⟩ := bent_loop (D := 1/10) (by norm_num) (by norm_num) hg t1' t2' t3' (by rintro _ rfl; unfold clipDt; rw [if_neg (by show ¬ |(1/10:ℝ)| < |0 + 1/10|; norm_num)])
  exact ⟨⟨_, backtrace_lift (by norm_num) h rfl⟩, ⟨_, backtrace_lift (by norm_num) h' rfl⟩⟩

theorem bent_start : SWell.start ⟨0, 0, 1, .const 0⟩ 1 0 = (2, 0) := by
  refine Prod.ext ?_ ?_
  · simp [SWell.start]; norm_num
  · simp [SWell.start]

/-- the run returns if its only trace does, and its weights tell where the trace passes -/
theorem bent_run (D : ℝ) {tr : Trace XR} (htr : computeBacktrace (.fin 2) (.fin 0) (.fin D) (.fin 1) (.fin 10) (fun _ => bentModel.toX.reverseVelocity true) = some tr) :
    ∃ r f, createStochastic { bentArgs with duration := .fin D } 1 bentEnv = some r ∧ r.outcome = .ok f ∧
      (NearTrack tr.path (4/5) 3 3 → f.weightAt 3 3 = 1) ∧ (¬ NearTrack tr.path (4/5) 3 3 → f.weightAt 3 3 = 0) := by
  have hd : drawModel { bentArgs with duration := .fin D } (fun d j => d.sample (bentEnv.u 0 j)) = .ok ⟨0, 1, 1/4, 20, [⟨0, 0, 1, 0⟩], 0, 0, fun _ => 0⟩ := rfl
  obtain ⟨⟨ev, cov⟩, hfit⟩ := (C37_degenerate perfect perfect_correct perfect_converges ⟨0, 1, 1/4, 20, [⟨0, 0, 1, 0⟩], 0, 0, fun _ => 0⟩
    (by norm_num) (by norm_num) sixObs 0 0 (sixObs_usable_of rfl (by simp))).2 sixObs_general
  obtain ⟨f0, e0, wf0, b0⟩ := new_pos (xo := (0:ℝ)) (yo := (0:ℝ)) (s := 1) one_pos
  have hstart := bent_start
  have hret : ∀ k : ℕ, (k : ℤ) < 1 → computeBacktrace (.fin (0 + (1 + 1) * Real.cos (2 * Real.pi * k / (1:ℤ)))) (.fin (0 + (1 + 1) * Real.sin (2 * Real.pi * k / (1:ℤ)))) (.fin D) (.fin 1) (.fin 10)
      (runVelocity bentModel true (bentEnv.interrupt 0) k) = some tr := by
    intro k hk
    obtain rfl : k = 0 := by omega
    rw [runVelocity_none (i := bentEnv.interrupt 0) (fun _ _ => rfl), ← htr]
    exact congrArg (fun s : ℝ × ℝ => computeBacktrace (.fin s.1) (.fin s.2) (.fin D) (.fin 1) (.fin 10) fun _ => bentModel.toX.reverseVelocity true) hstart
  obtain ⟨cz, hcz⟩ := capture_returns (u := 4/5) (w := 1) (d := .fin D) (tol := .fin 1) (ms := .fin 10) (xt := 0) (yt := 0) (rt := 1) (n := 1)
    (fe := runVelocity bentModel true (bentEnv.interrupt 0)) wf0 (fun k hk => by rw [hret k hk]; simp)
  obtain ⟨c1, c2, -, -, c3⟩ := capture_spec (n := 1) wf0 (Or.inl b0) hcz
  have hreal : realize { bentArgs with duration := .fin D } perfect ⟨0, 0, 1, .const 0⟩ (fun d j => d.sample (bentEnv.u 0 j)) (bentEnv.mvn 0) (fun c => 2 * (c 0 + c 1)) (bentEnv.interrupt 0) f0 =
      some (.ok cz.field, [⟨bentModel, ev, cov, 2 * (bentCoef 0 + bentCoef 1), cz.traces⟩]) := by
    unfold realize
    rw [hd]
    simp only
    rcases hf : fitRegionalFlow perfect ⟨0, 1, 1/4, 20, [⟨0, 0, 1, 0⟩], 0, 0, fun _ => 0⟩ sixObs 0 0 with ⟨mo, res⟩
    rw [hf] at hfit
    obtain rfl : res = .ok (ev, cov) := hfit
    obtain rfl := fit_model hf
    have hf' : fitRegionalFlow perfect ⟨0, 1, 1/4, 20, [⟨0, 0, 1, 0⟩], 0, 0, fun _ => 0⟩ bentArgs.obs 0 0 = _ := hf
    simp only [hf']
    have hcz' : computeCapturezone 0 0 1 bentArgs.npaths (.fin D) f0 bentArgs.umbra 1 bentArgs.tol bentArgs.maxstep (runVelocity bentModel bentArgs.confined (bentEnv.interrupt 0)) = some cz := hcz
    show (match computeCapturezone 0 0 1 bentArgs.npaths (.fin D) f0 bentArgs.umbra 1 bentArgs.tol bentArgs.maxstep (runVelocity bentModel bentArgs.confined (bentEnv.interrupt 0)) with
      | none => none
      | some r => some (r.outcome.map (fun _ => r.field), [(⟨bentModel, ev, cov, 2 * (bentCoef 0 + bentCoef 1), r.traces⟩ : RealizationLog)])) = _
    rw [hcz']
    simp only [c1]
    rfl
  have hrun : createStochastic { bentArgs with duration := .fin D } 1 bentEnv = some ⟨.ok cz.field, [⟨bentModel, ev, cov, 2 * (bentCoef 0 + bentCoef 1), cz.traces⟩]⟩ := by
    show (match PField.new (1:ℝ) 1 (some 0) (some 0) with
      | .error e => some (⟨.error e, []⟩ : RunResult)
      | .ok f => stochasticLoop { bentArgs with duration := .fin D } bentEnv ⟨0, 0, 1, .const 0⟩ 1 0 f []) = _
    rw [e0]
    show stochasticLoop { bentArgs with duration := .fin D } bentEnv ⟨0, 0, 1, .const 0⟩ 1 0 f0 [] = _
    unfold stochasticLoop
    have : realize { bentArgs with duration := .fin D } bentEnv.la ⟨0, 0, 1, .const 0⟩ (fun d j => d.sample (bentEnv.u 0 j)) (bentEnv.mvn 0) (fun c => 2 * (c 0 + c 1)) (bentEnv.interrupt 0) f0 = _ := hreal
    rw [this]
    rfl
  obtain ⟨-, -, -, w, -⟩ := C44_frequencies { bentArgs with duration := .fin D } 1 0 bentEnv ⟨0, 0, 1, .const 0⟩ rfl rfl hrun rfl
  have w := w (by norm_num [bentArgs]) 3 3 (.inr (by norm_num [bentArgs]))
  have w : cz.field.weightAt (0 + (3:ℤ) * 1) (0 + (3:ℤ) * 1) = ((List.countP _ _ : ℕ) : ℝ) := w
  rw [show (0:ℝ) + (3:ℤ) * 1 = 3 by norm_num] at w
  have ht : cz.traces = [tr] := by
    obtain ⟨x, hx⟩ := List.length_eq_one_iff.mp c2
    have h1 := c3 0 x (by rw [hx]; rfl)
    have h2 := hret 0 (by norm_num)
    rw [hx]
    have e : (startAt 0 0 1 (((0:ℕ):ℝ) * (2 * Real.pi / ((1:ℕ):ℝ)))) = ((0 + (1 + 1) * Real.cos (2 * Real.pi * ((0:ℕ):ℝ) / (1:ℤ)), 0 + (1 + 1) * Real.sin (2 * Real.pi * ((0:ℕ):ℝ) / (1:ℤ))) : ℝ × ℝ) := by
      simp [startAt]
    rw [e] at h1
    exact congrArg (fun z => [z]) (Option.some.inj (h1.symm.trans h2))
  refine ⟨_, _, hrun, rfl, fun h => ?_, fun h => ?_⟩
  · rw [w, List.countP_singleton, if_pos]
    · simp
    · simp only [decide_eq_true_eq]
      refine ⟨tr, by rw [ht]; simp, ?_⟩
      show NearTrack tr.path (4/5) (0 + (3:ℤ) * 1) (0 + (3:ℤ) * 1)
      norm_num
      exact h
  · rw [w, List.countP_singleton, if_neg]
    · simp
    · simp only [decide_eq_true_eq]
      rintro ⟨tr', h1, h2⟩
      rw [ht, List.mem_singleton] at h1
      subst h1
      refine h ?_
      have h2 : NearTrack tr'.path (4/5) (0 + (3:ℤ) * 1) (0 + (3:ℤ) * 1) := h2
      norm_num at h2 ⊢
      exact h2

/-- **C130 fails exactly.** A longer duration can lower a weight: with the same random numbers, a run for 1/20 day records the place (3, 3), and the run that differs in nothing but the duration of 1/10 day does not. (The first
step of a tenth of a day cuts the corner; in the shorter run it is shortened.) -/
theorem C130_not_monotone : ∃ r f r' f', createStochastic bentArgs 1 bentEnv = some r ∧ r.outcome = .ok f ∧ bentArgs.duration = .fin (1/20) ∧
    createStochastic { bentArgs with duration := .fin (1/10) } 1 bentEnv = some r' ∧ r'.outcome = .ok f' ∧ f.weightAt 3 3 = 1 ∧ f'.weightAt 3 3 = 0 := by
  obtain ⟨⟨ss, h⟩, ⟨ss', h'⟩⟩ := bent_traces
  obtain ⟨r, f, r1, r2, r3, -⟩ := bent_run _ h
  obtain ⟨r', f', r1', r2', -, r4'⟩ := bent_run _ h'
  refine ⟨r, f, r', f', r1, r2, rfl, r1', r2', r3 ?_, r4' ?_⟩
  · refine ⟨(2, 0), (463/150, 47/20), ⟨[], [], rfl⟩, fun e => ?_, 1, by norm_num, le_rfl, by norm_num⟩
    have := (Prod.mk.inj e).2
    norm_num at this
  · rintro ⟨a, b, hab, -, t, t0, t1, ht⟩
    have hab : [a, b] <:+: [((2:ℝ), (0:ℝ)), (566/75, 36/5)] := hab
    obtain ⟨s, s', e⟩ := hab
    have hl := congrArg List.length e
    simp at hl
    obtain rfl : s = [] := List.eq_nil_of_length_eq_zero (by omega)
    obtain rfl : s' = [] := List.eq_nil_of_length_eq_zero (by omega)
    simp only [List.nil_append, List.append_nil, List.cons.injEq, and_true] at e
    obtain ⟨rfl, rfl⟩ := e
    nlinarith [sq_nonneg (t - 1/3), sq_nonneg (t - 1/2)]

/-! ## Longer runs that capture more -/

/-- Two traces in the same uniform flow, for 1 and 3 days: both return (`C23_uniform_flow`), so they meet the hypotheses of `C130_common`. -/
example : ∃ (r r' : Trace ℝ) (pre rest rest' : List (ℝ × (ℝ × ℝ))), computeBacktrace 0 0 1 1 1 (steady fun _ => (1, 2)) = some r ∧ computeBacktrace 0 0 3 1 1 (steady fun _ => (1, 2)) = some r' ∧
    r.vertices = (0, 0) :: (pre ++ rest).map Prod.snd ∧ r'.vertices = (0, 0) :: (pre ++ rest').map Prod.snd := by
  obtain ⟨r, -, h, -⟩ := C23_uniform_flow (1, 2) 0 0 1 1 1 (by norm_num) (by norm_num) (by norm_num)
  obtain ⟨r', -, h', -⟩ := C23_uniform_flow (1, 2) 0 0 3 1 1 (by norm_num) (by norm_num) (by norm_num)
  obtain ⟨pre, rest, rest', -, -, -, h1, h2, -⟩ := C130_common (fun _ => (1, 2)) 0 0 1 3 1 1 (by norm_num) (by norm_num) r r' h h'
  exact ⟨r, r', pre, rest, rest', h, h', h1, h2⟩

/-- In a uniform flow the trace of 1 day reaches its end (1, 2); so does the trace of 3 days with another tolerance and step limit. -/
example : ∃ r' : Trace ℝ, computeBacktrace 0 0 3 (1/2) (1/7) (steady fun _ => (1, 2)) = some r' ∧ NearTrack r'.vertices (1/100) 1 2 := by
  obtain ⟨r, θs, h, hv, h0, h1, hs⟩ := C23_uniform_flow (1, 2) 0 0 1 1 1 (by norm_num) (by norm_num) (by norm_num)
  obtain ⟨r', -, h', -⟩ := C23_uniform_flow (1, 2) 0 0 3 (1/2) (1/7) (by norm_num) (by norm_num) (by norm_num)
  refine ⟨r', h', C130_uniform (1, 2) 0 0 1 3 1 1 (1/2) (1/7) (by norm_num) (by norm_num) (by norm_num) (by norm_num) (by norm_num) (by norm_num) r r' h h' _ _ _ ?_⟩
  obtain ⟨init, e⟩ : ∃ init, θs = init ++ [1] := by
    obtain ⟨ys, e⟩ := List.getLast?_eq_some_iff.mp h1
    exact ⟨ys, e⟩
  obtain rfl | ⟨init', x, e'⟩ : init = [] ∨ ∃ init' x, init = init' ++ [x] := by
    rcases List.eq_nil_or_concat init with h | ⟨a, b, h⟩
    · exact .inl h
    · exact .inr ⟨a, b, by simpa using h⟩
  · rw [e] at h0
    simp at h0
  · subst e' e
    have hx : x < 1 := by
      rw [List.pairwise_append] at hs
      exact hs.2.2 x (by simp) 1 (by simp)
    refine ⟨((0, 0) : ℝ × ℝ) + (x * 1) • (1, 2), ((0, 0) : ℝ × ℝ) + (1 * 1) • (1, 2), ⟨init'.map fun θ => ((0, 0) : ℝ × ℝ) + (θ * 1) • (1, 2), [], by rw [hv]; simp⟩, fun h => ?_, 1, by norm_num, le_rfl, by norm_num⟩
    have := (Prod.mk.inj h).1
    simp at this
    exact hx.ne this

/-- the call of `CaptureExactExamples.lean` with a duration of 100 days and an umbra of 3 -/
noncomputable def shortWays : PyArgs := { twoWays with duration := .int 100, umbra := fl 3 }

/-- the numbers in it -/
noncomputable def shortInputs : Inputs := { twoWaysInputs with run := twoWaysInputs.run.retraced 100 1 (1/30) 3 }

theorem shortWays_acceptable : Acceptable shortWays := by
  have h := twoWays_acceptable
  exact ⟨h.1, h.2, h.3, h.4, ⟨_, rfl, by simp⟩, h.6, h.7, h.8, h.9, h.10, h.11, h.12, ⟨_, rfl, fin_pos (by norm_num)⟩, h.14, h.15, h.16, h.17⟩

theorem shortWays_denotes : shortWays.Denotes shortInputs := by
  have h := twoWays_denotes
  exact ⟨h.1, h.2, by simp [shortWays, shortInputs, RunArgs.retraced, PyVal.num], h.4, h.5, h.6, h.7, h.8, h.9, h.10, h.11, h.12, fl_isReal _, h.14, h.15, h.16, h.17⟩

theorem shortWays_no_endless (t : DateTime) : ¬ EndlessRun shortInputs sevenObs (twoWaysEnv t).run ⟨1000, 1000, 1/4, .const 0⟩ := by
  unfold EndlessRun
  rw [if_pos (by simp [shortInputs, twoWaysInputs, exampleInputs])]
  rintro ⟨i, -, m, ev, cov, c, hm, -, hc, k, hk, h⟩
  obtain rfl : k = 0 := by
    have : (k:ℤ) < 1 := hk
    omega
  obtain rfl : twoWaysCoef i = c := Except.ok.inj hc
  have F := (twoWays_model (m := { m with xo := 1000, yo := 1000, coef := twoWaysCoef i }) i (twoWays_draws t i) hm.wells_length (hm.wells 0 _ rfl) hm.conductivity hm.porosity hm.thickness rfl).shorter
    (D := 100) (by norm_num) (by norm_num)
  obtain ⟨r, hr, -⟩ := C95_track (tol := 1) F (by norm_num) (by norm_num) (by norm_num)
  have e := twoWays_start
  rw [← e] at hr
  have : some r = none := hr.symm.trans h
  simp at this

theorem shortWays_returns (t : DateTime) : (oneka shortWays (twoWaysEnv t)).ending = .returns .none :=
  C70_returns (env := twoWaysEnv t) shortWays_acceptable shortWays_denotes (exampleInputs_regular 100) (fun _ => ⟨twoWays_spread, twoWays_draws t⟩) perfect_correct
    perfect_converges sevenObs 0 _ (example_retained 100) rfl rfl (by simp [sevenObs, sixObs]) (fun o ho => (sevenObs_usable o ho).1) sevenObs_general
    (fun _ i _ _ => ⟨twoWaysCoef i, rfl⟩) (shortWays_no_endless t) rfl rfl

/-- The two calls meet the hypotheses of `C130_archived`: nowhere is a weight in the archive of the year larger in that of the hundred days with an umbra of 3 m. -/
example (t : DateTime) : ∃ (d d' : Dict) (f f' : PField ℝ),
    loadOneka ((oneka shortWays (twoWaysEnv t)).events.foldl Effect.apply fun _ => none) (twoWaysEnv t).now.archiveName = .ok d ∧ d.get "pfield" = some (.field (.field f)) ∧
    loadOneka ((oneka twoWays (twoWaysEnv t)).events.foldl Effect.apply fun _ => none) (twoWaysEnv t).now.archiveName = .ok d' ∧ d'.get "pfield" = some (.field (.field f')) ∧
    ∀ p q : ℤ, f.weightAt (1000 + p * 4) (1000 + q * 4) ≤ f'.weightAt (1000 + p * 4) (1000 + q * 4) := by
  obtain ⟨d, d', f, f', k, w, h1, h2, h3, h4, h5, h6, h7⟩ := C130_archived shortWays twoWays shortInputs twoWaysInputs (twoWaysEnv t) (twoWaysEnv t) _ _ shortWays_denotes twoWays_denotes (shortWays_returns t)
    (twoWays_returns t) (fun _ => none) (fun _ => none) rfl (fun _ _ _ => rfl) (D := 100) (tol := 1) (maxstep := 1/30) (D' := 365) (tol' := 1) (maxstep' := 1/30) (u' := 4) (δ := 1/5) (δ' := 1/5)
    rfl rfl rfl rfl rfl rfl (by norm_num) (by norm_num) (by norm_num) (by norm_num) (by norm_num) (by norm_num) (by show (3:ℝ) + 1/5 + 1/5 ≤ 4; norm_num)
  obtain ⟨-, -, obs, k', w', -, -, -, -, g6, g7, -, g9, -⟩ := C68_stochastic shortWays shortInputs (twoWaysEnv t) _ shortWays_denotes (by simp [shortInputs, twoWaysInputs, exampleInputs]) (shortWays_returns t) (fun _ => none)
  obtain rfl : k = 0 := by
    have : (0:ℤ) = k := h5
    omega
  obtain rfl : k' = 0 := by
    have : (0:ℤ) = k' := g6
    omega
  obtain rfl : w = ⟨1000, 1000, 1/4, .const 0⟩ := (Option.some.inj h6).symm
  obtain rfl : w' = ⟨1000, 1000, 1/4, .const 0⟩ := (Option.some.inj g7).symm
  refine ⟨d, d', f, f', h1, h2, h3, h4, fun p q => h7 (fun i _ => twoWaysPath i) (fun i L hL j hj => ?_) p q (.inr ⟨?_, ?_⟩)⟩
  · obtain rfl : j = 0 := by
      have : (j:ℤ) < 1 := hj
      omega
    have R := g9 i L hL
    have F := twoWays_model i (twoWays_draws t i) R.wells_length (R.wells 0 _ rfl) R.conductivity R.porosity R.thickness (Except.ok.inj R.coef).symm
    rw [← twoWays_start] at F
    exact ⟨F.shorter (by norm_num) (by norm_num), F⟩
  · show (3:ℝ) ≤ 4
    norm_num
  · show (4:ℝ) ≤ 4
    norm_num

/-- The run behind it meets the hypotheses of `C130_stochastic`. -/
example (t : DateTime) {r : RunResult} {f : PField ℝ} (h : createStochastic { shortInputs.run with obs := sevenObs } 100 (twoWaysEnv t).run = some r) (ho : r.outcome = .ok f) :
    ∃ r' f', createStochastic { twoWaysInputs.run with obs := sevenObs } 100 (twoWaysEnv t).run = some r' ∧ r'.outcome = .ok f' ∧ f.total = f'.total := by
  have hlen := (C44_frequencies { shortInputs.run with obs := sevenObs } 100 0 (twoWaysEnv t).run ⟨1000, 1000, 1/4, .const 0⟩ rfl rfl h ho).1
  have R := C45_realizations { shortInputs.run with obs := sevenObs } 100 0 (twoWaysEnv t).run ⟨1000, 1000, 1/4, .const 0⟩ rfl rfl h ho
  obtain ⟨r', f', h1, h2, -, h3, -⟩ := C130_stochastic { shortInputs.run with obs := sevenObs } 100 0 (twoWaysEnv t).run ⟨1000, 1000, 1/4, .const 0⟩ rfl rfl (by norm_num [shortInputs, RunArgs.retraced])
    (by norm_num [shortInputs, RunArgs.retraced, twoWaysInputs, exampleInputs]) (D := 100) (tol := 1) (maxstep := 1/30) (D' := 365) (tol' := 1) (maxstep' := 1/30) (u' := 4) (δ := 1/5) (δ' := 1/5)
    rfl rfl rfl (by norm_num) (by norm_num) (by norm_num) (by norm_num) (by norm_num) (by norm_num) (fun _ _ _ => rfl) h ho (fun i _ => twoWaysPath i) (fun i L hL j hj => by
      obtain rfl : j = 0 := by
        have : (j:ℤ) < 1 := hj
        omega
      obtain ⟨L', hL', R⟩ := R i (hlen ▸ (List.getElem?_eq_some_iff.mp hL).1)
      obtain rfl : L = L' := Option.some.inj (hL.symm.trans hL')
      have F := twoWays_model i (twoWays_draws t i) R.wells_length (R.wells 0 _ rfl) R.conductivity R.porosity R.thickness (Except.ok.inj R.coef).symm
      rw [← twoWays_start] at F
      exact ⟨F.shorter (by norm_num) (by norm_num), F⟩) (by show (3:ℝ) + 1/5 + 1/5 ≤ 4; norm_num) (by norm_num)
  exact ⟨r', f', h1, h2, h3⟩

end Oneka
