import Verif.Props.Certain
import Verif.Props.DurationExamples

/-!
# C132: cases that meet its hypotheses; and a wide umbra, with which certainty is not enough
-/

namespace Oneka

open Aquifer

/-! ## A call with an uncertain aquifer in which every draw takes its mean -/

/-- the environment of the other examples, but the conductivity is drawn with another number: (5, 10, 20) takes its mean at 29/54, not at 1/2 -/
noncomputable def meanEnv (N : ℕ) (t : DateTime) : CallEnv :=
  { exampleCallEnv N t with run := { exampleEnv N with u := fun _ j => if j = 1 then 29/54 else 1/2 } }

theorem mean_certain (r : ℤ) (N : ℕ) (t : DateTime) (n : ℕ) : (exampleInputs r).run.Certain (meanEnv N t).run n where
  wells := by
    intro i _ j w hj
    have : j = 0 ∧ w = ⟨1000, 1000, 0.25, .tuple [500, 1000]⟩ := by
      have h : [(⟨1000, 1000, 0.25, .tuple [500, 1000]⟩ : SWell)][j]? = some w := hj
      rcases j with _ | j
      · exact ⟨rfl, (Option.some.inj h).symm⟩
      · simp at h
    obtain ⟨rfl, rfl⟩ := this
    have e1 : Dist.sample (.tuple [500, 1000]) (1/2) = .ok (500 + (1000 - 500) * (1/2)) := rfl
    have e2 : Dist.mean (.tuple [500, 1000]) = .ok ((500 + 1000) / 2) := by
      unfold Dist.mean Dist.toPy
      simp [computeVariateMean, PyVal.num, XR.fin_add, XR.fin_div, PyVal.asReal]
    show Dist.sample (.tuple [500, 1000]) (if 0 = 1 then 29/54 else 1/2) = _
    rw [if_neg (by norm_num), e1, e2]
    norm_num
  conductivity := by
    intro i _
    have e2 : Dist.mean (.tuple [5, 10, 20]) = .ok ((5 + 10 + 20) / 3) := by
      unfold Dist.mean Dist.toPy
      simp [computeVariateMean, PyVal.num, XR.fin_add, XR.fin_div, PyVal.asReal]
    have e1 : Dist.sample (.tuple [5, 10, 20]) (29/54) = .ok (Variate.tri 5 10 20 (29/54)) := by
      have hg := Variate.gen_triple (a := .float (.fin 5)) (m := .float (.fin 10)) (b := .float (.fin 20)) (x := 5) (c := 10) (y := 20)
        rfl rfl rfl (by norm_num) (by norm_num) (by norm_num) (u := 29/54) (by norm_num) (by norm_num)
      unfold Dist.sample
      show PyVal.asReal (generateRandomVariate (.tuple [.float (.fin 5), .float (.fin 10), .float (.fin 20)]) (29/54)) = _
      rw [hg]
      rfl
    show Dist.sample (.tuple [5, 10, 20]) (if 1 = 1 then 29/54 else 1/2) = Dist.mean (.tuple [5, 10, 20])
    rw [if_pos rfl, e1, e2]
    congr 1
    unfold Variate.tri
    rw [if_neg (by norm_num), show (1 - 29/54) * ((20 - 10) * (20 - 5)) = (25/3 : ℝ) ^ 2 by norm_num, Real.sqrt_sq (by norm_num)]
    norm_num
  porosity := by
    intro i _
    have e1 : Dist.sample (.tuple [0.2, 0.25]) (1/2) = .ok (0.2 + (0.25 - 0.2) * (1/2)) := rfl
    have e2 : Dist.mean (.tuple [0.2, 0.25]) = .ok ((0.2 + 0.25) / 2) := by
      unfold Dist.mean Dist.toPy
      simp [computeVariateMean, PyVal.num, XR.fin_add, XR.fin_div, PyVal.asReal]
    show Dist.sample (.tuple [0.2, 0.25]) (if 2 = 1 then 29/54 else 1/2) = Dist.mean (.tuple [0.2, 0.25])
    rw [if_neg (by norm_num), e1, e2]
    norm_num
  thickness := fun _ _ => rfl
  coefs := fun _ _ _ _ => rfl
  interrupts := fun _ _ => rfl

theorem mean_no_endless (n : Inputs) (N : ℕ) (t : DateTime) (w : SWell) : ¬ EndlessRun n sevenObs (meanEnv N t).run w := by
  have key : ∀ (a : RunArgs) (q : Dist → ℕ → Except PyErr ℝ) (coefs : (Fin 6 → ℝ) → Matrix (Fin 6) (Fin 6) ℝ → Except PyErr (Fin 6 → ℝ)) (i : ℕ),
      ¬ EndlessTrace a (meanEnv N t).run.la w q coefs ((meanEnv N t).run.interrupt i) := by
    rintro a q coefs i ⟨m, ev, cov, c, -, -, -, k, -, h⟩
    refine absurd h (Option.isSome_iff_ne_none.mp ?_)
    obtain ⟨tr, htr⟩ := interrupted_terminates (F := XR) (N := N) (fe := fun n p => match (meanEnv N t).run.interrupt i k n with
      | some e => .error e
      | none => ({ m with xo := w.xw, yo := w.yw, coef := c } : Aquifer ℝ).toX.reverseVelocity a.confined p)
      (fun p => ⟨.keyboardInterrupt, by simp [meanEnv, exampleEnv]⟩) (.fin (w.xw + (w.rw + 1) * Real.cos (2 * Real.pi * k / a.npaths)))
        (.fin (w.yw + (w.rw + 1) * Real.sin (2 * Real.pi * k / a.npaths))) a.duration a.tol a.maxstep
    exact Option.isSome_of_eq_some htr
  unfold EndlessRun
  split
  · rintro ⟨i, -, h⟩
    exact key _ _ _ _ h
  · exact key _ _ _ _

theorem mean_returns (r : ℤ) (N : ℕ) (t : DateTime) : (oneka (exampleCall r) (meanEnv N t)).ending = .returns .none :=
  C70_returns (env := meanEnv N t) (exampleCall_acceptable r) (exampleCall_denotes r) (exampleInputs_regular r)
    (fun _ => ⟨exampleInputs_spread r, fun _ j => by simp only [meanEnv]; split_ifs <;> norm_num⟩) perfect_correct
    perfect_converges sevenObs 0 _ (example_retained r) rfl rfl (by simp [sevenObs, sixObs]) (fun o ho => (sevenObs_usable o ho).1) sevenObs_general
    (fun _ _ ev _ => ⟨ev, rfl⟩) (mean_no_endless _ N t _) rfl rfl

/-- A call for 100 realizations and a call for one, which differ in nothing else, with draws that take their means: in the archives the nodes with any given property of the probability are the same. -/
example (N : ℕ) (t : DateTime) (fs : Files) : ∃ (d d' : Dict) (f f' : PField ℝ),
    loadOneka ((oneka (exampleCall 100) (meanEnv N t)).events.foldl Effect.apply fs) t.archiveName = .ok d ∧ d.get "pfield" = some (.field (.field f)) ∧
    loadOneka ((oneka (exampleCall 1) (meanEnv N t)).events.foldl Effect.apply fs) t.archiveName = .ok d' ∧ d'.get "pfield" = some (.field (.field f')) ∧
    ∀ P : ℝ → Prop, f.nodesWhere P = f'.nodesWhere P := by
  obtain ⟨d, d', f, f', L, h1, h2, h3, h4, -, -, -, -, -, h5⟩ := C132_archived (exampleCall 100) (exampleCall 1) (exampleInputs 100) (exampleInputs 1) (meanEnv N t) (meanEnv N t) _ _ (exampleCall_denotes 100)
    (exampleCall_denotes 1) (mean_returns 100 N t) (mean_returns 1 N t) fs fs rfl rfl rfl (by simp [exampleInputs]) (by simp [exampleInputs]) (mean_certain 100 N t _)
  exact ⟨d, d', f, f', h1, h2, h3, h4, h5 (by simp [exampleInputs])⟩

/-- the hypotheses of `C132_calls` are met: neither call hangs -/
example (N : ℕ) (t : DateTime) : (oneka (exampleCall 100) (meanEnv N t)).ending = .diverges ↔ (oneka (exampleCall 1) (meanEnv N t)).ending = .diverges :=
  C132_calls (exampleCall 100) (exampleCall 1) (exampleInputs 100) (exampleInputs 1) (meanEnv N t) (meanEnv N t) (exampleCall_acceptable 100) (exampleCall_acceptable 1) (exampleCall_denotes 100)
    (exampleCall_denotes 1) rfl rfl rfl (by simp [exampleInputs]) (by simp [exampleInputs]) (mean_certain 100 N t _) (example_retained 100) (by simp [sevenObs, sixObs])

/-! ## A wide umbra -/

/-- heads that rise by a quarter of a meter per meter to the east and to the north -/
noncomputable def risingObs : List Obs :=
  [⟨3, 0, 30.75, 1⟩, ⟨1, 0, 30.25, 1⟩, ⟨0, 1, 30.25, 1⟩, ⟨1, 1, 30.5, 1⟩, ⟨2, 0, 30.5, 1⟩, ⟨0, 2, 30.5, 1⟩, ⟨2, 2, 31, 1⟩]

/-- a call for `r` realizations about an idle well, with a grid of 1 m and an umbra of `u`; nothing but the heads is uncertain -/
noncomputable def wideCall (r : ℤ) (u : ℝ) (c : Bool) : PyArgs :=
  { exampleCall r with
    npaths := .int 4, duration := fl (1/10), cDist := fl 10, pDist := fl (1/4), wells := .list [.tuple [fl 1000, fl 1000, fl 1, fl 0]],
    observations := .list (risingObs.map fun o => .tuple [fl o.x, fl o.y, fl o.z, fl o.std]), spacing := .int 1, umbra := fl u, confined := .bool c }

/-- the numbers in it -/
noncomputable def wideInputs (r : ℤ) (u : ℝ) (c : Bool) : Inputs :=
  { exampleInputs r with
    run := { (exampleInputs r).run with npaths := 4, duration := .fin (1/10), cDist := .const 10, pDist := .const (1/4), wells := [⟨1000, 1000, 1, .const 0⟩], obs := risingObs, spacing := 1, umbra := u, confined := c } }

/-- the environment: the coefficients that are drawn are the fitted ones; no interrupts -/
noncomputable def wideEnv (t : DateTime) : CallEnv := { exampleCallEnv 0 t with run := { exampleEnv 0 with interrupt := fun _ _ _ => none } }

/-- the fitted coefficients -/
noncomputable def wideCoef : Fin 6 → ℝ := fun i => if i = 3 ∨ i = 4 then 50 else if i = 5 then 104000 else 0

theorem wide_certain (r : ℤ) (u : ℝ) (c : Bool) (t : DateTime) (n : ℕ) : (wideInputs r u c).run.Certain (wideEnv t).run n where
  wells := by
    intro i _ j w hj
    rcases j with _ | j
    · obtain rfl : (⟨1000, 1000, 1, .const 0⟩ : SWell) = w := Option.some.inj hj
      rfl
    · have h : [(⟨1000, 1000, 1, .const 0⟩ : SWell)][j + 1]? = some w := hj
      simp at h
  conductivity := fun _ _ => rfl
  porosity := fun _ _ => rfl
  thickness := fun _ _ => rfl
  coefs := fun _ _ _ _ => rfl
  interrupts := fun _ _ => rfl

theorem risingObs_general : ¬ OnOneConic risingObs := by
  rintro ⟨c, hc, h⟩
  apply hc
  have h0 := h ⟨3, 0, 30.75, 1⟩ (by simp [risingObs])
  have h1 := h ⟨1, 0, 30.25, 1⟩ (by simp [risingObs])
  have h2 := h ⟨0, 1, 30.25, 1⟩ (by simp [risingObs])
  have h3 := h ⟨1, 1, 30.5, 1⟩ (by simp [risingObs])
  have h4 := h ⟨2, 0, 30.5, 1⟩ (by simp [risingObs])
  have h5 := h ⟨0, 2, 30.5, 1⟩ (by simp [risingObs])
  simp only [conic] at h0 h1 h2 h3 h4 h5
  funext i
  fin_cases i <;> simp <;> linarith

theorem risingObs_cases {o : Obs} (ho : o ∈ risingObs) : o.z = 30 + (o.x + o.y) / 4 ∧ o.std = 1 ∧ 0 ≤ o.x ∧ o.x ≤ 3 ∧ 0 ≤ o.y ∧ o.y ≤ 3 := by
  simp only [risingObs, List.mem_cons, List.not_mem_nil, or_false] at ho
  rcases ho with rfl | rfl | rfl | rfl | rfl | rfl | rfl <;> norm_num

theorem wide_acceptable (r : ℤ) {u : ℝ} (hu : 0 < u) (c : Bool) : Acceptable (wideCall r u c) := by
  have h := exampleCall_acceptable r
  refine ⟨h.1, h.2, ?_, .inl ⟨4, rfl, by norm_num⟩, ⟨_, rfl, by simp⟩, h.6, .inl ⟨_, rfl, ?_, trivial⟩, .inl ⟨_, rfl, ?_, ?_⟩, h.9, ?_, h.11, positive_int (by norm_num), ⟨_, rfl, fin_pos hu⟩, h.14, ⟨c, rfl⟩, h.16, h.17⟩
  · refine ⟨_, rfl, ?_, 0, .inl rfl, le_rfl, by simp⟩
    intro w hw
    obtain rfl := List.mem_singleton.mp hw
    exact ⟨_, _, _, _, .inl rfl, ⟨_, rfl, trivial⟩, ⟨_, rfl, trivial⟩, ⟨_, rfl, fin_pos (by norm_num)⟩, .inl ⟨_, rfl, trivial, trivial⟩⟩
  · show (0:ℝ) ≤ 10
    norm_num
  · show (0:ℝ) ≤ 1/4
    norm_num
  · show (1/4:ℝ) ≤ 1
    norm_num
  · refine ⟨_, rfl, by simp [risingObs], ?_⟩
    intro v hv
    obtain ⟨o, ho, rfl⟩ := List.mem_map.mp hv
    refine ⟨_, _, _, _, .inl rfl, ⟨_, rfl, trivial⟩, ⟨_, rfl, trivial⟩, ⟨_, rfl, trivial⟩, ⟨_, rfl, ?_⟩⟩
    show (0:ℝ) ≤ o.std
    rw [(risingObs_cases ho).2.1]
    norm_num

theorem wide_denotes (r : ℤ) (u : ℝ) (c : Bool) : (wideCall r u c).Denotes (wideInputs r u c) := by
  have h := exampleCall_denotes r
  refine ⟨h.1, .inl rfl, rfl, h.4, h.5, fl_isReal _, fl_isReal _, h.8, ⟨_, rfl, .cons ⟨_, _, _, _, .inl rfl, fl_isReal _, fl_isReal _, fl_isReal _, fl_isReal _⟩ .nil⟩,
    ?_, h.11, by simp [wideCall, wideInputs, PyVal.IsReal, PyVal.num], fl_isReal _, h.14, rfl, h.16, h.17⟩
  refine ⟨_, rfl, ?_⟩
  rw [show (wideInputs r u c).run.obs = risingObs from rfl, List.forall₂_map_left_iff, List.forall₂_same]
  intro o _
  exact ⟨_, _, _, _, .inl rfl, fl_isReal _, fl_isReal _, fl_isReal _, fl_isReal _⟩

theorem wide_regular (r : ℤ) (u : ℝ) (c : Bool) : (wideInputs r u c).Regular := by
  refine ⟨?_, ?_, fun o ho => ?_⟩
  · show (0:ℝ) < 10
    norm_num
  · show (0:ℝ) < 20
    norm_num
  · rw [(risingObs_cases ho).2.1]
    norm_num

theorem wide_spread (r : ℤ) (u : ℝ) (c : Bool) : (wideInputs r u c).Spread := by
  refine ⟨?_, ?_, ?_, ?_⟩
  · rintro ⟨x, m, h⟩
    simp [wideInputs] at h
  · rintro ⟨x, m, h⟩
    simp [wideInputs] at h
  · rintro ⟨x, m, h⟩
    simp [wideInputs, exampleInputs] at h
  · intro w hw
    obtain rfl := List.mem_singleton.mp hw
    rintro ⟨x, m, h⟩
    simp at h

theorem wide_retained (r : ℤ) (u : ℝ) (c : Bool) : filterObs (wideInputs r u c).run.obs ((wideInputs r u c).run.wells.map fun w => (w.xw, w.yw)) (wideInputs r u c).buffer = .ok risingObs := by
  classical
  unfold filterObs
  have : removeNear (wideInputs r u c).buffer ((wideInputs r u c).run.wells.map fun w => (w.xw, w.yw)) (wideInputs r u c).run.obs = risingObs := by
    rw [removeNear_eq, show (wideInputs r u c).run.obs = risingObs from rfl, List.filter_eq_self]
    intro o ho
    simp only [wideInputs, exampleInputs, List.map_cons, List.map_nil, List.mem_singleton, forall_eq, decide_eq_true_eq]
    simp only [risingObs, List.mem_cons, List.not_mem_nil, or_false] at ho
    rcases ho with rfl | rfl | rfl | rfl | rfl | rfl | rfl <;> (unfold Obs.dist; rw [Real.lt_sqrt (by norm_num)]; norm_num)
  rw [this]
  refine mergeRuns_chain _ ?_
  unfold risingObs
  refine .cons_cons ?_ (.cons_cons ?_ (.cons_cons ?_ (.cons_cons ?_ (.cons_cons ?_ (.cons_cons ?_ (.singleton _)))))) <;>
    (unfold Obs.dist; rw [Real.le_sqrt' one_pos]; norm_num)

/-- the heads are those of a uniform flow, so that is what is fitted -/
theorem wide_fit {m : Aquifer ℝ} (hb : m.base = 0) (hK : m.conductivity = 10) (hT : m.thickness = 20) (hw : m.wells = [⟨1000, 1000, 1, 0⟩]) {ev : Fin 6 → ℝ} {cov : Matrix (Fin 6) (Fin 6) ℝ}
    (h : (m.fitRegionalFlow perfect risingObs 1000 1000).2 = .ok (ev, cov)) : ev = wideCoef := by
  refine C36_recovers perfect perfect_correct m (m.fitRegionalFlow perfect risingObs 1000 1000).1 (by rw [hK]; norm_num) (by rw [hT]; norm_num) risingObs 1000 1000 ev wideCoef cov ?_ ?_ (Prod.ext rfl h)
  · intro o ho
    obtain ⟨h1, h2, h3, h4, h5, h6⟩ := risingObs_cases ho
    refine ⟨by rw [hb, h1]; linarith, by rw [h2]; norm_num, fun w hw' e => ?_⟩
    rw [hw, List.mem_singleton] at hw'
    subst hw'
    have := (Prod.mk.inj e).1
    simp only at this
    linarith
  · intro o ho
    obtain ⟨h1, h2, h3, h4, h5, h6⟩ := risingObs_cases ho
    rw [potential_eq]
    simp only [hw, hb, hK, hT, List.map_cons, List.map_nil, List.sum_cons, List.sum_nil, zero_mul, add_zero, sub_zero, conic, expectedPotential, potentialOfHead]
    rw [if_neg (by linarith), if_neg (by linarith), h1]
    simp only [wideCoef]
    simp
    ring

/-- what the traces are -/
theorem wide_trace (c : Bool) {m : Aquifer ℝ} (hm : m.conductivity = 10) (hp : m.porosity = 1/4) (hT : m.thickness = 20) (hw : m.wells = [⟨1000, 1000, 1, 0⟩]) (ho : m.xo = 1000 ∧ m.yo = 1000) (hc : m.coef = wideCoef)
    {x y : ℝ} (hxy : x ≠ y) (hlow : 1900 ≤ x + y) :
    ∃ ss, computeBacktrace (.fin x) (.fin y) (.fin (1/10)) (.fin 1) (.fin 10) (fun _ => m.toX.reverseVelocity c) = some ⟨[floats (x, y), floats (x + 1, y + 1)], ss, none⟩ := by
  have hphys : m.Physical := ⟨by rw [hm]; norm_num, by rw [hp]; norm_num, by rw [hT]; norm_num⟩
  have hg : ∀ (n : ℕ) (s : ℝ), 0 ≤ s → finPart (fun _ => m.toX.backVelocity c) n (x + s, y + s) = .ok (10, 10) := by
    intro n s hs
    have hoff : m.OffWells (x + s) (y + s) := by
      intro w hw' e
      rw [hw, List.mem_singleton] at hw'
      subst hw'
      have e1 := (Prod.mk.inj e).1
      have e2 := (Prod.mk.inj e).2
      simp only at e1 e2
      exact hxy (by linarith)
    refine finPart_ok.mpr ?_
    show m.toX.backVelocity c (.fin (x + s), .fin (y + s)) = _
    rw [backVelocity_toX m hphys c hoff]
    have hQ : m.discharge (x + s) (y + s) = (-50, -50) := by
      rw [discharge_eq]
      simp [hw, hc, wideCoef]
    cases c with
    | true =>
      unfold backVelocity
      simp only [if_true, velocityConfined, hQ, hp, hT]
      refine congrArg (fun v => Except.ok (emb v)) (Prod.ext ?_ ?_) <;> norm_num
    | false =>
      have hpot : 0 < m.potential (x + s) (y + s) ∧ 2000 < m.potential (x + s) (y + s) := by
        have : m.potential (x + s) (y + s) = 50 * (x + s - 1000) + 50 * (y + s - 1000) + 104000 := by
          rw [potential_eq]
          simp [hw, hc, ho.1, ho.2, wideCoef, conic]
        rw [this]
        constructor <;> linarith
      have hv : m.velocity (x + s) (y + s) = .ok (-10, -10) := by
        rw [velocity_eq m hphys, if_neg (not_le.mpr hpot.1), hQ, hp, hT, hm]
        have : (20:ℝ) ≤ headOf 10 20 (m.potential (x + s) (y + s)) := by
          unfold headOf
          rw [if_neg (by linarith [hpot.2]), le_div_iff₀ (by norm_num)]
          linarith [hpot.2]
        rw [min_eq_right this]
        norm_num
      unfold backVelocity
      simp only [Bool.false_eq_true, if_false, hv]
      refine congrArg (fun v => Except.ok (emb v)) (Prod.ext ?_ ?_) <;> norm_num
  have hg0 : ∀ n : ℕ, finPart (fun _ => m.toX.backVelocity c) n (x, y) = .ok (10, 10) := fun n => by simpa using hg n 0 le_rfl
  simp only [reverseVelocity_eq]
  obtain ⟨k, est, ds, ht, he, hd⟩ : ∃ k est ds, trial (finPart (fun _ => m.toX.backVelocity c)) 1 (x, y) (10, 10) (1/10) = .ok ((x + 1, y + 1), k, est, ds) ∧ est < 1 ∧ ds < 10 := by
    refine ⟨(10, 10), 0, Real.sqrt 2, ?_, by norm_num, ?_⟩
    · unfold trial
      simp only [sc, scq, PyMath.q_real, Prod.mk_add_mk, bind, Except.bind, pure, Except.pure]
      norm_num [hg, hg0, normInf, norm2]
    · rw [Real.sqrt_lt' (by norm_num)]
      norm_num
  have : ∃ ss, computeBacktrace x y (1/10) 1 10 (finPart (fun _ => m.toX.backVelocity c)) = some ⟨[(x, y), (x + 1, y + 1)], ss, none⟩ := by
    unfold computeBacktrace
    rw [hg0 0]
    simp only
    rw [traceLoop]
    have e0 : (PyMath.q 0 : ℝ) = 0 := by simp
    have e1 : (PyMath.q (1/10) : ℝ) * PyMath.sign (1/10 : ℝ) = 1/10 := by
      show ((1/10 : ℚ) : ℝ) * Real.sign (1/10) = 1/10
      rw [Real.sign_of_pos (by norm_num)]
      norm_num
    have e2 : clipDt (1/10 : ℝ) 0 (1/10) = 1/10 := by
      unfold clipDt
      rw [if_neg (by show ¬ |(1/10:ℝ)| < |0 + 1/10|; norm_num)]
    rw [e0, e1, e2, if_pos (by norm_num), ht]
    simp only [he, hd, and_self, if_true, zero_add]
    rw [traceLoop, if_neg (by simp)]
    exact ⟨_, rfl⟩
  obtain ⟨ss, h⟩ := this
  exact ⟨_, backtrace_lift (by norm_num) h rfl⟩

/-- where the traces start -/
noncomputable def wideStart : ℕ → ℝ × ℝ
  | 0 => (1002, 1000)
  | 1 => (1000, 1002)
  | 2 => (998, 1000)
  | _ => (1000, 998)

theorem wide_start (k : ℕ) (hk : k < 4) : (1000 + (1 + 1) * Real.cos (2 * Real.pi * k / (4:ℤ)), 1000 + (1 + 1) * Real.sin (2 * Real.pi * k / (4:ℤ))) = wideStart k := by
  have h1 : 2 * Real.pi * (1:ℕ) / (4:ℤ) = Real.pi / 2 := by push_cast; ring
  have h2 : 2 * Real.pi * (2:ℕ) / (4:ℤ) = Real.pi := by push_cast; ring
  have h3 : 2 * Real.pi * (3:ℕ) / (4:ℤ) = Real.pi + Real.pi / 2 := by push_cast; ring
  obtain rfl | rfl | rfl | rfl : k = 0 ∨ k = 1 ∨ k = 2 ∨ k = 3 := by omega
  · simp [wideStart]; norm_num
  · rw [h1]; simp [wideStart]; norm_num
  · rw [h2]; simp [wideStart]; norm_num
  · rw [h3, Real.cos_add, Real.sin_add]; simp [wideStart]; norm_num

theorem wideStart_low (k : ℕ) : 1900 ≤ (wideStart k).1 + (wideStart k).2 := by
  unfold wideStart
  split <;> norm_num

theorem wideStart_ne (k : ℕ) : (wideStart k).1 ≠ (wideStart k).2 := by
  unfold wideStart
  split <;> norm_num

/-- what the traces of a model are whose parameters are those of the call -/
theorem wide_traces (r : ℤ) (u : ℝ) (c : Bool) {q : Dist → ℕ → Except PyErr ℝ} {coefs : (Fin 6 → ℝ) → Matrix (Fin 6) (Fin 6) ℝ → Except PyErr (Fin 6 → ℝ)} (hq : ∀ x j, q (.const x) j = .ok x)
    (hc : ∀ ev cov, coefs ev cov = .ok ev) {m : Aquifer ℝ} (h : DrawnModel { (wideInputs r u c).run with obs := risingObs } q m) {ev c' : Fin 6 → ℝ} {cov : Matrix (Fin 6) (Fin 6) ℝ}
    (hf : (m.fitRegionalFlow perfect risingObs 1000 1000).2 = .ok (ev, cov)) (hcoef : coefs ev cov = .ok c') (k : ℕ) (hk : k < 4) :
    ∃ ss, computeBacktrace (.fin (1000 + (1 + 1) * Real.cos (2 * Real.pi * k / (4:ℤ)))) (.fin (1000 + (1 + 1) * Real.sin (2 * Real.pi * k / (4:ℤ)))) (.fin (1/10)) (.fin 1) (.fin 10)
      (fun _ => ({ m with xo := 1000, yo := 1000, coef := c' } : Aquifer ℝ).toX.reverseVelocity c) =
      some ⟨[floats (wideStart k), floats ((wideStart k).1 + 1, (wideStart k).2 + 1)], ss, none⟩ := by
  have hb : m.base = 0 := h.base
  have hK : m.conductivity = 10 := (Except.ok.inj ((hq 10 _).symm.trans h.conductivity)).symm
  have hP : m.porosity = 1/4 := (Except.ok.inj ((hq (1/4) _).symm.trans h.porosity)).symm
  have hT : m.thickness = 20 := (Except.ok.inj ((hq 20 _).symm.trans h.thickness)).symm
  have hW : m.wells = [⟨1000, 1000, 1, 0⟩] := by
    obtain ⟨d, h1, h2⟩ := h.wells 0 ⟨1000, 1000, 1, .const 0⟩ rfl
    obtain rfl : 0 = d := Except.ok.inj ((hq 0 _).symm.trans h2)
    have h3 : m.wells.length = 1 := h.wells_length
    obtain ⟨w, hw⟩ := List.length_eq_one_iff.mp h3
    rw [hw] at h1 ⊢
    exact congrArg (fun w => [w]) (Option.some.inj h1)
  obtain rfl : ev = wideCoef := wide_fit hb hK hT hW hf
  obtain rfl : wideCoef = c' := Except.ok.inj ((hc _ _).symm.trans hcoef)
  have hs : _ = ((wideStart k).1, (wideStart k).2) := wide_start k hk
  obtain ⟨ss, e⟩ := wide_trace c (m := { m with xo := 1000, yo := 1000, coef := wideCoef }) hK hP hT hW ⟨rfl, rfl⟩ rfl (wideStart_ne k) (wideStart_low k)
  refine ⟨ss, ?_⟩
  rw [(Prod.mk.inj hs).1, (Prod.mk.inj hs).2]
  exact e

theorem wide_no_endless (r : ℤ) (u : ℝ) (c : Bool) (t : DateTime) : ¬ EndlessRun (wideInputs r u c) risingObs (wideEnv t).run ⟨1000, 1000, 1, .const 0⟩ := by
  have key : ∀ (q : Dist → ℕ → Except PyErr ℝ) (coefs : (Fin 6 → ℝ) → Matrix (Fin 6) (Fin 6) ℝ → Except PyErr (Fin 6 → ℝ)) (i : ℕ), (∀ x j, q (.const x) j = .ok x) → (∀ ev cov, coefs ev cov = .ok ev) →
      ¬ EndlessTrace { (wideInputs r u c).run with obs := risingObs } (wideEnv t).run.la ⟨1000, 1000, 1, .const 0⟩ q coefs ((wideEnv t).run.interrupt i) := by
    rintro q coefs i hq hc ⟨m, ev, cov, c', h1, h2, h3, k, h4, h5⟩
    have h4' : (k : ℤ) < 4 := h4
    obtain ⟨ss, e⟩ := wide_traces r u c hq hc h1 h2 h3 k (by omega)
    exact absurd (e.symm.trans h5) (by simp)
  unfold EndlessRun
  split
  · rintro ⟨i, -, h⟩
    exact key _ _ _ (fun _ _ => rfl) (fun _ _ => rfl) h
  · exact key _ _ _ (fun _ _ => rfl) (fun _ _ => rfl)

theorem wide_returns (r : ℤ) {u : ℝ} (hu : 0 < u) (c : Bool) (t : DateTime) : (oneka (wideCall r u c) (wideEnv t)).ending = .returns .none :=
  C70_returns (env := wideEnv t) (wide_acceptable r hu c) (wide_denotes r u c) (wide_regular r u c)
    (fun _ => ⟨wide_spread r u c, fun _ j => by simp only [wideEnv, exampleEnv]; norm_num⟩) perfect_correct
    perfect_converges risingObs 0 _ (wide_retained r u c) rfl rfl (by simp [risingObs])
    (fun o ho => by
      obtain ⟨h1, -, h2, -, h3, -⟩ := risingObs_cases ho
      show (0:ℝ) < o.z
      linarith) risingObs_general
    (fun _ _ ev _ => ⟨ev, rfl⟩) (wide_no_endless r u c t) rfl rfl

/-- the tracks of the realization -/
theorem wide_paths (r : ℤ) (u : ℝ) (c : Bool) (t : DateTime) {L : RealizationLog}
    (R : Realized { (wideInputs r u c).run with obs := risingObs } (wideEnv t).run.la ⟨1000, 1000, 1, .const 0⟩ (fun d _ => d.mean) (fun ev _ => .ok ev) ((wideEnv t).run.interrupt 0) L) :
    L.paths = [[(1002, 1000), (1003, 1001)], [(1000, 1002), (1001, 1003)], [(998, 1000), (999, 1001)], [(1000, 998), (1001, 999)]] := by
  have hlen : L.traces.length = 4 := R.traces_length
  have each : ∀ k (hk : k < L.traces.length), L.traces[k].path = [wideStart k, ((wideStart k).1 + 1, (wideStart k).2 + 1)] := by
    intro k hk
    have h1 := R.traces k _ (List.getElem?_eq_getElem hk)
    have hb : L.model.base = 0 := R.base
    have hK : L.model.conductivity = 10 := (Except.ok.inj R.conductivity).symm
    have hP : L.model.porosity = 1/4 := (Except.ok.inj R.porosity).symm
    have hT : L.model.thickness = 20 := (Except.ok.inj R.thickness).symm
    have hW : L.model.wells = [⟨1000, 1000, 1, 0⟩] := by
      obtain ⟨d, h1, h2⟩ := R.wells 0 ⟨1000, 1000, 1, .const 0⟩ rfl
      obtain rfl : 0 = d := Except.ok.inj h2
      have h3 : L.model.wells.length = 1 := R.wells_length
      obtain ⟨w, hw⟩ := List.length_eq_one_iff.mp h3
      rw [hw] at h1 ⊢
      exact congrArg (fun w => [w]) (Option.some.inj h1)
    have hcoef : L.model.coef = wideCoef := (Except.ok.inj R.coef).symm.trans (wide_fit hb hK hT hW R.fit)
    obtain ⟨ss, e⟩ := wide_trace c (m := L.model) hK hP hT hW R.origin hcoef (wideStart_ne k) (wideStart_low k)
    have hs : _ = ((wideStart k).1, (wideStart k).2) := wide_start k (by omega)
    have h2 : computeBacktrace (.fin (1000 + (1 + 1) * Real.cos (2 * Real.pi * k / (4:ℤ)))) (.fin (1000 + (1 + 1) * Real.sin (2 * Real.pi * k / (4:ℤ)))) (.fin (1/10)) (.fin 1) (.fin 10)
      (fun _ => L.model.toX.reverseVelocity c) = some L.traces[k] := h1
    rw [(Prod.mk.inj hs).1, (Prod.mk.inj hs).2] at h2
    rw [← Option.some.inj (e.symm.trans h2)]
    simp [Trace.path, floats]
  unfold RealizationLog.paths
  match hL : L.traces, hlen with
  | [t0, t1, t2, t3], _ =>
    have e0 := each 0 (by omega)
    have e1 := each 1 (by omega)
    have e2 := each 2 (by omega)
    have e3 := each 3 (by omega)
    simp only [hL, List.getElem_cons_zero, List.getElem_cons_succ] at e0 e1 e2 e3
    simp only [List.map_cons, List.map_nil, e0, e1, e2, e3, wideStart]
    norm_num

theorem near_pair {a b : ℝ × ℝ} {u X Y : ℝ} (h : NearTrack [a, b] u X Y) : NearSegment a.1 a.2 b.1 b.2 u X Y := by
  obtain ⟨c, d, ⟨l, l', e⟩, -, h⟩ := h
  match l, l' with
  | [], [] =>
    simp at e
    obtain ⟨rfl, rfl⟩ := e
    exact h
  | x :: l, _ => simp at e; have := congrArg List.length e.2; simp at this; omega
  | [], x :: l' => simp at e

/-- In the wide call the second track passes within the umbra of the node `(998, 1004)`, but the grid reaches this node only after the third. -/
theorem wide_missed {L : RealizationLog} (hp : L.paths = [[(1002, 1000), (1003, 1001)], [(1000, 1002), (1001, 1003)], [(998, 1000), (999, 1001)], [(1000, 998), (1001, 999)]]) :
    L.Captures 3 998 1004 ∧ ¬ RecordsInOrder 1000 1000 1 1 [] 3 L.paths (998:ℝ) 1004 ∧ Reached 1000 1000 1 1 L.paths.flatten (998:ℝ) 1004 := by
  rw [captures_paths, hp]
  refine ⟨⟨_, List.mem_cons_of_mem _ (List.mem_cons_self ..), (1000, 1002), (1001, 1003), List.infix_rfl, by norm_num, 0, le_rfl, zero_le_one, by norm_num⟩, ?_, ?_⟩
  · rintro ⟨before, track, after, e, hn, hr⟩
    match before, e with
    | [], e =>
      obtain ⟨rfl, -⟩ := List.cons.inj e
      obtain ⟨s, h0, h1, h⟩ := near_pair hn
      simp only at h
      nlinarith
    | [b0], e =>
      simp only [List.cons_append, List.nil_append, List.cons.injEq] at e
      obtain ⟨rfl, rfl, -⟩ := e
      have := hr.1.1
      simp at this
      norm_num at this
    | [b0, b1], e =>
      simp only [List.cons_append, List.nil_append, List.cons.injEq] at e
      obtain ⟨-, -, rfl, -⟩ := e
      obtain ⟨s, h0, h1, h⟩ := near_pair hn
      simp only at h
      nlinarith
    | [b0, b1, b2], e =>
      simp only [List.cons_append, List.nil_append, List.cons.injEq] at e
      obtain ⟨-, -, -, rfl, -⟩ := e
      obtain ⟨s, h0, h1, h⟩ := near_pair hn
      simp only at h
      nlinarith
    | b0 :: b1 :: b2 :: b3 :: l, e => have := congrArg List.length e; simp at this
  · simp [Reached, InReach]
    norm_num

/-- **C132**, the converse fails: with an umbra wider than the spacing, a stochastic run in which every draw takes its mean can give a node the probability `(r - 1) / r` although the deterministic run gives it 0, because the first
realization had not reached the node when the track passed it. Two calls that return, and their archives. -/
theorem C132_wide (r : ℤ) (hr : 1 < r) (t : DateTime) (fs : Files) :
    (wideInputs r 3 true).run.Certain (wideEnv t).run r.toNat ∧ (wideInputs 1 3 true).run = (wideInputs r 3 true).run ∧
    ∃ (d d' : Dict) (f f' : PField ℝ),
      loadOneka ((oneka (wideCall r 3 true) (wideEnv t)).events.foldl Effect.apply fs) t.archiveName = .ok d ∧ d.get "pfield" = some (.field (.field f)) ∧
      loadOneka ((oneka (wideCall 1 3 true) (wideEnv t)).events.foldl Effect.apply fs) t.archiveName = .ok d' ∧ d'.get "pfield" = some (.field (.field f')) ∧
      f'.IsNode 998 1004 ∧ f'.probAt 998 1004 = 0 ∧ f.probAt 998 1004 = (r - 1) / r := by
  classical
  refine ⟨wide_certain r 3 true t _, rfl, ?_⟩
  obtain ⟨d, d', f, f', L, h1, h2, h3, h4, hL, -, hnode, hweight, -⟩ := C132_archived (wideCall r 3 true) (wideCall 1 3 true) (wideInputs r 3 true) (wideInputs 1 3 true) (wideEnv t) (wideEnv t) _ _ (wide_denotes r 3 true) (wide_denotes 1 3 true)
    (wide_returns r (u := 3) three_pos true t) (wide_returns 1 (u := 3) three_pos true t) fs fs rfl rfl rfl hr (le_refl (1:ℤ)) (wide_certain r 3 true t _)
  obtain ⟨d1, f1, obs, k, w, L1, g1, g2, g3, -, g4, g5, g6, g7, tot', -⟩ := C68_deterministic (wideCall 1 3 true) (wideInputs 1 3 true) (wideEnv t) _ (wide_denotes 1 3 true) (le_refl (1:ℤ)) (wide_returns 1 (u := 3) three_pos true t) fs
  obtain rfl : obs = risingObs := Except.ok.inj (g3.symm.trans (wide_retained 1 3 true))
  obtain rfl : k = 0 := by
    have : ((0:ℕ):ℤ) = (k:ℤ) := g4
    omega
  obtain rfl : (⟨1000, 1000, 1, .const 0⟩ : SWell) = w := Option.some.inj g5
  obtain rfl : L1 = L := List.singleton_inj.mp (g6.symm.trans hL)
  obtain ⟨c1, c2, c3⟩ := wide_missed (wide_paths 1 3 true t g7)
  obtain ⟨d2, f2, k2, w2, k3, k4, k5, k6, k7, k8, k9⟩ := C74_archived (wideCall 1 3 true) (wideInputs 1 3 true) (wideEnv t) _ (wide_denotes 1 3 true) (wide_returns 1 (u := 3) three_pos true t) fs
  obtain rfl : k2 = 0 := by
    have : ((0:ℕ):ℤ) = (k2:ℤ) := k5
    omega
  obtain rfl : (⟨1000, 1000, 1, .const 0⟩ : SWell) = w2 := Option.some.inj k6
  obtain rfl : d1 = d' := Except.ok.inj (g1.symm.trans h3)
  obtain rfl : d2 = d1 := Except.ok.inj (k3.symm.trans g1)
  obtain rfl : f1 = f' := by simpa using g2.symm.trans h4
  obtain rfl : f2 = f1 := by simpa using k4.symm.trans g2
  have hN : f2.IsNode 998 1004 := by
    rw [k8, g6]
    refine ⟨⟨-2, 4, by simp [wideInputs]; norm_num, by simp [wideInputs]; norm_num⟩, ?_⟩
    rw [show allVertices [L1] = L1.paths.flatten by simp [allVertices]]
    exact c3
  have hz : f2.weightAt 998 1004 = 0 := by
    rw [k9 _ _ hN, g6]
    simp only [Nat.cast_eq_zero, List.countP_eq_zero]
    intro i hi
    obtain rfl : i = 0 := by simpa using hi
    simp only [decide_eq_true_eq]
    rintro ⟨L', e, h⟩
    obtain rfl := Option.some.inj e
    exact c2 h
  have htot : f.total = r := by
    obtain ⟨d3, f3, -, -, -, m1, m2, -, -, -, -, -, -, m, -⟩ := C68_stochastic (wideCall r 3 true) (wideInputs r 3 true) (wideEnv t) _ (wide_denotes r 3 true) hr (wide_returns r (u := 3) three_pos true t) fs
    obtain rfl : d3 = d := Except.ok.inj (m1.symm.trans h1)
    obtain rfl : f3 = f := by simpa using m2.symm.trans h2
    exact m
  refine ⟨d, d2, f, f2, h1, h2, h3, h4, hN, by rw [PField.probAt, hz, zero_div], ?_⟩
  rw [PField.probAt, hweight _ _ hN, hz, htot, show (wideInputs r 3 true).run.umbra = 3 from rfl, if_pos c1]
  simp [wideInputs, exampleInputs]

end Oneka
