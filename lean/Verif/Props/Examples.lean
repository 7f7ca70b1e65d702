import Verif.Props.Causes
import Verif.Props.Endless
import Verif.Props.Unusable
import Verif.Props.Wells
import Verif.Props.Reach

/-!
# A call that meets the hypotheses of C58–C61, C68–C72, C74 and C86

One well far away from seven observations, any number of realizations, exact linear algebra; every trace is interrupted after `N` velocity evaluations
(`N` is arbitrary), so that all traces return.
-/

namespace Oneka

/-- a finite float -/
def fl (x : ℝ) : PyVal := .float (.fin x)

/-- seven observations -/
noncomputable def sevenObs : List Obs := sixObs ++ [⟨2, 2, 33, 1⟩]

/-- the arguments, with `r` realizations -/
noncomputable def exampleCall (r : ℤ) : PyArgs where
  projectname := .str "Example"
  runtime := .str "2020-07-25"
  target := .int 0
  npaths := .int 10
  duration := .int 3650
  nrealizations := .int r
  base := .int 0
  cDist := .tuple [fl 5, fl 10, fl 20]
  pDist := .tuple [fl 0.2, fl 0.25]
  tDist := fl 20
  wells := .list [.tuple [fl 1000, fl 1000, fl 0.25, .tuple [fl 500, fl 1000]]]
  observations := .list (sevenObs.map fun o => .tuple [fl o.x, fl o.y, fl o.z, fl o.std])
  buffer := .int 100
  spacing := .int 4
  umbra := .int 4
  smooth := .int 1
  confined := .bool true
  tol := .int 1
  maxstep := .int 10

/-- the numbers in it -/
noncomputable def exampleInputs (r : ℤ) : Inputs where
  run := {
    target := 0
    npaths := 10
    duration := .fin 3650
    base := 0
    cDist := .tuple [5, 10, 20]
    pDist := .tuple [0.2, 0.25]
    tDist := .const 20
    wells := [⟨1000, 1000, 0.25, .tuple [500, 1000]⟩]
    obs := sevenObs
    spacing := 4
    umbra := 4
    confined := true
    tol := .fin 1
    maxstep := .fin 10 }
  nrealizations := r
  buffer := 100
  smooth := 1

/-- the environment, with clock `t` -/
noncomputable def exampleCallEnv (N : ℕ) (t : DateTime) : CallEnv where
  run := exampleEnv N
  gaussian g _ := g
  unmodelled _ := ([], .diverges)
  now := t
  openError := none
  writeError := none

theorem fl_isReal (x : ℝ) : (fl x).IsReal x := rfl

theorem int_isReal (n : ℤ) : (PyVal.int n).IsReal n := rfl

theorem sevenObs_usable : ∀ o ∈ sevenObs, (0:ℝ) < o.z ∧ 0 < o.std := by
  intro o ho
  simp only [sevenObs, sixObs, List.cons_append, List.nil_append, List.mem_cons, List.not_mem_nil, or_false] at ho
  rcases ho with rfl | rfl | rfl | rfl | rfl | rfl | rfl <;> constructor <;> norm_num

theorem sevenObs_general : ¬ OnOneConic sevenObs := by
  rintro ⟨c, hc, h⟩
  exact sixObs_general ⟨c, hc, fun o ho => h o (by simp [sevenObs, ho])⟩

theorem fin_pos {x : ℝ} (h : 0 < x) : (.fin 0 : XR) < .fin x := (XR.fin_lt _ _).mpr h

theorem positive_int {n : ℤ} (h : 0 < n) : (PyVal.int n).NumberWith fun x => .fin 0 < x := ⟨.fin n, rfl, fin_pos (by exact_mod_cast h)⟩

theorem exampleCall_acceptable (r : ℤ) : Acceptable (exampleCall r) where
  projectname := ⟨_, rfl⟩
  runtime := ⟨_, rfl⟩
  wells := by
    refine ⟨_, rfl, ?_, 0, .inl rfl, le_rfl, by simp⟩
    intro w hw
    obtain rfl := List.mem_singleton.mp hw
    refine ⟨_, _, _, _, .inl rfl, ⟨_, rfl, trivial⟩, ⟨_, rfl, trivial⟩, ⟨_, rfl, fin_pos (by norm_num)⟩, .inr (.inl ⟨_, _, _, _, .inl rfl, rfl, rfl, ?_, ?_, ?_⟩)⟩
    · trivial
    · show (500:ℝ) ≤ 1000
      norm_num
    · trivial
  npaths := .inl ⟨10, rfl, by norm_num⟩
  duration := ⟨_, rfl, by simp⟩
  base := ⟨_, rfl, trivial⟩
  cDist := by
    refine .inr (.inr ⟨_, _, _, _, _, _, .inl rfl, rfl, rfl, rfl, ?_, ?_, ?_, ?_⟩)
    · show (0:ℝ) ≤ 5
      norm_num
    · show (5:ℝ) ≤ 10
      norm_num
    · show (10:ℝ) ≤ 20
      norm_num
    · trivial
  pDist := by
    refine .inr (.inl ⟨_, _, _, _, .inl rfl, rfl, rfl, ?_, ?_, ?_⟩)
    · show (0:ℝ) ≤ 0.2
      norm_num
    · show (0.2:ℝ) ≤ 0.25
      norm_num
    · show (0.25:ℝ) ≤ 1
      norm_num
  tDist := by
    refine .inl ⟨_, rfl, ?_, ?_⟩
    · show (0:ℝ) ≤ 20
      norm_num
    · trivial
  observations := by
    refine ⟨_, rfl, by simp [sevenObs, sixObs], ?_⟩
    intro v hv
    obtain ⟨o, ho, rfl⟩ := List.mem_map.mp hv
    exact ⟨_, _, _, _, .inl rfl, ⟨_, rfl, trivial⟩, ⟨_, rfl, trivial⟩, ⟨_, rfl, trivial⟩, ⟨_, rfl, (sevenObs_usable o ho).2.le⟩⟩
  buffer := positive_int (by norm_num)
  spacing := positive_int (by norm_num)
  umbra := positive_int (by norm_num)
  smooth := positive_int (by norm_num)
  confined := ⟨true, rfl⟩
  tol := positive_int (by norm_num)
  maxstep := positive_int (by norm_num)

theorem exampleCall_denotes (r : ℤ) : (exampleCall r).Denotes (exampleInputs r) where
  target := .inl rfl
  npaths := .inl rfl
  duration := by simp [exampleCall, exampleInputs, PyVal.num]
  nrealizations := .inl rfl
  base := by simp [exampleCall, exampleInputs, PyVal.IsReal, PyVal.num]
  cDist := ⟨_, rfl, .cons (fl_isReal _) (.cons (fl_isReal _) (.cons (fl_isReal _) .nil))⟩
  pDist := ⟨_, rfl, .cons (fl_isReal _) (.cons (fl_isReal _) .nil)⟩
  tDist := fl_isReal _
  wells := ⟨_, rfl, .cons ⟨_, _, _, _, .inl rfl, fl_isReal _, fl_isReal _, fl_isReal _, ⟨_, rfl, .cons (fl_isReal _) (.cons (fl_isReal _) .nil)⟩⟩ .nil⟩
  observations := by
    refine ⟨_, rfl, ?_⟩
    rw [show (exampleInputs r).run.obs = sevenObs from rfl, List.forall₂_map_left_iff, List.forall₂_same]
    intro o _
    exact ⟨_, _, _, _, .inl rfl, fl_isReal _, fl_isReal _, fl_isReal _, fl_isReal _⟩
  buffer := by simp [exampleCall, exampleInputs, PyVal.IsReal, PyVal.num]
  spacing := by simp [exampleCall, exampleInputs, PyVal.IsReal, PyVal.num]
  umbra := by simp [exampleCall, exampleInputs, PyVal.IsReal, PyVal.num]
  smooth := by simp [exampleCall, exampleInputs, PyVal.IsReal, PyVal.num]
  confined := rfl
  tol := by simp [exampleCall, exampleInputs, PyVal.num]
  maxstep := by simp [exampleCall, exampleInputs, PyVal.num]

theorem exampleInputs_regular (r : ℤ) : (exampleInputs r).Regular := by
  refine ⟨?_, ?_, fun o ho => (sevenObs_usable o ho).2⟩
  · intro x hx
    simp only [List.mem_cons, List.not_mem_nil, or_false] at hx
    rcases hx with rfl | rfl | rfl <;> norm_num
  · show (0:ℝ) < 20
    norm_num

theorem exampleInputs_porous (r : ℤ) : (exampleInputs r).run.pDist.Pos := by
  intro x hx
  simp only [List.mem_cons, List.not_mem_nil, or_false] at hx
  rcases hx with rfl | rfl <;> norm_num

theorem exampleInputs_spread (r : ℤ) : (exampleInputs r).Spread := by
  refine ⟨?_, ?_, ?_, ?_⟩
  · rintro ⟨x, m, h⟩
    simp only [exampleInputs, Dist.tuple.injEq, List.cons.injEq, and_true] at h
    obtain ⟨h1, -, h2⟩ := h
    rw [← h1] at h2
    norm_num at h2
  · rintro ⟨x, m, h⟩
    simp [exampleInputs] at h
  · rintro ⟨x, m, h⟩
    simp [exampleInputs] at h
  · intro w hw
    obtain rfl := List.mem_singleton.mp hw
    rintro ⟨x, m, h⟩
    simp at h

theorem example_retained (r : ℤ) : filterObs (exampleInputs r).run.obs ((exampleInputs r).run.wells.map fun w => (w.xw, w.yw)) (exampleInputs r).buffer =
    .ok sevenObs := by
  classical
  unfold filterObs
  have : removeNear (exampleInputs r).buffer ((exampleInputs r).run.wells.map fun w => (w.xw, w.yw)) (exampleInputs r).run.obs = sevenObs := by
    rw [removeNear_eq, show (exampleInputs r).run.obs = sevenObs from rfl, List.filter_eq_self]
    intro o ho
    simp only [exampleInputs, List.map_cons, List.map_nil, List.mem_singleton, forall_eq, decide_eq_true_eq]
    simp only [sevenObs, sixObs, List.cons_append, List.nil_append, List.mem_cons, List.not_mem_nil, or_false] at ho
    rcases ho with rfl | rfl | rfl | rfl | rfl | rfl | rfl <;> (unfold Obs.dist; rw [Real.lt_sqrt (by norm_num)]; norm_num)
  rw [this]
  refine mergeRuns_chain _ ?_
  unfold sevenObs sixObs
  simp only [List.cons_append, List.nil_append]
  refine .cons_cons ?_ (.cons_cons ?_ (.cons_cons ?_ (.cons_cons ?_ (.cons_cons ?_ (.cons_cons ?_ (.singleton _)))))) <;>
    (unfold Obs.dist; rw [Real.le_sqrt' one_pos]; norm_num)

theorem example_no_endless (n : Inputs) (N : ℕ) (t : SWell) : ¬ EndlessRun n sevenObs (exampleEnv N) t := by
  have key : ∀ (a : RunArgs) (q : Dist → ℕ → Except PyErr ℝ) (coefs : (Fin 6 → ℝ) → Matrix (Fin 6) (Fin 6) ℝ → Except PyErr (Fin 6 → ℝ)) (i : ℕ),
      ¬ EndlessTrace a (exampleEnv N).la t q coefs ((exampleEnv N).interrupt i) := by
    rintro a q coefs i ⟨m, ev, cov, c, -, -, -, k, -, h⟩
    refine absurd h (Option.isSome_iff_ne_none.mp ?_)
    obtain ⟨tr, htr⟩ := interrupted_terminates (F := XR) (N := N) (fe := fun n p => match (exampleEnv N).interrupt i k n with
      | some e => .error e
      | none => ({ m with xo := t.xw, yo := t.yw, coef := c } : Aquifer ℝ).toX.reverseVelocity a.confined p)
      (fun p => ⟨.keyboardInterrupt, by simp [exampleEnv]⟩) (.fin (t.xw + (t.rw + 1) * Real.cos (2 * Real.pi * k / a.npaths)))
        (.fin (t.yw + (t.rw + 1) * Real.sin (2 * Real.pi * k / a.npaths))) a.duration a.tol a.maxstep
    exact Option.isSome_of_eq_some htr
  unfold EndlessRun
  split
  · rintro ⟨i, -, h⟩
    exact key _ _ _ _ h
  · exact key _ _ _ _

theorem example_draws (r : ℤ) (N : ℕ) (t : DateTime) : 1 < (exampleInputs r).nrealizations →
    (exampleInputs r).Spread ∧ ∀ i j, 0 ≤ (exampleCallEnv N t).run.u i j ∧ (exampleCallEnv N t).run.u i j < 1 :=
  fun _ => ⟨exampleInputs_spread r, fun _ _ => by simp only [exampleCallEnv, exampleEnv]; norm_num⟩

/-- C70: the hypotheses of `C70_returns` are met; the call returns. -/
theorem example_returns (r : ℤ) (N : ℕ) (t : DateTime) : (oneka (exampleCall r) (exampleCallEnv N t)).ending = .returns .none :=
  C70_returns (env := exampleCallEnv N t) (exampleCall_acceptable r) (exampleCall_denotes r) (exampleInputs_regular r) (example_draws r N t) perfect_correct
    perfect_converges sevenObs 0 _ (example_retained r) rfl rfl (by simp [sevenObs, sixObs]) (fun o ho => (sevenObs_usable o ho).1) sevenObs_general
    (fun _ _ ev _ => ⟨ev, rfl⟩) (example_no_endless _ N _) rfl rfl

/-! ## C58 -/

/-- C58: an unacceptable call: a non-positive buffer -/
example (r : ℤ) : ¬ Acceptable { exampleCall r with buffer := .int 0 } := by
  rintro ⟨-, -, -, -, -, -, -, -, -, -, ⟨x, hx, h⟩, -⟩
  simp only [PyVal.num, Int.cast_zero, Option.some.injEq] at hx
  rw [← hx, XR.fin_lt] at h
  exact lt_irrefl _ h

/-! ## C59 -/

/-- C59: acceptable calls, and one with a float for the number of realizations -/
example (r : ℤ) : Acceptable (exampleCall r) ∧ Acceptable { exampleCall r with nrealizations := .float (.fin 100) } := by
  have h := exampleCall_acceptable r
  exact ⟨h, h.1, h.2, h.3, h.4, h.5, h.6, h.7, h.8, h.9, h.10, h.11, h.12, h.13, h.14, h.15, h.16, h.17⟩

/-! ## C81 -/

/-- C81: a stochastic call and a deterministic one, with finite regular arguments, that return -/
example (r : ℤ) (N : ℕ) (t : DateTime) : (exampleCall r).Denotes (exampleInputs r) ∧ (exampleInputs r).Regular ∧ (exampleInputs r).run.pDist.Pos ∧
    (1 < (exampleInputs r).nrealizations → (exampleInputs r).Spread ∧ ∀ i j, 0 ≤ (exampleCallEnv N t).run.u i j ∧ (exampleCallEnv N t).run.u i j < 1) ∧
    (oneka (exampleCall r) (exampleCallEnv N t)).ending = .returns .none ∧
    (exampleInputs r).run.duration = .fin 3650 ∧ (exampleInputs r).run.tol = .fin 1 ∧ (exampleInputs r).run.maxstep = .fin 10 :=
  ⟨exampleCall_denotes _, exampleInputs_regular _, exampleInputs_porous _, example_draws r N t, example_returns _ N t, rfl, rfl, rfl⟩

/-! ## C60, C68, C69, C71 -/

/-- C60, C68, C69, C71: a stochastic call with finite arguments that returns -/
example (N : ℕ) (t : DateTime) : (exampleCall 100).Denotes (exampleInputs 100) ∧ 1 < (exampleInputs 100).nrealizations ∧
    (oneka (exampleCall 100) (exampleCallEnv N t)).ending = .returns .none :=
  ⟨exampleCall_denotes _, by simp [exampleInputs], example_returns _ N t⟩

/-- C60, C68, C69, C71: a deterministic one -/
example (N : ℕ) (t : DateTime) : (exampleCall 1).Denotes (exampleInputs 1) ∧ (exampleInputs 1).nrealizations ≤ 1 ∧
    (oneka (exampleCall 1) (exampleCallEnv N t)).ending = .returns .none :=
  ⟨exampleCall_denotes _, by simp [exampleInputs], example_returns _ N t⟩

/-- C60: a call that does not return: the disk is full -/
example (N : ℕ) (t : DateTime) : ∀ v, (oneka (exampleCall 1) { exampleCallEnv N t with writeError := some (.other 7) }).ending ≠ .returns v := by
  intro v hv
  obtain ⟨-, -, -, -, -, -, h, -⟩ := returned_course hv
  simp at h

/-! ## C74 -/

open Classical in
/-- C74: applied to such a call; in particular the target itself is a node of the archived field -/
example (N : ℕ) (t : DateTime) : ∃ (d : Dict) (f : PField ℝ),
    loadOneka ((oneka (exampleCall 100) (exampleCallEnv N t)).events.foldl Effect.apply fun _ => none) (exampleCallEnv N t).now.archiveName = .ok d ∧
    d.get "pfield" = some (.field (.field f)) ∧ f.IsNode 1000 1000 ∧
    f.weightAt 1000 1000 = ((List.range 100).countP fun i => RecordedBy 1000 1000 4 4 (realizations (oneka (exampleCall 100) (exampleCallEnv N t)).events) 1000 1000 i) := by
  obtain ⟨d, f, k, w, h1, h2, h3, h4, h5, h6, h7⟩ := C74_archived (exampleCall 100) (exampleInputs 100) (exampleCallEnv N t) _
    (exampleCall_denotes _) (example_returns 100 N t) (fun _ => none)
  obtain rfl : k = 0 := by simpa [exampleInputs] using h3.symm
  obtain rfl : w = ⟨1000, 1000, 0.25, .tuple [500, 1000]⟩ := by simpa [exampleInputs] using h4.symm
  have hl : (realizations (oneka (exampleCall 100) (exampleCallEnv N t)).events).length = 100 := by
    simp only [exampleInputs] at h5
    omega
  have hn : f.IsNode 1000 1000 := by
    rw [h6]
    exact ⟨⟨0, 0, by simp, by simp⟩, ⟨.inl (by simp [exampleInputs]), .inl (by simp [exampleInputs])⟩, .inl (by simp [exampleInputs]), .inl (by simp [exampleInputs])⟩
  refine ⟨d, f, h1, h2, hn, ?_⟩
  have := h7 _ _ hn
  rw [hl] at this
  exact this

/-! ## C61 -/

/-- C61: two calls that return, one second apart -/
example : (⟨2020, 7, 25, 12, 30, 0⟩ : DateTime).Valid ∧ (⟨2020, 7, 25, 12, 30, 1⟩ : DateTime).Valid ∧
    (⟨2020, 7, 25, 12, 30, 0⟩ : DateTime) ≠ ⟨2020, 7, 25, 12, 30, 1⟩ ∧
    ∀ t : DateTime, (oneka (exampleCall 100) (exampleCallEnv 7 t)).ending = .returns .none :=
  ⟨⟨by norm_num, by norm_num, by norm_num, by norm_num, by norm_num, by norm_num⟩, ⟨by norm_num, by norm_num, by norm_num, by norm_num, by norm_num, by norm_num⟩,
    by simp, fun t => example_returns _ 7 t⟩

/-- C61: two different calls in the same second, both of which return -/
example (t : DateTime) : (exampleCallEnv 7 t).now = (exampleCallEnv 8 t).now ∧ (oneka (exampleCall 1) (exampleCallEnv 7 t)).ending = .returns .none ∧
    (oneka (exampleCall 100) (exampleCallEnv 8 t)).ending = .returns .none ∧ exampleCall 1 ≠ exampleCall 100 := by
  refine ⟨rfl, example_returns _ 7 t, example_returns _ 8 t, fun h => ?_⟩
  have := congrArg PyArgs.nrealizations h
  simp [exampleCall] at this

/-- C61: the second one cannot write its archive -/
example (t : DateTime) : ∃ f, (oneka (exampleCall 1) { ({ exampleCallEnv 7 t with writeError := some (.other 7) } : CallEnv) with writeError := none }).ending =
    .returns f := ⟨_, example_returns 1 7 t⟩

/-! ## C69 -/

/-- C69: the condition on the decile lines is met by every line: with a trace of one vertex in every realization no node is captured -/
example (t : DateTime) : ∃ f : PField ℝ, ∃ d, loadOneka ((oneka (exampleCall 100) (exampleCallEnv 0 t)).events.foldl Effect.apply fun _ => none)
    (exampleCallEnv 0 t).now.archiveName = .ok d ∧ d.get "pfield" = some (.field (.field f)) ∧ ∀ p : ℝ, 0 ≤ p → (f.nodesWhere (fun w => w ≤ p)).Nonempty := by
  classical
  obtain ⟨d, f, obs, k, w, h1, h2, h3, h4, h5, h6, h7, h8, h9, h10, h11⟩ := C68_stochastic (exampleCall 100) (exampleInputs 100) (exampleCallEnv 0 t) _
    (exampleCall_denotes _) (by simp [exampleInputs]) (example_returns 100 0 t) (fun _ => none)
  refine ⟨f, d, h1, h2, fun p hp => ?_⟩
  have hcount : ∀ X Y, ((realizations (oneka (exampleCall 100) (exampleCallEnv 0 t)).events).countP fun L =>
      L.Captures (exampleInputs 100).run.umbra X Y) = 0 := by
    intro X Y
    rw [List.countP_eq_zero]
    intro L hL
    obtain ⟨i, hi, rfl⟩ := List.mem_iff_getElem.mp hL
    have R := h8 i _ (List.getElem?_eq_getElem hi)
    simp only [decide_eq_true_eq]
    rintro ⟨tr, htr, A, B, hAB, -, -⟩
    obtain ⟨j, hj, rfl⟩ := List.mem_iff_getElem.mp htr
    have := interrupted_at_once (e := .keyboardInterrupt) (by intro p; simp [exampleCallEnv, exampleEnv]) (R.traces j _ (List.getElem?_eq_getElem hj))
    unfold Trace.path at hAB
    rw [this] at hAB
    have := hAB.length_le
    simp at this
  obtain ⟨X, Y, hXY⟩ : ∃ X Y, f.IsNode X Y := by
    rcases returned_cases (exampleCall_denotes 100) (example_returns 100 0 t) with ⟨-, obs, cols, r, f', pl, im, lines, H⟩ | ⟨h, -⟩
    · obtain ⟨d', hd', hf'⟩ := archived_field (example_returns 100 0 t) H.archived fun _ => none
      obtain rfl : d = d' := by rw [h1] at hd'; exact Except.ok.inj hd'
      obtain rfl : f = f' := by rw [h2] at hf'; simpa using hf'
      have := at_least_nine f H.reachable H.total
      obtain ⟨⟨X, Y⟩, hm⟩ := Set.nonempty_of_ncard_ne_zero (s := f.nodesWhere fun _ => True) (by omega)
      exact ⟨X, Y, hm.1⟩
    · simp [exampleInputs] at h
  obtain ⟨i, j, rfl, rfl⟩ := h11 X Y hXY
  refine ⟨(_, _), hXY, ?_⟩
  show f.weightAt _ _ / f.total ≤ p
  rw [h10 i j (.inr (by simp [exampleInputs])), hcount]
  simpa using hp

/-! ## C70 -/

/-- C70: a call that fails because the base is above one of the heads -/
example (r : ℤ) (N : ℕ) (t : DateTime) : (oneka { exampleCall r with base := .int 30 } (exampleCallEnv N t)).ending = .raises .rangeError := by
  have hd : ({ exampleCall r with base := .int 30 } : PyArgs).Denotes { exampleInputs r with run := { (exampleInputs r).run with base := 30 } } :=
    { exampleCall_denotes r with base := by simp [PyVal.IsReal, PyVal.num] }
  have ha : Acceptable { exampleCall r with base := .int 30 } := { exampleCall_acceptable r with base := ⟨_, rfl, trivial⟩ }
  refine (C70_fit (env := exampleCallEnv N t) ha hd (exampleInputs_regular r) (example_draws r N t) perfect_correct
    perfect_converges sevenObs (example_retained r) (by simp [sevenObs, sixObs])).1 ?_
  exact ⟨_, List.mem_append_left _ (List.mem_cons_self ..), by norm_num⟩

/-- C70: a call that fails because the buffer leaves six of the seven observations -/
example (r : ℤ) (N : ℕ) (t : DateTime) : (oneka { exampleCall r with buffer := .int 1412 } (exampleCallEnv N t)).ending = .raises .assertionError := by
  classical
  have hd : ({ exampleCall r with buffer := .int 1412 } : PyArgs).Denotes { exampleInputs r with buffer := 1412 } :=
    { exampleCall_denotes r with buffer := by simp [PyVal.IsReal, PyVal.num] }
  have ha : Acceptable { exampleCall r with buffer := .int 1412 } :=
    { exampleCall_acceptable r with buffer := positive_int (by norm_num) }
  refine C70_few (env := exampleCallEnv N t) ha hd sixObs ?_ (by simp [sixObs])
  unfold filterObs
  have : removeNear 1412 ((exampleInputs r).run.wells.map fun w => (w.xw, w.yw)) (exampleInputs r).run.obs = sixObs := by
    rw [removeNear_eq, show (exampleInputs r).run.obs = sixObs ++ [⟨2, 2, 33, 1⟩] from rfl, List.filter_append]
    have h1 : sixObs.filter (fun o => decide (∀ w ∈ (exampleInputs r).run.wells.map fun w => (w.xw, w.yw), 1412 < o.dist w.1 w.2)) = sixObs := by
      rw [List.filter_eq_self]
      intro o ho
      simp only [exampleInputs, List.map_cons, List.map_nil, List.mem_singleton, forall_eq, decide_eq_true_eq]
      simp only [sixObs, List.mem_cons, List.not_mem_nil, or_false] at ho
      rcases ho with rfl | rfl | rfl | rfl | rfl | rfl <;> (unfold Obs.dist; rw [Real.lt_sqrt (by norm_num)]; norm_num)
    have h2 : [(⟨2, 2, 33, 1⟩ : Obs)].filter (fun o => decide (∀ w ∈ (exampleInputs r).run.wells.map fun w => (w.xw, w.yw), 1412 < o.dist w.1 w.2)) = [] := by
      rw [List.filter_eq_nil_iff]
      intro o ho
      obtain rfl := List.mem_singleton.mp ho
      simp only [exampleInputs, List.map_cons, List.map_nil, List.mem_singleton, forall_eq, decide_eq_true_eq]
      unfold Obs.dist
      rw [Real.lt_sqrt (by norm_num)]
      norm_num
    rw [h1, h2, List.append_nil]
  rw [this]
  refine mergeRuns_chain _ ?_
  unfold sixObs
  refine .cons_cons ?_ (.cons_cons ?_ (.cons_cons ?_ (.cons_cons ?_ (.cons_cons ?_ (.singleton _))))) <;>
    (unfold Obs.dist; rw [Real.le_sqrt' one_pos]; norm_num)

/-- C70: observations on one line are on one conic. -/
example : OnOneConic (sevenObs.map fun o => { o with y := 0 }) := by
  refine ⟨Pi.single 4 1, ?_, ?_⟩
  · intro h
    have := congrFun h 4
    simp at this
  · intro o ho
    obtain ⟨o', -, rfl⟩ := List.mem_map.mp ho
    simp [conic]

/-! ## C72 -/

/-- the arguments with a second well that does not pump, one metre east of the rim of the first -/
noncomputable def hangingCall (r : ℤ) : PyArgs where
  __ := exampleCall r
  wells := .list [.tuple [fl 1000, fl 1000, fl 0.25, .tuple [fl 500, fl 1000]], .tuple [fl 1001.25, fl 1000, fl 0.25, fl 0]]

/-- the numbers in them -/
noncomputable def hangingInputs (r : ℤ) : Inputs where
  __ := exampleInputs r
  run := { (exampleInputs r).run with wells := [⟨1000, 1000, 0.25, .tuple [500, 1000]⟩, ⟨1001.25, 1000, 0.25, .const 0⟩] }

/-- nothing interrupts the call -/
noncomputable def hangingEnv (t : DateTime) : CallEnv where
  __ := exampleCallEnv 0 t
  run := { exampleEnv 0 with interrupt := fun _ _ _ => none }

theorem hangingCall_acceptable (r : ℤ) : Acceptable (hangingCall r) where
  __ := exampleCall_acceptable r
  wells := by
    refine ⟨_, rfl, ?_, 0, .inl rfl, le_rfl, by simp⟩
    intro w hw
    simp only [List.mem_cons, List.not_mem_nil, or_false] at hw
    rcases hw with rfl | rfl
    · refine ⟨_, _, _, _, .inl rfl, ⟨_, rfl, trivial⟩, ⟨_, rfl, trivial⟩, ⟨_, rfl, fin_pos (by norm_num)⟩, .inr (.inl ⟨_, _, _, _, .inl rfl, rfl, rfl, ?_, ?_, ?_⟩)⟩
      · trivial
      · show (500:ℝ) ≤ 1000
        norm_num
      · trivial
    · exact ⟨_, _, _, _, .inl rfl, ⟨_, rfl, trivial⟩, ⟨_, rfl, trivial⟩, ⟨_, rfl, fin_pos (by norm_num)⟩, .inl ⟨_, rfl, trivial, trivial⟩⟩

theorem hangingCall_denotes (r : ℤ) : (hangingCall r).Denotes (hangingInputs r) where
  __ := exampleCall_denotes r
  wells := ⟨_, rfl, .cons ⟨_, _, _, _, .inl rfl, fl_isReal _, fl_isReal _, fl_isReal _, ⟨_, rfl, .cons (fl_isReal _) (.cons (fl_isReal _) .nil)⟩⟩
    (.cons ⟨_, _, _, _, .inl rfl, fl_isReal _, fl_isReal _, fl_isReal _, fl_isReal _⟩ .nil)⟩

theorem hangingInputs_spread (r : ℤ) : (hangingInputs r).Spread := by
  obtain ⟨h1, h2, h3, -⟩ := exampleInputs_spread r
  refine ⟨h1, h2, h3, ?_⟩
  intro w hw
  simp only [hangingInputs, List.mem_cons, List.not_mem_nil, or_false] at hw
  rcases hw with rfl | rfl <;> (rintro ⟨x, m, h⟩; simp at h)

theorem hanging_retained (r : ℤ) : filterObs (hangingInputs r).run.obs ((hangingInputs r).run.wells.map fun w => (w.xw, w.yw)) (hangingInputs r).buffer =
    .ok sevenObs := by
  classical
  unfold filterObs
  have : removeNear (hangingInputs r).buffer ((hangingInputs r).run.wells.map fun w => (w.xw, w.yw)) (hangingInputs r).run.obs = sevenObs := by
    rw [removeNear_eq, show (hangingInputs r).run.obs = sevenObs from rfl, List.filter_eq_self]
    intro o ho
    simp only [hangingInputs, exampleInputs, List.map_cons, List.map_nil, List.mem_cons, List.not_mem_nil, or_false, forall_eq_or_imp, forall_eq, decide_eq_true_eq]
    simp only [sevenObs, sixObs, List.cons_append, List.nil_append, List.mem_cons, List.not_mem_nil, or_false] at ho
    rcases ho with rfl | rfl | rfl | rfl | rfl | rfl | rfl <;>
      (unfold Obs.dist; rw [Real.lt_sqrt (by norm_num), Real.lt_sqrt (by norm_num)]; norm_num)
  rw [this]
  refine mergeRuns_chain _ ?_
  unfold sevenObs sixObs
  simp only [List.cons_append, List.nil_append]
  refine .cons_cons ?_ (.cons_cons ?_ (.cons_cons ?_ (.cons_cons ?_ (.cons_cons ?_ (.cons_cons ?_ (.singleton _)))))) <;>
    (unfold Obs.dist; rw [Real.le_sqrt' one_pos]; norm_num)

/-- C72: the hypotheses of `C72_hangs` are met: these calls, stochastic or not, never end. -/
theorem hanging_diverges (r : ℤ) (t : DateTime) : (oneka (hangingCall r) (hangingEnv t)).ending = .diverges :=
  (C72_hangs (env := hangingEnv t) (hangingCall_acceptable r) (hangingCall_denotes r) (exampleInputs_regular r)
    (fun _ => ⟨hangingInputs_spread r, fun _ _ => by simp only [hangingEnv, exampleEnv]; norm_num⟩) perfect_correct
    perfect_converges (exampleInputs_porous r) sevenObs 0 _ (hanging_retained r) rfl rfl (by simp [sevenObs, sixObs]) (fun o ho => (sevenObs_usable o ho).1) sevenObs_general
    (fun _ ev _ => ⟨ev, rfl⟩) rfl 3650 rfl (by norm_num) (fun _ _ => rfl)
    ⟨_, List.mem_cons_of_mem _ (List.mem_cons_self ..), by norm_num⟩).1

open Classical in
/-- C101: the log of a stochastic call that hangs ends with a realization that hangs, and it is not empty. -/
example (r : ℤ) (hr : 1 < r) (t : DateTime) : ∃ (w : SWell) (i : ℕ) (L : RealizationLog), (hangingInputs r).run.wells[0]? = some w ∧ (i : ℤ) < r ∧
    (realizations (oneka (hangingCall r) (hangingEnv t)).events)[i]? = some L ∧
    Stalled { (hangingInputs r).run with obs := sevenObs } (hangingEnv t).run.la w (fun d j => d.sample ((hangingEnv t).run.u i j)) ((hangingEnv t).run.mvn i)
      ((hangingEnv t).run.interrupt i) L := by
  obtain ⟨k, w, h1, h2, h3, h4, h5, -⟩ := C101_stochastic (env := hangingEnv t) (hangingCall_acceptable r) (hangingCall_denotes r) sevenObs (hanging_retained r) hr
  obtain rfl : k = 0 := by
    have : (0 : ℤ) = k := h1
    omega
  have hne := h5 (hanging_diverges r t)
  have hpos := List.length_pos_iff.mpr hne
  refine ⟨w, _, _, h2, ?_, List.getElem?_eq_getElem (i := (realizations (oneka (hangingCall r) (hangingEnv t)).events).length - 1) (by omega), ?_⟩
  · have : (hangingInputs r).nrealizations = r := rfl
    omega
  · have := (h4 _ _ (List.getElem?_eq_getElem (i := (realizations (oneka (hangingCall r) (hangingEnv t)).events).length - 1) (by omega))).2
    rwa [if_pos ⟨hanging_diverges r t, by omega⟩] at this

/-- C101: the log of a deterministic call that hangs. -/
example (t : DateTime) : ∃ L, realizations (oneka (hangingCall 1) (hangingEnv t)).events = [L] ∧ L.traces.length < 10 := by
  classical
  obtain ⟨k, w, -, -, h3, h4, h5, -⟩ := C101_deterministic (env := hangingEnv t) (hangingCall_acceptable 1) (hangingCall_denotes 1) sevenObs (hanging_retained 1) le_rfl
  obtain ⟨L, Ls, hL⟩ := List.exists_cons_of_ne_nil (h5 (hanging_diverges 1 t))
  obtain rfl : Ls = [] := by
    rw [hL] at h3
    simpa using h3
  refine ⟨L, hL, ?_⟩
  have := (h4 L (by rw [hL]; simp)).2
  rw [if_pos (hanging_diverges 1 t)] at this
  have h := this.traces_length
  have e : (hangingInputs 1).run.npaths = 10 := rfl
  simp only [e] at h
  omega

/-! ## C86 -/

/-- C86: calls that fail because the conductivity is zero -/
example (r : ℤ) (N : ℕ) (t : DateTime) : (oneka { exampleCall r with cDist := .int 0 } (exampleCallEnv N t)).ending = .raises .linAlgError := by
  have hd : ({ exampleCall r with cDist := .int 0 } : PyArgs).Denotes { exampleInputs r with run := { (exampleInputs r).run with cDist := .const 0 } } :=
    { exampleCall_denotes r with cDist := by simp [PyVal.Means, PyVal.IsReal, PyVal.num] }
  have ha : Acceptable { exampleCall r with cDist := .int 0 } :=
    { exampleCall_acceptable r with cDist := .inl ⟨.fin 0, by simp [PyVal.num], XR.fin_le _ _ |>.mpr le_rfl, trivial⟩ }
  exact C86_zero (env := exampleCallEnv N t) ha hd
    (fun h => ⟨⟨by rintro ⟨x, m, h⟩; simp at h, (exampleInputs_spread r).2⟩, (example_draws r N t h).2⟩) perfect_strict sevenObs (example_retained r)
    (by simp [sevenObs, sixObs]) (fun o ho => (sevenObs_usable o ho).1) (.inr (.inl rfl))

/-- seven observations, one of them exact -/
noncomputable def exactObs : List Obs := sixObs ++ [⟨2, 2, 33, 0⟩]

/-- C86: calls that fail because one of the observations is exact -/
example (r : ℤ) (N : ℕ) (t : DateTime) : (oneka { exampleCall r with observations := .list (exactObs.map fun o => .tuple [fl o.x, fl o.y, fl o.z, fl o.std]) }
    (exampleCallEnv N t)).ending = .raises .linAlgError := by
  classical
  have hpos : ∀ o ∈ exactObs, (0:ℝ) < o.z ∧ 0 ≤ o.std := by
    intro o ho
    simp only [exactObs, sixObs, List.cons_append, List.nil_append, List.mem_cons, List.not_mem_nil, or_false] at ho
    rcases ho with rfl | rfl | rfl | rfl | rfl | rfl | rfl <;> constructor <;> norm_num
  have hd : ({ exampleCall r with observations := .list (exactObs.map fun o => .tuple [fl o.x, fl o.y, fl o.z, fl o.std]) } : PyArgs).Denotes
      { exampleInputs r with run := { (exampleInputs r).run with obs := exactObs } } :=
    { exampleCall_denotes r with
      observations := by
        refine ⟨_, rfl, ?_⟩
        rw [List.forall₂_map_left_iff, List.forall₂_same]
        intro o _
        exact ⟨_, _, _, _, .inl rfl, fl_isReal _, fl_isReal _, fl_isReal _, fl_isReal _⟩ }
  have ha : Acceptable { exampleCall r with observations := .list (exactObs.map fun o => .tuple [fl o.x, fl o.y, fl o.z, fl o.std]) } :=
    { exampleCall_acceptable r with
      observations := by
        refine ⟨_, rfl, by simp [exactObs, sixObs], ?_⟩
        intro v hv
        obtain ⟨o, ho, rfl⟩ := List.mem_map.mp hv
        exact ⟨_, _, _, _, .inl rfl, ⟨_, rfl, trivial⟩, ⟨_, rfl, trivial⟩, ⟨_, rfl, trivial⟩, ⟨_, rfl, (hpos o ho).2⟩⟩ }
  refine C86_zero (env := exampleCallEnv N t) ha hd (fun h => ⟨exampleInputs_spread r, (example_draws r N t h).2⟩) perfect_strict exactObs ?_
    (by simp [exactObs, sixObs]) (fun o ho => (hpos o ho).1) (.inl ⟨⟨2, 2, 33, 0⟩, by simp [exactObs], rfl⟩)
  unfold filterObs
  have : removeNear (exampleInputs r).buffer ((exampleInputs r).run.wells.map fun w => (w.xw, w.yw)) exactObs = exactObs := by
    rw [removeNear_eq, List.filter_eq_self]
    intro o ho
    simp only [exampleInputs, List.map_cons, List.map_nil, List.mem_singleton, forall_eq, decide_eq_true_eq]
    simp only [exactObs, sixObs, List.cons_append, List.nil_append, List.mem_cons, List.not_mem_nil, or_false] at ho
    rcases ho with rfl | rfl | rfl | rfl | rfl | rfl | rfl <;> (unfold Obs.dist; rw [Real.lt_sqrt (by norm_num)]; norm_num)
  simp only [this]
  refine mergeRuns_chain _ ?_
  unfold exactObs sixObs
  simp only [List.cons_append, List.nil_append]
  refine .cons_cons ?_ (.cons_cons ?_ (.cons_cons ?_ (.cons_cons ?_ (.cons_cons ?_ (.cons_cons ?_ (.singleton _)))))) <;>
    (unfold Obs.dist; rw [Real.le_sqrt' one_pos]; norm_num)

/-- eight observations, the last two at the same place, one of these exact -/
noncomputable def twiceObs : List Obs := sevenObs ++ [⟨2, 2, 34, 0⟩]

/-- C86: calls that fail because one of two duplicates is exact -/
example (r : ℤ) (N : ℕ) (t : DateTime) : (oneka { exampleCall r with observations := .list (twiceObs.map fun o => .tuple [fl o.x, fl o.y, fl o.z, fl o.std]) }
    (exampleCallEnv N t)).ending = .raises .zeroDivisionError := by
  classical
  have hd : ({ exampleCall r with observations := .list (twiceObs.map fun o => .tuple [fl o.x, fl o.y, fl o.z, fl o.std]) } : PyArgs).Denotes
      { exampleInputs r with run := { (exampleInputs r).run with obs := twiceObs } } :=
    { exampleCall_denotes r with
      observations := by
        refine ⟨_, rfl, ?_⟩
        rw [List.forall₂_map_left_iff, List.forall₂_same]
        intro o _
        exact ⟨_, _, _, _, .inl rfl, fl_isReal _, fl_isReal _, fl_isReal _, fl_isReal _⟩ }
  have ha : Acceptable { exampleCall r with observations := .list (twiceObs.map fun o => .tuple [fl o.x, fl o.y, fl o.z, fl o.std]) } :=
    { exampleCall_acceptable r with
      observations := by
        refine ⟨_, rfl, by simp [twiceObs, sevenObs, sixObs], ?_⟩
        intro v hv
        obtain ⟨o, ho, rfl⟩ := List.mem_map.mp hv
        refine ⟨_, _, _, _, .inl rfl, ⟨_, rfl, trivial⟩, ⟨_, rfl, trivial⟩, ⟨_, rfl, trivial⟩, ⟨_, rfl, XR.fin_le _ _ |>.mpr ?_⟩⟩
        simp only [twiceObs, sevenObs, sixObs, List.cons_append, List.nil_append, List.mem_cons, List.not_mem_nil, or_false] at ho
        rcases ho with rfl | rfl | rfl | rfl | rfl | rfl | rfl | rfl <;> norm_num }
  refine C86_duplicates (env := exampleCallEnv N t) ha hd twiceObs
    [[⟨3, 0, 30, 1⟩], [⟨1, 0, 31, 1⟩], [⟨0, 1, 32, 2⟩], [⟨1, 1, 30, 1⟩], [⟨2, 0, 35, 1⟩], [⟨0, 2, 29, 0.5⟩], [⟨2, 2, 33, 1⟩, ⟨2, 2, 34, 0⟩]] ?_ ?_
    ⟨[⟨2, 2, 33, 1⟩, ⟨2, 2, 34, 0⟩], by simp, by simp, ⟨2, 2, 34, 0⟩, by simp, rfl⟩
  · refine ⟨List.Sublist.refl _, fun o => decide (∀ w ∈ (exampleInputs r).run.wells.map fun w => (w.xw, w.yw), (exampleInputs r).buffer < o.dist w.1 w.2), ?_, fun o => by simp [exampleInputs]⟩
    symm
    rw [List.filter_eq_self]
    intro o ho
    simp only [exampleInputs, List.map_cons, List.map_nil, List.mem_singleton, forall_eq, decide_eq_true_eq]
    simp only [twiceObs, sevenObs, sixObs, List.cons_append, List.nil_append, List.mem_cons, List.not_mem_nil, or_false] at ho
    rcases ho with rfl | rfl | rfl | rfl | rfl | rfl | rfl | rfl <;> (unfold Obs.dist; rw [Real.lt_sqrt (by norm_num)]; norm_num)
  · unfold twiceObs sevenObs sixObs
    simp only [List.cons_append, List.nil_append]
    have one : ∀ (o p : Obs) (rest : List Obs) (gs : List (List Obs)), 1 ≤ o.dist p.x p.y → Grouping (p :: rest) gs → Grouping (o :: p :: rest) ([o] :: gs) := by
      intro o p rest gs h hg
      refine Grouping.cons o [] (p :: rest) gs (by simp) ?_ hg
      intro q hq
      obtain rfl : p = q := by simpa using hq
      exact h
    refine one _ _ _ _ ?_ (one _ _ _ _ ?_ (one _ _ _ _ ?_ (one _ _ _ _ ?_ (one _ _ _ _ ?_ (one _ _ _ _ ?_
      (Grouping.cons ⟨2, 2, 33, 1⟩ [⟨2, 2, 34, 0⟩] [] [] ?_ (by simp) .nil))))))
    on_goal 7 =>
      intro p hp
      obtain rfl := List.mem_singleton.mp hp
      unfold Obs.dist
      norm_num
    all_goals (unfold Obs.dist; rw [Real.le_sqrt' one_pos]; norm_num)

/-- without pores -/
theorem exampleCall_dense (r : ℤ) : Acceptable { exampleCall r with pDist := .int 0 } ∧
    ({ exampleCall r with pDist := .int 0 } : PyArgs).Denotes { exampleInputs r with run := { (exampleInputs r).run with pDist := .const 0 } } :=
  ⟨{ exampleCall_acceptable r with pDist := .inl ⟨.fin 0, by simp [PyVal.num], XR.fin_le _ _ |>.mpr le_rfl, XR.fin_le _ _ |>.mpr zero_le_one⟩ },
    { exampleCall_denotes r with pDist := by simp [PyVal.Means, PyVal.IsReal, PyVal.num] }⟩

/-- C86: calls with zero porosity that never end -/
example (r : ℤ) (t : DateTime) : (oneka { exampleCall r with pDist := .int 0 } (hangingEnv t)).ending = .diverges :=
  C86_porosity (env := hangingEnv t) (exampleCall_dense r).1 (exampleCall_dense r).2
    (fun _ => ⟨⟨(exampleInputs_spread r).1, by rintro ⟨x, m, h⟩; simp at h, (exampleInputs_spread r).2.2⟩, fun _ _ => by simp only [hangingEnv, exampleEnv]; norm_num⟩)
    perfect_correct perfect_converges (exampleInputs_regular r).1 (exampleInputs_regular r).2.1 (exampleInputs_regular r).2.2 sevenObs (example_retained r)
    (by simp [sevenObs, sixObs]) (fun o ho => (sevenObs_usable o ho).1) sevenObs_general (fun _ ev _ => ⟨ev, rfl⟩) rfl 3650 rfl (fun _ => rfl) rfl

/-- C86: interrupted, they return, with traces of one point -/
example (r : ℤ) (N : ℕ) (t : DateTime) : (oneka { exampleCall r with pDist := .int 0 } (exampleCallEnv N t)).ending = .returns .none ∧
    ∀ L ∈ realizations (oneka { exampleCall r with pDist := .int 0 } (exampleCallEnv N t)).events, ∀ tr ∈ L.traces, tr.vertices.length = 1 := by
  have h : (oneka { exampleCall r with pDist := .int 0 } (exampleCallEnv N t)).ending = .returns .none :=
    C70_returns (env := exampleCallEnv N t) (exampleCall_dense r).1 (exampleCall_dense r).2 (exampleInputs_regular r)
      (fun h => ⟨⟨(exampleInputs_spread r).1, by rintro ⟨x, m, h⟩; simp at h, (exampleInputs_spread r).2.2⟩, (example_draws r N t h).2⟩) perfect_correct
      perfect_converges sevenObs 0 _ (example_retained r) rfl rfl (by simp [sevenObs, sixObs]) (fun o ho => (sevenObs_usable o ho).1) sevenObs_general
      (fun _ _ ev _ => ⟨ev, rfl⟩) (example_no_endless _ N _) rfl rfl
  exact ⟨h, C86_no_step (exampleCall_dense r).2 rfl 3650 rfl _ h⟩

end Oneka
