import Verif.Props.Units
import Verif.Props.Examples

/-!
# Calls that meet the hypotheses of C135
-/

namespace Oneka

/-- the example call with lengths in quarters of a metre and times in hours -/
noncomputable def quarterCall (r : ℤ) : PyArgs :=
  { exampleCall r with
    duration := fl (24 * 3650)
    base := fl (4 * 0)
    cDist := .tuple [fl (4 / 24 * 5), fl (4 / 24 * 10), fl (4 / 24 * 20)]
    tDist := fl (4 * 20)
    wells := .list [.tuple [fl (4 * 1000), fl (4 * 1000), fl (4 * 0.25), .tuple [fl (4 ^ 3 / 24 * 500), fl (4 ^ 3 / 24 * 1000)]]]
    observations := .list ((sevenObs.map (Obs.inUnits 4)).map fun o => .tuple [fl o.x, fl o.y, fl o.z, fl o.std])
    buffer := fl (4 * 100)
    spacing := fl (4 * 4)
    umbra := fl (4 * 4)
    tol := fl (4 * 1)
    maxstep := fl (4 * 10) }

theorem quarterCall_acceptable (r : ℤ) : Acceptable (quarterCall r) :=
  { exampleCall_acceptable r with
    duration := ⟨_, rfl, by simp⟩
    base := ⟨_, rfl, trivial⟩
    cDist := by
      refine .inr (.inr ⟨_, _, _, _, _, _, .inl rfl, rfl, rfl, rfl, ?_, ?_, ?_, ?_⟩)
      · show (0:ℝ) ≤ 4 / 24 * 5
        norm_num
      · show (4 / 24 * 5:ℝ) ≤ 4 / 24 * 10
        norm_num
      · show (4 / 24 * 10:ℝ) ≤ 4 / 24 * 20
        norm_num
      · trivial
    tDist := by
      refine .inl ⟨_, rfl, ?_, ?_⟩
      · show (0:ℝ) ≤ 4 * 20
        norm_num
      · trivial
    wells := by
      refine ⟨_, rfl, ?_, 0, .inl rfl, le_rfl, by simp⟩
      intro w hw
      obtain rfl := List.mem_singleton.mp hw
      refine ⟨_, _, _, _, .inl rfl, ⟨_, rfl, trivial⟩, ⟨_, rfl, trivial⟩, ⟨_, rfl, fin_pos (by norm_num)⟩, .inr (.inl ⟨_, _, _, _, .inl rfl, rfl, rfl, ?_, ?_, ?_⟩)⟩
      · trivial
      · show (4 ^ 3 / 24 * 500:ℝ) ≤ 4 ^ 3 / 24 * 1000
        norm_num
      · trivial
    observations := by
      refine ⟨_, rfl, by simp [sevenObs, sixObs], ?_⟩
      intro v hv
      obtain ⟨o', ho', rfl⟩ := List.mem_map.mp hv
      obtain ⟨o, ho, rfl⟩ := List.mem_map.mp ho'
      refine ⟨_, _, _, _, .inl rfl, ⟨_, rfl, trivial⟩, ⟨_, rfl, trivial⟩, ⟨_, rfl, trivial⟩, ⟨_, rfl, ?_⟩⟩
      show (0:ℝ) ≤ 4 * o.std
      have := (sevenObs_usable o ho).2
      positivity
    buffer := ⟨_, rfl, fin_pos (by norm_num)⟩
    spacing := ⟨_, rfl, fin_pos (by norm_num)⟩
    umbra := ⟨_, rfl, fin_pos (by norm_num)⟩
    tol := ⟨_, rfl, fin_pos (by norm_num)⟩
    maxstep := ⟨_, rfl, fin_pos (by norm_num)⟩ }

theorem quarterCall_denotes (r : ℤ) : (quarterCall r).Denotes ((exampleInputs r).inUnits 4 24) :=
  { exampleCall_denotes r with
    duration := rfl
    base := fl_isReal _
    cDist := ⟨_, rfl, .cons (fl_isReal _) (.cons (fl_isReal _) (.cons (fl_isReal _) .nil))⟩
    tDist := fl_isReal _
    wells := ⟨_, rfl, .cons ⟨_, _, _, _, .inl rfl, fl_isReal _, fl_isReal _, fl_isReal _, ⟨_, rfl, .cons (fl_isReal _) (.cons (fl_isReal _) .nil)⟩⟩ .nil⟩
    observations := by
      refine ⟨_, rfl, ?_⟩
      rw [show ((exampleInputs r).inUnits 4 24).run.obs = sevenObs.map (Obs.inUnits 4) from rfl, List.forall₂_map_left_iff, List.forall₂_same]
      intro o _
      exact ⟨_, _, _, _, .inl rfl, fl_isReal _, fl_isReal _, fl_isReal _, fl_isReal _⟩
    buffer := fl_isReal _
    spacing := fl_isReal _
    umbra := fl_isReal _
    tol := rfl
    maxstep := rfl }

/-- no two of the observations are closer than 1 m, unless they are at the same place -/
theorem sevenObs_close : ∀ o ∈ sevenObs, ∀ p ∈ sevenObs, o.dist p.x p.y < 1 ↔ 4 * o.dist p.x p.y < 1 := by
  have key : ∀ o ∈ sevenObs, ∀ p ∈ sevenObs, o.dist p.x p.y = 0 ∨ 1 ≤ o.dist p.x p.y := by
    intro o ho p hp
    simp only [sevenObs, sixObs, List.cons_append, List.nil_append, List.mem_cons, List.not_mem_nil, or_false] at ho hp
    rcases ho with rfl | rfl | rfl | rfl | rfl | rfl | rfl <;> rcases hp with rfl | rfl | rfl | rfl | rfl | rfl | rfl <;>
      first
      | (left; simp [Obs.dist]; done)
      | (right; unfold Obs.dist; rw [Real.le_sqrt' one_pos]; norm_num; done)
  intro o ho p hp
  rcases key o ho p hp with h | h
  · simp [h]
  · constructor <;> intro h' <;> linarith

theorem quarter_retained (r : ℤ) : filterObs ((exampleInputs r).inUnits 4 24).run.obs (((exampleInputs r).inUnits 4 24).run.wells.map fun w => (w.xw, w.yw)) ((exampleInputs r).inUnits 4 24).buffer =
    .ok (sevenObs.map (Obs.inUnits 4)) := by
  have := C135_filter_partial 4 (by norm_num) (exampleInputs r).run.obs ((exampleInputs r).run.wells.map fun w => (w.xw, w.yw)) (exampleInputs r).buffer sevenObs_close
  rw [example_retained] at this
  exact this

theorem quarter_general : ¬ OnOneConic (sevenObs.map (Obs.inUnits 4)) := by
  rintro ⟨c, hc, h⟩
  refine sevenObs_general ⟨fun i => (![16, 16, 16, 4, 4, 1] : Fin 6 → ℝ) i * c i, fun h0 => hc (funext fun i => ?_), fun o ho => ?_⟩
  · have := congrFun h0 i
    fin_cases i <;> simpa using this
  · have := h _ (List.mem_map_of_mem ho)
    simp only [conic, Obs.inUnits] at this ⊢
    simp only [Matrix.cons_val]
    linear_combination this

theorem quarter_no_endless (n : Inputs) (obs : List Obs) (N : ℕ) (t : SWell) : ¬ EndlessRun n obs (exampleEnv N) t := by
  have key : ∀ (a : RunArgs) (q : Dist → ℕ → Except PyErr ℝ) (coefs : (Fin 6 → ℝ) → Matrix (Fin 6) (Fin 6) ℝ → Except PyErr (Fin 6 → ℝ)) (i : ℕ),
      ¬ EndlessTrace a (exampleEnv N).la t q coefs ((exampleEnv N).interrupt i) := by
    rintro a q coefs i ⟨m, ev, cov, c, -, -, -, k, -, h⟩
    refine absurd h (Option.isSome_iff_ne_none.mp ?_)
    obtain ⟨tr, htr⟩ := interrupted_terminates (F := XR) (N := N) (fe := fun n p => match (exampleEnv N).interrupt i k n with
      | some e => .error e
      | none => ({ m with xo := t.xw, yo := t.yw, coef := c } : Aquifer ℝ).toX.reverseVelocity a.confined p)
      (fun p => ⟨.keyboardInterrupt, by simp [exampleEnv]⟩) (.fin (t.xw + (t.rw + 1) * Real.cos (2 * Real.pi * k / a.npaths)))
        (.fin (t.yw + (t.rw + 1) * Real.sin (2 * Real.pi * k / a.npaths))) a.duration a.tol a.maxstep
    exact Option.isSome_of_eq_some htr
  unfold EndlessRun
  split
  · rintro ⟨i, -, h⟩
    exact key _ _ _ _ h
  · exact key _ _ _ _

theorem quarter_regular (r : ℤ) : ((exampleInputs r).inUnits 4 24).Regular := by
  refine ⟨?_, ?_, fun o ho => ?_⟩
  · intro x hx
    have hx' : x ∈ [4 / 24 * 5, 4 / 24 * 10, 4 / 24 * (20:ℝ)] := hx
    simp only [List.mem_cons, List.not_mem_nil, or_false] at hx'
    rcases hx' with rfl | rfl | rfl <;> norm_num
  · show (0:ℝ) < 4 * 20
    norm_num
  · obtain ⟨o0, h0, rfl⟩ := List.mem_map.mp ho
    show (0:ℝ) < 4 * o0.std
    have := (sevenObs_usable o0 h0).2
    positivity

theorem quarter_spread (r : ℤ) : ((exampleInputs r).inUnits 4 24).Spread := by
  refine ⟨?_, ?_, ?_, ?_⟩
  · rintro ⟨x, m, h⟩
    simp only [exampleInputs, Inputs.inUnits, RunArgs.inUnits, Dist.times, List.map_cons, List.map_nil, Dist.tuple.injEq, List.cons.injEq, and_true] at h
    obtain ⟨h1, -, h2⟩ := h
    rw [← h1] at h2
    norm_num at h2
  · rintro ⟨x, m, h⟩
    simp [exampleInputs, Inputs.inUnits, RunArgs.inUnits] at h
  · rintro ⟨x, m, h⟩
    simp [exampleInputs, Inputs.inUnits, RunArgs.inUnits, Dist.times] at h
  · intro w hw
    obtain rfl := List.mem_singleton.mp (show w ∈ [SWell.inUnits 4 24 ⟨1000, 1000, 0.25, .tuple [500, 1000]⟩] from hw)
    rintro ⟨x, m, h⟩
    simp [SWell.inUnits, Dist.times] at h

theorem quarter_returns (r : ℤ) (N : ℕ) (t : DateTime) : (oneka (quarterCall r) (exampleCallEnv N t)).ending = .returns .none :=
  C70_returns (env := exampleCallEnv N t) (quarterCall_acceptable r) (quarterCall_denotes r) (quarter_regular r)
    (fun _ => ⟨quarter_spread r, fun _ _ => by simp only [exampleCallEnv, exampleEnv]; norm_num⟩) perfect_correct
    perfect_converges _ 0 _ (quarter_retained r) rfl rfl (by simp [sevenObs, sixObs]) (fun o ho => by
      obtain ⟨o0, h0, rfl⟩ := List.mem_map.mp ho
      show (4:ℝ) * 0 < 4 * o0.z
      have := (sevenObs_usable o0 h0).1
      linarith) quarter_general
    (fun _ _ ev _ => ⟨ev, rfl⟩) (quarter_no_endless _ _ N _) rfl rfl

/-- C135: the hypotheses of `C135_deterministic_partial` are met. -/
example (N : ℕ) (t : DateTime) : ∃ L L', realizations (oneka (exampleCall 1) (exampleCallEnv N t)).events = [L] ∧ realizations (oneka (quarterCall 1) (exampleCallEnv N t)).events = [L'] ∧
    L'.model.conductivity = 4 / 24 * L.model.conductivity := by
  obtain ⟨-, -, -, -, -, L, L', -, -, -, -, h1, h2, h3, -⟩ := C135_deterministic_partial 4 24 (by norm_num) (by norm_num) _ _ _ (exampleCallEnv N t) _ _ (exampleCall_denotes 1) (quarterCall_denotes 1) perfect_correct perfect_converges
    perfect_strict le_rfl sevenObs_close (example_returns 1 N t) (quarter_returns 1 N t) (fun _ => none)
  exact ⟨L, L', h1, h2, by rw [h3]; rfl⟩

/-- C135: the hypotheses of `C135_stochastic_partial` are met: 100 realizations each. -/
example (N : ℕ) (t : DateTime) : (realizations (oneka (quarterCall 100) (exampleCallEnv N t)).events).length = 100 := by
  obtain ⟨-, -, -, -, -, -, -, -, -, -, h, -⟩ := C135_stochastic_partial 4 24 (by norm_num) (by norm_num) _ _ _ (exampleCallEnv N t) _ _ (exampleCall_denotes 100) (quarterCall_denotes 100) perfect_correct perfect_converges
    perfect_strict (by simp [exampleInputs]) (exampleCallEnv N t).run.mvn (fun _ _ _ _ => rfl) sevenObs_close (example_returns 100 N t) (quarter_returns 100 N t) (fun _ => none)
  have h' : ((realizations (oneka (quarterCall 100) (exampleCallEnv N t)).events).length : ℤ) = 100 := h
  exact_mod_cast h'

/-- C135: the hypotheses of `C135_fails_start` are met: there are traces to compare. -/
example (N : ℕ) (t : DateTime) : ∃ L L' tr tr', (realizations (oneka (exampleCall 1) (exampleCallEnv N t)).events)[0]? = some L ∧ (realizations (oneka (quarterCall 1) (exampleCallEnv N t)).events)[0]? = some L' ∧
    L.traces[0]? = some tr ∧ L'.traces[0]? = some tr' ∧ tr'.vertices.head? ≠ tr.vertices.head?.map fun p => (.fin 4 * p.1, .fin 4 * p.2) := by
  obtain ⟨_, _, _, _, _, L, -, -, -, -, -, -, h6, h7, -⟩ := C68_deterministic _ _ (exampleCallEnv N t) _ (exampleCall_denotes 1) le_rfl (example_returns 1 N t) (fun _ => none)
  obtain ⟨_, _, _, _, _, L', -, -, -, -, -, -, i6, i7, -⟩ := C68_deterministic _ _ (exampleCallEnv N t) _ (quarterCall_denotes 1) le_rfl (quarter_returns 1 N t) (fun _ => none)
  have l1 : 0 < L.traces.length := by rw [h7.traces_length]; simp [exampleInputs]
  have l2 : 0 < L'.traces.length := by rw [i7.traces_length]; simp [exampleInputs, Inputs.inUnits, RunArgs.inUnits]
  have e1 : (realizations (oneka (exampleCall 1) (exampleCallEnv N t)).events)[0]? = some L := by rw [h6]; rfl
  have e2 : (realizations (oneka (quarterCall 1) (exampleCallEnv N t)).events)[0]? = some L' := by rw [i6]; rfl
  exact ⟨L, L', _, _, e1, e2, List.getElem?_eq_getElem l1, List.getElem?_eq_getElem l2, C135_fails_start 4 24 (by norm_num) _ _ _ (exampleCallEnv N t) _ _ (exampleCall_denotes 1) (quarterCall_denotes 1)
    (exampleCallEnv N t).run.mvn (example_returns 1 N t) (quarter_returns 1 N t) 0 L L' 0 _ _ e1 e2 (List.getElem?_eq_getElem l1) (List.getElem?_eq_getElem l2)⟩

/-- C135: a generator that uses the covariance (independent coefficients with the standard deviations of the fit, from the numbers `z`) converts, too. -/
example (ℓ τ : ℝ) (hℓ : 0 < ℓ) (hτ : 0 < τ) (z : ℕ → Fin 6 → ℝ) :
    ConvertsNormal ℓ τ (fun i ev cov => .ok fun k => ev k + Real.sqrt (cov k k) * z i k) (fun i ev cov => .ok fun k => ev k + Real.sqrt (cov k k) * z i k) := by
  intro i ev cov s
  simp only [Except.map]
  congr 1
  funext k
  have h := coefUnits_pos hℓ hτ k
  unfold covInUnits coefInUnits
  rw [Real.sqrt_mul (mul_self_nonneg _), Real.sqrt_mul_self h.le]
  ring

/-- C135: the hypotheses of `C135_fails_filter` are met: two observations half a metre apart are merged if the unit is the metre, and kept if it is the foot. -/
example : (∃ r, filterObs [⟨0, 0, 30, 1⟩, ⟨0.5, 0, 31, 1⟩] [] 1 = .ok [r]) ∧
    filterObs ([⟨0, 0, 30, 1⟩, ⟨0.5, 0, 31, 1⟩].map (Obs.inUnits 3.28)) [] (3.28 * 1) = .ok [(⟨0, 0, 30, 1⟩ : Obs).inUnits 3.28, (⟨0.5, 0, 31, 1⟩ : Obs).inUnits 3.28] := by
  have e : Obs.dist ⟨0, 0, 30, 1⟩ 0.5 0 = 0.5 := by
    unfold Obs.dist
    rw [show ((0:ℝ) - 0.5) ^ 2 + (0 - 0) ^ 2 = 0.5 ^ 2 by norm_num, Real.sqrt_sq (by norm_num)]
  refine C135_fails_filter 3.28 (by norm_num) _ _ ?_ ?_ (by norm_num) (by norm_num)
  · simp only [e]; norm_num
  · simp only [e]; norm_num

/-- C135: the hypothesis of `C135_trace_partial` is met by the reversed velocities of a model. -/
example (ℓ τ : ℝ) (hℓ : 0 < ℓ) (hτ : 0 < τ) (m : Aquifer ℝ) (c : Bool) (x y : XR) :
    (m.inUnits ℓ τ).toX.reverseVelocity c (.fin ℓ * x, .fin ℓ * y) = (m.toX.reverseVelocity c (x, y)).map fun v => (.fin (ℓ / τ) * v.1, .fin (ℓ / τ) * v.2) :=
  reverse_units hℓ hτ m c (x, y)

/-- C135: the hypotheses of `C135_fails_acres` are met: in quarters of a metre the acres are sixteen times too many. -/
example (N : ℕ) (t : DateTime) : ∃ A c, areas (oneka (quarterCall 1) (exampleCallEnv N t)).events = [A] ∧ acreages (oneka (quarterCall 1) (exampleCallEnv N t)).events = [c] ∧ c = 16 * (A / 16 / 4046.86) := by
  obtain ⟨A, c, h1, h2, h3, -⟩ := C135_fails_acres 4 24 (by norm_num) _ _ (exampleCallEnv N t) _ (quarterCall_denotes 1) le_rfl (quarter_returns 1 N t)
  exact ⟨A, c, h1, h2, by rw [h3]; norm_num⟩

end Oneka
