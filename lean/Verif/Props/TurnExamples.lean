import Verif.Props.Turn
import Verif.Props.SensitivityExamples
import Verif.Props.RunmeExamples

/-!
# Examples for Props/Turn.lean
-/

namespace Oneka

open PField

/-- the call `denseCall r` (20 paths) with the other axes: the well at (1000, -1000) or at (1000, 1000) -/
noncomputable def turnedCall (σ : Turn) (r : ℤ) : PyArgs :=
  { denseCall r with
    wells := .list [.tuple [fl (σ.pt ((1000, 1000) : ℝ × ℝ)).1, fl (σ.pt ((1000, 1000) : ℝ × ℝ)).2, fl 0.25, .tuple [fl 500, fl 1000]]]
    observations := .list (sevenObs.map fun o => .tuple [fl (σ.pt (o.x, o.y)).1, fl (σ.pt (o.x, o.y)).2, fl o.z, fl o.std]) }

/-- the numbers in it -/
noncomputable def turnedInputs (σ : Turn) (r : ℤ) : Inputs := { denseInputs r with run := (denseInputs r).run.turn σ }

theorem turnedCall_acceptable (σ : Turn) (r : ℤ) : Acceptable (turnedCall σ r) :=
  { denseCall_acceptable r with
    wells := by
      refine ⟨_, rfl, ?_, 0, .inl rfl, le_rfl, by simp⟩
      intro w hw
      obtain rfl := List.mem_singleton.mp hw
      refine ⟨_, _, _, _, .inl rfl, ⟨_, rfl, trivial⟩, ⟨_, rfl, trivial⟩, ⟨_, rfl, fin_pos (by norm_num)⟩, .inr (.inl ⟨_, _, _, _, .inl rfl, rfl, rfl, ?_, ?_, ?_⟩)⟩
      · trivial
      · show (500:ℝ) ≤ 1000
        norm_num
      · trivial
    observations := by
      refine ⟨_, rfl, by simp [sevenObs, sixObs], ?_⟩
      intro v hv
      obtain ⟨o, ho, rfl⟩ := List.mem_map.mp hv
      exact ⟨_, _, _, _, .inl rfl, ⟨_, rfl, trivial⟩, ⟨_, rfl, trivial⟩, ⟨_, rfl, trivial⟩, ⟨_, rfl, (sevenObs_usable o ho).2.le⟩⟩ }

theorem turnedCall_denotes (σ : Turn) (r : ℤ) : (turnedCall σ r).Denotes (turnedInputs σ r) :=
  { denseCall_denotes r with
    wells := ⟨_, rfl, .cons ⟨_, _, _, _, .inl rfl, fl_isReal _, fl_isReal _, fl_isReal _, ⟨_, rfl, .cons (fl_isReal _) (.cons (fl_isReal _) .nil)⟩⟩ .nil⟩
    observations := by
      refine ⟨_, rfl, ?_⟩
      rw [show (turnedInputs σ r).run.obs = sevenObs.map (Obs.turn σ) from rfl, List.forall₂_map_left_iff, List.forall₂_map_right_iff, List.forall₂_same]
      intro o _
      exact ⟨_, _, _, _, .inl rfl, fl_isReal _, fl_isReal _, fl_isReal _, fl_isReal _⟩ }

theorem turned_retained (σ : Turn) (r : ℤ) : filterObs (turnedInputs σ r).run.obs ((turnedInputs σ r).run.wells.map fun w => (w.xw, w.yw)) (turnedInputs σ r).buffer =
    .ok (sevenObs.map (Obs.turn σ)) := by
  have h := C128_filter σ (exampleInputs r).run.obs ((exampleInputs r).run.wells.map fun w => (w.xw, w.yw)) (exampleInputs r).buffer
  rw [example_retained] at h
  exact h

theorem conic_turn (σ : Turn) (c : Fin 6 → ℝ) (p : ℝ × ℝ) : conic (σ.coef c) p.1 p.2 = conic c (σ.pt p).1 (σ.pt p).2 := by
  cases σ <;> simp [conic, Turn.coef, Turn.sign, Turn.index, Turn.pt] <;> ring

theorem turned_general (σ : Turn) : ¬ OnOneConic (sevenObs.map (Obs.turn σ)) := by
  rintro ⟨c, hc, h⟩
  refine sevenObs_general ⟨σ.coef c, fun e => hc ?_, fun o ho => ?_⟩
  · funext i
    cases σ
    · have := congrFun e i
      fin_cases i <;> simpa [Turn.coef, Turn.sign, Turn.index] using this
    · have e0 := congrFun e 0
      have e1 := congrFun e 1
      have e2 := congrFun e 2
      have e3 := congrFun e 3
      have e4 := congrFun e 4
      have e5 := congrFun e 5
      fin_cases i <;> simp_all [Turn.coef, Turn.sign, Turn.index]
  · rw [show conic (σ.coef c) o.x o.y = _ from conic_turn σ c (o.x, o.y)]
    exact h _ (List.mem_map_of_mem ho)

theorem turned_returns (σ : Turn) (r : ℤ) (N : ℕ) (t : DateTime) : (oneka (turnedCall σ r) (exampleCallEnv N t)).ending = .returns .none := by
  have h7 : 7 ≤ (sevenObs.map (Obs.turn σ)).length := by simp [sevenObs, sixObs]
  refine C70_returns (env := exampleCallEnv N t) (turnedCall_acceptable σ r) (turnedCall_denotes σ r) ⟨(exampleInputs_regular r).1, (exampleInputs_regular r).2.1, ?_⟩
    (fun h => ⟨?_, (example_draws r N t h).2⟩) perfect_correct
    perfect_converges _ 0 _ (turned_retained σ r) rfl rfl h7 ?_ (turned_general σ) (fun _ _ ev _ => ⟨ev, rfl⟩) (interrupted_no_endless _ _ N _) rfl rfl
  · intro o ho
    obtain ⟨o', ho', rfl⟩ := List.mem_map.mp ho
    exact (sevenObs_usable o' ho').2
  · have hs := exampleInputs_spread r
    refine ⟨hs.1, hs.2.1, hs.2.2.1, ?_⟩
    intro w hw
    obtain ⟨w', hw', rfl⟩ := List.mem_map.mp hw
    exact hs.2.2.2 w' hw'
  · intro o ho
    obtain ⟨o', ho', rfl⟩ := List.mem_map.mp ho
    exact (sevenObs_usable o' ho').1

theorem exampleEnv_turned (σ : Turn) (n : ℤ) (N : ℕ) : (exampleEnv N).Turned σ n (exampleEnv N) := ⟨rfl, rfl, fun _ _ _ => rfl, fun _ _ _ => rfl⟩

/-- C128: the hypotheses of `C128_archived` are met, for both changes of the axes, for stochastic and for deterministic calls; and what it says. -/
example (σ : Turn) (r : ℤ) (N : ℕ) (t t' : DateTime) : ∃ (d d' : Dict) (f f' : PField ℝ),
    loadOneka ((oneka (denseCall r) (exampleCallEnv N t)).events.foldl Effect.apply fun _ => none) t.archiveName = .ok d ∧
    d.get "pfield" = some (.field (.field f)) ∧
    loadOneka ((oneka (turnedCall σ r) (exampleCallEnv N t')).events.foldl Effect.apply fun _ => none) t'.archiveName = .ok d' ∧
    d'.get "pfield" = some (.field (.field f')) ∧ (∀ X Y, f'.weightAt (σ.pt (X, Y)).1 (σ.pt (X, Y)).2 = f.weightAt X Y) ∧
    (r ≤ 1 → areas (oneka (turnedCall σ r) (exampleCallEnv N t')).events = areas (oneka (denseCall r) (exampleCallEnv N t)).events) := by
  obtain ⟨d, d', f, f', j, w, h1, h2, h3, h4, -, -, -, -, -, -, h8⟩ := C128_archived (σ := σ) (denseCall r) (turnedCall σ r) (denseInputs r) (turnedInputs σ r)
    (exampleCallEnv N t) (exampleCallEnv N t') _ _ (denseCall_denotes r) (turnedCall_denotes σ r) (dense_returns r N t) (turned_returns σ r N t')
    perfect_correct perfect_converges perfect_strict (by cases σ; exacts [trivial, ⟨5, by norm_num [denseInputs, RunArgs.denser, exampleInputs]⟩]) (exampleEnv_turned σ _ N) rfl rfl rfl
    (fun _ => none) (fun _ => none)
  obtain ⟨k1, k2⟩ := h8 (by norm_num [denseInputs, RunArgs.denser])
  exact ⟨d, d', f, f', h1, h2, h3, h4, k1, k2⟩

/-- C128: two velocity functions, one of which is the other one with the other axes: rotation about the origin, one way and the other. -/
example (σ : Turn) : ∀ (n : ℕ) (p : XR × XR), (fun (_ : ℕ) (q : XR × XR) => (.ok (q.2, -q.1) : Except PyErr (XR × XR))) n (σ.pt p) =
    ((fun (_ : ℕ) (q : XR × XR) => (.ok (-q.2, q.1) : Except PyErr (XR × XR))) n p).map σ.pt := by
  intro _ p
  cases σ <;> rfl

/-- C128: a generator that uses the covariance (independent coefficients with the standard deviations of the fit, from the numbers `z`), and the one with the other axes. -/
example (σ : Turn) (z : Fin 6 → ℝ) (ev : Fin 6 → ℝ) (cov : Matrix (Fin 6) (Fin 6) ℝ) :
    (fun i => σ.coef ev i + Real.sqrt (σ.cov cov i i) * σ.coef z i) = σ.coef fun i => ev i + Real.sqrt (cov i i) * z i := by
  funext i
  have h : σ.sign i * σ.sign i = 1 := by cases σ <;> fin_cases i <;> simp [Turn.sign]
  simp only [Turn.coef, Turn.cov, h, one_mul]
  ring

end Oneka
