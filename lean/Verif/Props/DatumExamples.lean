import Verif.Props.Datum
import Verif.Props.Examples

/-!
# Calls that meet the hypotheses of C123
-/

namespace Oneka

/-- the example call with elevations above another datum -/
noncomputable def raisedCall (r : ℤ) (h : ℝ) : PyArgs :=
  { exampleCall r with
    projectname := .str "Raised"
    base := fl (0 + h)
    observations := .list (sevenObs.map fun o => .tuple [fl o.x, fl o.y, fl (o.z + h), fl o.std]) }

theorem raisedCall_acceptable (r : ℤ) (h : ℝ) : Acceptable (raisedCall r h) where
  projectname := ⟨_, rfl⟩
  runtime := (exampleCall_acceptable r).runtime
  wells := (exampleCall_acceptable r).wells
  npaths := (exampleCall_acceptable r).npaths
  duration := (exampleCall_acceptable r).duration
  base := ⟨_, rfl, trivial⟩
  cDist := (exampleCall_acceptable r).cDist
  pDist := (exampleCall_acceptable r).pDist
  tDist := (exampleCall_acceptable r).tDist
  observations := by
    refine ⟨_, rfl, by simp [sevenObs, sixObs], ?_⟩
    intro v hv
    obtain ⟨o, ho, rfl⟩ := List.mem_map.mp hv
    exact ⟨_, _, _, _, .inl rfl, ⟨_, rfl, trivial⟩, ⟨_, rfl, trivial⟩, ⟨_, rfl, trivial⟩, ⟨_, rfl, (sevenObs_usable o ho).2.le⟩⟩
  buffer := (exampleCall_acceptable r).buffer
  spacing := (exampleCall_acceptable r).spacing
  umbra := (exampleCall_acceptable r).umbra
  smooth := (exampleCall_acceptable r).smooth
  confined := (exampleCall_acceptable r).confined
  tol := (exampleCall_acceptable r).tol
  maxstep := (exampleCall_acceptable r).maxstep

theorem raisedCall_denotes (r : ℤ) (h : ℝ) : (raisedCall r h).Denotes ((exampleInputs r).raise h) where
  target := (exampleCall_denotes r).target
  npaths := (exampleCall_denotes r).npaths
  duration := (exampleCall_denotes r).duration
  nrealizations := (exampleCall_denotes r).nrealizations
  base := fl_isReal _
  cDist := (exampleCall_denotes r).cDist
  pDist := (exampleCall_denotes r).pDist
  tDist := (exampleCall_denotes r).tDist
  wells := (exampleCall_denotes r).wells
  observations := by
    refine ⟨_, rfl, ?_⟩
    rw [show ((exampleInputs r).raise h).run.obs = sevenObs.map (Obs.raise h) from rfl, List.forall₂_map_left_iff, List.forall₂_map_right_iff, List.forall₂_same]
    intro o _
    exact ⟨_, _, _, _, .inl rfl, fl_isReal _, fl_isReal _, fl_isReal _, fl_isReal _⟩
  buffer := (exampleCall_denotes r).buffer
  spacing := (exampleCall_denotes r).spacing
  umbra := (exampleCall_denotes r).umbra
  smooth := (exampleCall_denotes r).smooth
  confined := (exampleCall_denotes r).confined
  tol := (exampleCall_denotes r).tol
  maxstep := (exampleCall_denotes r).maxstep

/-- C123: the hypotheses of `C123_call` and `C123_archive` are met: both calls return. -/
example (r : ℤ) (h : ℝ) (N : ℕ) (t : DateTime) : Acceptable (exampleCall r) ∧ Acceptable (raisedCall r h) ∧ (exampleCall r).Denotes (exampleInputs r) ∧
    (raisedCall r h).Denotes ((exampleInputs r).raise h) ∧ (oneka (exampleCall r) (exampleCallEnv N t)).ending = .returns .none ∧
    (oneka (raisedCall r h) (exampleCallEnv N t)).ending = .returns .none := by
  refine ⟨exampleCall_acceptable r, raisedCall_acceptable r h, exampleCall_denotes r, raisedCall_denotes r h, example_returns r N t, ?_⟩
  rw [(C123_call h _ _ _ _ (exampleCall_acceptable r) (raisedCall_acceptable r h) (exampleCall_denotes r) (raisedCall_denotes r h)).1]
  exact example_returns r N t

/-- C123: two heads observed at one place are averaged, and so are the raised ones. -/
example : (filterObs [⟨0, 0, 10, 1⟩, ⟨0, 0, 12, 1⟩] [] 1).toOption = some [⟨0, 0, 11, √(1 / 2)⟩] ∧
    (filterObs ([⟨0, 0, 10, 1⟩, ⟨0, 0, 12, 1⟩].map (Obs.raise 5)) [] 1).toOption = some [⟨0, 0, 16, √(1 / 2)⟩] := by
  have e : filterObs [⟨0, 0, 10, 1⟩, ⟨0, 0, 12, 1⟩] [] 1 = .ok [⟨0, 0, 11, √(1 / 2)⟩] := by
    have h0 : hypot 0 0 = 0 := by simp [hypot]
    unfold filterObs
    simp only [removeNear, awayFromWells, if_true]
    rw [mergeRuns]
    simp [h0, mergeGroup, accumulate, mergeRuns, List.takeWhile, List.dropWhile]
    norm_num
  refine ⟨by rw [e]; rfl, ?_⟩
  rw [(C123_filter 5 _ _ _).1, e]
  simp [Except.map, Except.toOption, Obs.raise]
  norm_num

end Oneka
