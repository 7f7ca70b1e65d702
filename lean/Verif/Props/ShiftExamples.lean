import Verif.Props.Shift
import Verif.Props.Examples

/-!
# Calls that meet the hypotheses of C122
-/

namespace Oneka

/-- the example call with wells and observations moved by `s` -/
noncomputable def movedCall (r : ℤ) (s : ℝ × ℝ) : PyArgs :=
  { exampleCall r with
    projectname := .str "Moved"
    wells := .list [.tuple [fl (1000 + s.1), fl (1000 + s.2), fl 0.25, .tuple [fl 500, fl 1000]]]
    observations := .list (sevenObs.map fun o => .tuple [fl (o.x + s.1), fl (o.y + s.2), fl o.z, fl o.std]) }

theorem movedCall_acceptable (r : ℤ) (s : ℝ × ℝ) : Acceptable (movedCall r s) where
  projectname := ⟨_, rfl⟩
  runtime := (exampleCall_acceptable r).runtime
  wells := by
    refine ⟨_, rfl, ?_, 0, .inl rfl, le_rfl, by simp⟩
    intro w hw
    obtain rfl := List.mem_singleton.mp hw
    refine ⟨_, _, _, _, .inl rfl, ⟨_, rfl, trivial⟩, ⟨_, rfl, trivial⟩, ⟨_, rfl, fin_pos (by norm_num)⟩, .inr (.inl ⟨_, _, _, _, .inl rfl, rfl, rfl, ?_, ?_, ?_⟩)⟩
    · trivial
    · show (500:ℝ) ≤ 1000
      norm_num
    · trivial
  npaths := (exampleCall_acceptable r).npaths
  duration := (exampleCall_acceptable r).duration
  base := (exampleCall_acceptable r).base
  cDist := (exampleCall_acceptable r).cDist
  pDist := (exampleCall_acceptable r).pDist
  tDist := (exampleCall_acceptable r).tDist
  observations := by
    refine ⟨_, rfl, by simp [sevenObs, sixObs], ?_⟩
    intro v hv
    obtain ⟨o, ho, rfl⟩ := List.mem_map.mp hv
    exact ⟨_, _, _, _, .inl rfl, ⟨_, rfl, trivial⟩, ⟨_, rfl, trivial⟩, ⟨_, rfl, trivial⟩, ⟨_, rfl, (sevenObs_usable o ho).2.le⟩⟩
  buffer := (exampleCall_acceptable r).buffer
  spacing := (exampleCall_acceptable r).spacing
  umbra := (exampleCall_acceptable r).umbra
  smooth := (exampleCall_acceptable r).smooth
  confined := (exampleCall_acceptable r).confined
  tol := (exampleCall_acceptable r).tol
  maxstep := (exampleCall_acceptable r).maxstep

theorem movedCall_denotes (r : ℤ) (s : ℝ × ℝ) : (movedCall r s).Denotes ((exampleInputs r).shift s) where
  target := (exampleCall_denotes r).target
  npaths := (exampleCall_denotes r).npaths
  duration := (exampleCall_denotes r).duration
  nrealizations := (exampleCall_denotes r).nrealizations
  base := (exampleCall_denotes r).base
  cDist := (exampleCall_denotes r).cDist
  pDist := (exampleCall_denotes r).pDist
  tDist := (exampleCall_denotes r).tDist
  wells := ⟨_, rfl, .cons ⟨_, _, _, _, .inl rfl, fl_isReal _, fl_isReal _, fl_isReal _, ⟨_, rfl, .cons (fl_isReal _) (.cons (fl_isReal _) .nil)⟩⟩ .nil⟩
  observations := by
    refine ⟨_, rfl, ?_⟩
    rw [show ((exampleInputs r).shift s).run.obs = sevenObs.map (Obs.shift s) from rfl, List.forall₂_map_left_iff, List.forall₂_map_right_iff, List.forall₂_same]
    intro o _
    exact ⟨_, _, _, _, .inl rfl, fl_isReal _, fl_isReal _, fl_isReal _, fl_isReal _⟩
  buffer := (exampleCall_denotes r).buffer
  spacing := (exampleCall_denotes r).spacing
  umbra := (exampleCall_denotes r).umbra
  smooth := (exampleCall_denotes r).smooth
  confined := (exampleCall_denotes r).confined
  tol := (exampleCall_denotes r).tol
  maxstep := (exampleCall_denotes r).maxstep

/-- C122: the hypotheses of `C122_call` and `C122_archive` are met: both calls return. -/
example (r : ℤ) (s : ℝ × ℝ) (N : ℕ) (t : DateTime) : Acceptable (exampleCall r) ∧ Acceptable (movedCall r s) ∧ (exampleCall r).Denotes (exampleInputs r) ∧
    (movedCall r s).Denotes ((exampleInputs r).shift s) ∧ (oneka (exampleCall r) (exampleCallEnv N t)).ending = .returns .none ∧
    (oneka (movedCall r s) (exampleCallEnv N t)).ending = .returns .none := by
  refine ⟨exampleCall_acceptable r, movedCall_acceptable r s, exampleCall_denotes r, movedCall_denotes r s, example_returns r N t, ?_⟩
  rw [(C122_call s _ _ _ _ (exampleCall_acceptable r) (movedCall_acceptable r s) (exampleCall_denotes r) (movedCall_denotes r s)).1]
  exact example_returns r N t

/-- C122: two velocity functions, one of which is the other one moved: rotation about the origin and rotation about `s`. -/
example (s : ℝ × ℝ) : ∀ (k n : ℕ) (p : XR × XR), (fun (_ _ : ℕ) (q : XR × XR) => (.ok (-(q.2 - .fin s.2), q.1 - .fin s.1) : Except PyErr (XR × XR))) k n (p.1 + .fin s.1, p.2 + .fin s.2) =
    (fun (_ _ : ℕ) (q : XR × XR) => (.ok (-(q.2 - .fin 0), q.1 - .fin 0) : Except PyErr (XR × XR))) k n p := by
  intro _ _ p
  have h : ∀ (x : XR) (u : ℝ), (x + .fin u) - .fin u = x - .fin 0 := fun x u => by
    have := XR.shift_sub_fin x 0 u
    rwa [zero_add] at this
  simp only [h]

end Oneka
