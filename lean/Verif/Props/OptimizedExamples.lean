import Verif.Props.Optimized
import Verif.Props.Examples

/-!
# Examples for Props/Optimized.lean

`exampleCall r` is a call with `r` realizations, seven observations and one well, `exampleCallEnv N t` an environment for it (Props/Examples.lean).
-/

namespace Oneka

/-- C148_same, C148_returned: the example call, for all numbers of realizations -/
example (r : ℤ) (N : ℕ) (t : DateTime) : onekaO (exampleCall r) (exampleCallEnv N t) = oneka (exampleCall r) (exampleCallEnv N t) :=
  C148_same (exampleCall_acceptable r) (exampleCall_denotes r) (exampleCallEnv N t) fun obs ho => by
    obtain rfl : sevenObs = obs := by
      have := (example_retained r).symm.trans ho
      simpa using this
    simp [sevenObs, sixObs]

example (r : ℤ) (N : ℕ) (t : DateTime) : onekaO (exampleCall r) (exampleCallEnv N t) = oneka (exampleCall r) (exampleCallEnv N t) :=
  C148_returned (exampleCall_denotes r) (example_returns r N t)

/-- C148_logs: a buffer of 0 is rejected in silence, or noted in the log -/
example (r : ℤ) (N : ℕ) (t : DateTime) : (oneka { exampleCall r with buffer := .int 0 } (exampleCallEnv N t)).events = [] ∧ (onekaO { exampleCall r with buffer := .int 0 } (exampleCallEnv N t)).events ≠ [] := by
  have h : ¬ Acceptable { exampleCall r with buffer := .int 0 } := by
    intro h
    obtain ⟨x, hx, hx0⟩ := h.buffer
    simp only [PyVal.num, Int.cast_zero, Option.some.injEq] at hx
    subst hx
    exact lt_irrefl (0:ℝ) hx0
  exact ⟨(C148_logs h _).1, (C148_logs h _).2.2⟩

/-- C148_negative_target: the only well of the example is well 0 and well -1 -/
example (r : ℤ) (N : ℕ) (t : DateTime) : (∃ e, oneka { exampleCall r with target := .int (-1) } (exampleCallEnv N t) = ⟨[], .raises e⟩) ∧
    (onekaO { exampleCall r with target := .int (-1) } (exampleCallEnv N t)).ending = .returns .none := by
  obtain ⟨h1, h2, -⟩ := C148_negative_target (exampleCall_denotes r) (exampleCallEnv N t) 0 rfl (by simp [exampleInputs])
  refine ⟨h1, h2.trans ?_⟩
  rw [C148_returned (exampleCall_denotes r) (example_returns r N t)]
  exact example_returns r N t

/-- a buffer that leaves two observations -/
noncomputable def bufferedCall (r : ℤ) : PyArgs := { exampleCall r with buffer := .int 1413 }

noncomputable def bufferedInputs (r : ℤ) : Inputs := { exampleInputs r with buffer := 1413 }

noncomputable def bufferedObs : List Obs := [⟨1, 0, 31, 1⟩, ⟨0, 1, 32, 2⟩]

theorem buffered_retained (r : ℤ) : filterObs (bufferedInputs r).run.obs ((bufferedInputs r).run.wells.map fun w => (w.xw, w.yw)) (bufferedInputs r).buffer = .ok bufferedObs := by
  classical
  have far : ∀ o : Obs, (∀ w ∈ (bufferedInputs r).run.wells.map fun w => (w.xw, w.yw), 1413 < o.dist w.1 w.2) ↔ (1413:ℝ) ^ 2 < (o.x - 1000) ^ 2 + (o.y - 1000) ^ 2 := by
    intro o
    simp only [bufferedInputs, exampleInputs, List.map_cons, List.map_nil, List.mem_singleton, forall_eq]
    unfold Obs.dist
    rw [Real.lt_sqrt (by norm_num)]
  unfold filterObs
  have : removeNear (bufferedInputs r).buffer ((bufferedInputs r).run.wells.map fun w => (w.xw, w.yw)) (bufferedInputs r).run.obs = bufferedObs := by
    rw [removeNear_eq, show (bufferedInputs r).buffer = 1413 from rfl]
    rw [show (bufferedInputs r).run.obs = sevenObs from rfl]
    refine (List.filter_congr (q := fun o => decide ((1413:ℝ) ^ 2 < (o.x - 1000) ^ 2 + (o.y - 1000) ^ 2)) fun o _ => decide_eq_decide.mpr (far o)).trans ?_
    unfold sevenObs sixObs bufferedObs
    norm_num [List.filter_cons]
  rw [this]
  refine mergeRuns_chain _ ?_
  unfold bufferedObs
  refine .cons_cons ?_ (.singleton _)
  unfold Obs.dist
  rw [Real.le_sqrt' one_pos]
  norm_num

/-- C148_few -/
example (r : ℤ) (N : ℕ) (t : DateTime) : (oneka (bufferedCall r) (exampleCallEnv N t)).ending = .raises .assertionError ∧ (onekaO (bufferedCall r) (exampleCallEnv N t)).ending = .raises .linAlgError := by
  have hd : (bufferedCall r).Denotes (bufferedInputs r) := { exampleCall_denotes r with buffer := by simp [bufferedCall, bufferedInputs, PyVal.IsReal, PyVal.num] }
  have ha : Acceptable (bufferedCall r) := { exampleCall_acceptable r with buffer := positive_int (by norm_num) }
  refine C148_few (env := exampleCallEnv N t) ha hd (exampleInputs_regular r) (example_draws r N t) perfect_correct perfect_converges bufferedObs (buffered_retained r) (by simp [bufferedObs]) (by simp [bufferedObs]) ?_
  intro o ho
  simp only [bufferedObs, List.mem_cons, List.not_mem_nil, or_false] at ho
  show (0:ℝ) < o.z
  rcases ho with rfl | rfl <;> norm_num

/-- C148_no_duration -/
example (r : ℤ) (N : ℕ) (t : DateTime) (fs : Files) : (∃ e, oneka { exampleCall r with duration := .int 0 } (exampleCallEnv N t) = ⟨[], .raises e⟩) ∧
    (onekaO { exampleCall r with duration := .int 0 } (exampleCallEnv N t)).ending = .returns .none ∧
    ∃ (d : Dict) (f : PField ℝ), loadOneka ((onekaO { exampleCall r with duration := .int 0 } (exampleCallEnv N t)).events.foldl Effect.apply fs) t.archiveName = .ok d ∧ d.get "pfield" = some (.field (.field f)) ∧
      f.total = max 1 r ∧ ∀ p q : ℤ, f.weightAt (1000 + p * 4) (1000 + q * 4) = 0 := by
  obtain ⟨h1, h2, d, f, k, w, h3, h4, h5, h6, h7, h8⟩ := C148_no_duration (env := exampleCallEnv N t) (exampleCall_acceptable r) (exampleCall_denotes r) (exampleInputs_regular r) (example_draws r N t)
    perfect_correct perfect_converges sevenObs (example_retained r) (by simp [sevenObs, sixObs]) (fun o ho => (sevenObs_usable o ho).1) sevenObs_general (fun _ _ ev _ => ⟨ev, rfl⟩) rfl rfl fs
  refine ⟨h1, h2, d, f, h3, h4, h7, fun p q => ?_⟩
  obtain rfl : k = 0 := by
    have : (0:ℤ) = k := h5
    omega
  obtain rfl : (⟨1000, 1000, 0.25, .tuple [500, 1000]⟩ : SWell) = w := by
    have : some (⟨1000, 1000, 0.25, .tuple [500, 1000]⟩ : SWell) = some w := h6
    exact Option.some.inj this
  exact h8 p q (.inr (by simp [exampleInputs]))

end Oneka
