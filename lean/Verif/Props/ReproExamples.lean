import Verif.Props.Repro
import Verif.Props.Examples

/-!
# Examples for C139

The call of Examples.lean, and a call with another name, another buffer, one more observation (too near the well), another smoothing, and floats in place of some integers, at another time.
-/

namespace Oneka

/-- the other call -/
noncomputable def otherCall (r : ℤ) : PyArgs := { exampleCall r with
  projectname := .str "Other"
  runtime := .str "now"
  duration := fl 3650
  base := fl 0
  observations := .list ((⟨1000, 1001, 30, 1⟩ :: sevenObs : List Obs).map fun o => .tuple [fl o.x, fl o.y, fl o.z, fl o.std])
  buffer := fl 200
  smooth := .int 5
  spacing := fl 4 }

/-- the numbers in it -/
noncomputable def otherInputs (r : ℤ) : Inputs := { exampleInputs r with
  run := { (exampleInputs r).run with obs := ⟨1000, 1001, 30, 1⟩ :: sevenObs }
  buffer := 200
  smooth := 5 }

/-- its environment -/
noncomputable def otherEnv (N : ℕ) (t : DateTime) : CallEnv := { exampleCallEnv N t with gaussian := fun g s => if s = 5 then Grid.full 1 1 0 else g }

theorem other_acceptable (r : ℤ) : Acceptable (otherCall r) := by
  have h := exampleCall_acceptable r
  refine ⟨⟨_, rfl⟩, ⟨_, rfl⟩, h.3, h.4, ⟨_, rfl, by simp⟩, ⟨_, rfl, trivial⟩, h.7, h.8, h.9, ?_, ⟨_, rfl, fin_pos (by norm_num)⟩, ⟨_, rfl, fin_pos (by norm_num)⟩, h.13, positive_int (by norm_num), h.15, h.16, h.17⟩
  refine ⟨_, rfl, by simp [sevenObs, sixObs], ?_⟩
  intro v hv
  obtain ⟨o, ho, rfl⟩ := List.mem_map.mp hv
  have hs : 0 < o.std := by
    rcases List.mem_cons.mp ho with rfl | ho
    · norm_num
    · exact (sevenObs_usable o ho).2
  exact ⟨_, _, _, _, .inl rfl, ⟨_, rfl, trivial⟩, ⟨_, rfl, trivial⟩, ⟨_, rfl, trivial⟩, ⟨_, rfl, hs.le⟩⟩

theorem other_denotes (r : ℤ) : (otherCall r).Denotes (otherInputs r) := by
  have h := exampleCall_denotes r
  refine ⟨h.1, h.2, rfl, h.4, fl_isReal _, h.6, h.7, h.8, h.9, ⟨_, rfl, ?_⟩, fl_isReal _, fl_isReal _, h.13, ?_, h.15, h.16, h.17⟩
  · rw [show (otherInputs r).run.obs = ⟨1000, 1001, 30, 1⟩ :: sevenObs from rfl, List.forall₂_map_left_iff, List.forall₂_same]
    intro o _
    exact ⟨_, _, _, _, .inl rfl, fl_isReal _, fl_isReal _, fl_isReal _, fl_isReal _⟩
  · simp [otherCall, otherInputs, PyVal.IsReal, PyVal.num]

/-- the two calls pose the same problem -/
theorem other_same (r : ℤ) : (exampleInputs r).SameProblem (otherInputs r) := by
  classical
  refine ⟨rfl, rfl, ?_⟩
  rw [example_retained, ← example_retained r]
  unfold filterObs
  have e : ∀ b : ℝ, 0 < b → b ≤ 200 → ∀ o ∈ sevenObs, b < o.dist 1000 1000 := by
    intro b hb hb' o ho
    refine lt_of_le_of_lt hb' ?_
    rw [Obs.dist, Real.lt_sqrt (by norm_num)]
    simp only [sevenObs, sixObs, List.cons_append, List.nil_append, List.mem_cons, List.not_mem_nil, or_false] at ho
    rcases ho with rfl | rfl | rfl | rfl | rfl | rfl | rfl <;> norm_num
  have e1 : removeNear (exampleInputs r).buffer ((exampleInputs r).run.wells.map fun w => (w.xw, w.yw)) (exampleInputs r).run.obs = sevenObs := by
    rw [removeNear_eq, show (exampleInputs r).run.obs = sevenObs from rfl, List.filter_eq_self]
    intro o ho
    simp only [exampleInputs, List.map_cons, List.map_nil, List.mem_singleton, forall_eq, decide_eq_true_eq]
    exact e 100 (by norm_num) (by norm_num) o ho
  have e2 : removeNear (otherInputs r).buffer ((otherInputs r).run.wells.map fun w => (w.xw, w.yw)) (otherInputs r).run.obs = sevenObs := by
    rw [removeNear_eq, show (otherInputs r).run.obs = ⟨1000, 1001, 30, 1⟩ :: sevenObs from rfl, List.filter_cons_of_neg, List.filter_eq_self]
    · intro o ho
      simp only [otherInputs, exampleInputs, List.map_cons, List.map_nil, List.mem_singleton, forall_eq, decide_eq_true_eq]
      exact e 200 (by norm_num) le_rfl o ho
    · simp only [otherInputs, exampleInputs, List.map_cons, List.map_nil, List.mem_singleton, forall_eq, decide_eq_true_eq, not_lt, Obs.dist]
      rw [Real.sqrt_le_iff]
      norm_num
  rw [e1, e2]

/-- C139_result: the two calls find the same, and both return -/
example (r : ℤ) (N : ℕ) (t t' : DateTime) :
    (oneka (otherCall r) (otherEnv N t')).ending = .returns .none ∧ findings (oneka (otherCall r) (otherEnv N t')).events = findings (oneka (exampleCall r) (exampleCallEnv N t)).events := by
  obtain ⟨c1, c2, -⟩ := C139_result _ _ _ _ (exampleCallEnv N t) (otherEnv N t') (exampleCall_acceptable r) (other_acceptable r) (exampleCall_denotes r) (other_denotes r) (other_same r) ⟨rfl, rfl, rfl⟩
  exact ⟨c1.trans (example_returns r N t), c2⟩

/-- C139_archived: both archive the same field -/
example (r : ℤ) (N : ℕ) (t t' : DateTime) (fs : Files) :
    ∃ (d d' : Dict) (f : PField ℝ), loadOneka ((oneka (exampleCall r) (exampleCallEnv N t)).events.foldl Effect.apply fs) t.archiveName = .ok d ∧ d.get "pfield" = some (.field (.field f)) ∧
      loadOneka ((oneka (otherCall r) (otherEnv N t')).events.foldl Effect.apply fs) t'.archiveName = .ok d' ∧ d'.get "pfield" = some (.field (.field f)) := by
  obtain ⟨c1, -⟩ := C139_result _ _ _ _ (exampleCallEnv N t) (otherEnv N t') (exampleCall_acceptable r) (other_acceptable r) (exampleCall_denotes r) (other_denotes r) (other_same r) ⟨rfl, rfl, rfl⟩
  exact C139_archived _ _ _ _ (exampleCallEnv N t) (otherEnv N t') _ _ (exampleCall_denotes r) (other_denotes r) (example_returns r N t) (c1.trans (example_returns r N t)) (other_same r) rfl fs fs

end Oneka
