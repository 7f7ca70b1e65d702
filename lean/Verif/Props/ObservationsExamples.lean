import Verif.Props.Observations
import Verif.Props.Examples

/-!
# Examples for Props/Observations.lean
-/

namespace Oneka

open Aquifer

/-- the call `exampleCall r`, with its observations listed from the last to the first -/
noncomputable def reversedCall (r : ℤ) : PyArgs := { exampleCall r with observations := .list (sevenObs.reverse.map fun o => .tuple [fl o.x, fl o.y, fl o.z, fl o.std]) }

theorem reversedCall_acceptable (r : ℤ) : Acceptable (reversedCall r) :=
  { exampleCall_acceptable r with
    observations := by
      refine ⟨_, rfl, by simp [sevenObs, sixObs], ?_⟩
      intro v hv
      obtain ⟨o, ho, rfl⟩ := List.mem_map.mp hv
      exact ⟨_, _, _, _, .inl rfl, ⟨_, rfl, trivial⟩, ⟨_, rfl, trivial⟩, ⟨_, rfl, trivial⟩, ⟨_, rfl, (sevenObs_usable o (List.mem_reverse.mp ho)).2.le⟩⟩ }

theorem reversedCall_denotes (r : ℤ) : (reversedCall r).Denotes ((exampleInputs r).withObs sevenObs.reverse) :=
  { exampleCall_denotes r with
    observations := by
      refine ⟨_, rfl, ?_⟩
      rw [show ((exampleInputs r).withObs sevenObs.reverse).run.obs = sevenObs.reverse from rfl, List.forall₂_map_left_iff, List.forall₂_same]
      intro o _
      exact ⟨_, _, _, _, .inl rfl, fl_isReal _, fl_isReal _, fl_isReal _, fl_isReal _⟩ }

theorem sevenObs_apart : Apart sevenObs := by
  unfold Apart sevenObs sixObs
  simp only [List.cons_append, List.nil_append, List.pairwise_cons, List.mem_cons, List.not_mem_nil, or_false, forall_eq_or_imp, forall_eq]
  refine ⟨⟨?_, ?_, ?_, ?_, ?_, ?_⟩, ⟨?_, ?_, ?_, ?_, ?_⟩, ⟨?_, ?_, ?_, ?_⟩, ⟨?_, ?_, ?_⟩, ⟨?_, ?_⟩, ?_, by simp⟩ <;>
    (unfold Obs.dist; rw [Real.le_sqrt' one_pos]; norm_num)

theorem example_far (r : ℤ) : farFrom (exampleInputs r).buffer ((exampleInputs r).run.wells.map fun w => (w.xw, w.yw)) (exampleInputs r).run.obs = sevenObs := by
  classical
  rw [farFrom, show (exampleInputs r).run.obs = sevenObs from rfl, List.filter_eq_self]
  intro o ho
  simp only [exampleInputs, List.map_cons, List.map_nil, List.mem_singleton, forall_eq, decide_eq_true_eq]
  simp only [sevenObs, sixObs, List.cons_append, List.nil_append, List.mem_cons, List.not_mem_nil, or_false] at ho
  rcases ho with rfl | rfl | rfl | rfl | rfl | rfl | rfl <;> (unfold Obs.dist; rw [Real.lt_sqrt (by norm_num)]; norm_num)

theorem example_apart (r : ℤ) : Apart (farFrom (exampleInputs r).buffer ((exampleInputs r).run.wells.map fun w => (w.xw, w.yw)) (exampleInputs r).run.obs) := by
  rw [example_far]
  exact sevenObs_apart

theorem reversed_returns (r : ℤ) (N : ℕ) (t : DateTime) : (oneka (reversedCall r) (exampleCallEnv N t)).ending = .returns .none := by
  rw [← example_returns r N t]
  exact (C129_call_order (exampleCall r) (reversedCall r) (exampleInputs r) sevenObs.reverse (exampleCallEnv N t) (exampleCall_acceptable r) (reversedCall_acceptable r) (exampleCall_denotes r) (reversedCall_denotes r)
    (List.reverse_perm sevenObs).symm (example_apart r) perfect_correct perfect_converges perfect_strict).1

/-- C129: the hypotheses of `C129_archive_order` are met; and what it says. -/
example (r : ℤ) (N : ℕ) (t : DateTime) : ∃ (d d' : Dict) (f : FieldVal),
    loadOneka ((oneka (exampleCall r) (exampleCallEnv N t)).events.foldl Effect.apply fun _ => none) t.archiveName = .ok d ∧ d.get "pfield" = some (.field f) ∧
    loadOneka ((oneka (reversedCall r) (exampleCallEnv N t)).events.foldl Effect.apply fun _ => none) t.archiveName = .ok d' ∧ d'.get "pfield" = some (.field f) :=
  C129_archive_order (exampleCall r) (reversedCall r) (exampleInputs r) sevenObs.reverse (exampleCallEnv N t) _ _ (exampleCall_denotes r) (reversedCall_denotes r) (List.reverse_perm sevenObs).symm (example_apart r)
    perfect_correct perfect_converges perfect_strict (example_returns r N t) (reversed_returns r N t) _

/-- C129: the hypotheses of `C129_run_precision` are met by the observations of the example: the thickness is 20, the base 0, all levels are above 20. -/
theorem example_covered (r : ℤ) : (exampleInputs r).run.Covered sevenObs := by
  refine ⟨5, 20, 20, 20, .triple _ _ _ _ _ _ rfl rfl rfl (by norm_num) (by norm_num) (by norm_num), by norm_num, .scalar _ _ rfl, by norm_num, fun o ho => ?_⟩
  simp only [sevenObs, sixObs, List.cons_append, List.nil_append, List.mem_cons, List.not_mem_nil, or_false] at ho
  refine ⟨?_, ?_, fun w hw => ?_⟩
  · rcases ho with rfl | rfl | rfl | rfl | rfl | rfl | rfl <;> norm_num [exampleInputs]
  · rcases ho with rfl | rfl | rfl | rfl | rfl | rfl | rfl <;> norm_num
  · simp only [exampleInputs, List.mem_singleton] at hw
    subst hw
    rcases ho with rfl | rfl | rfl | rfl | rfl | rfl | rfl <;> norm_num

/-- C129: with standard deviations ten times as large the deterministic run of the example returns the same field. -/
example (r : ℤ) (N : ℕ) : createDeterministic { (exampleInputs r).run with obs := sevenObs.map (Obs.blur 10) } (exampleEnv N) =
    (createDeterministic (exampleInputs r).run (exampleEnv N)).map fun r => ⟨r.outcome, r.log.map (RealizationLog.blur 10)⟩ :=
  C129_run_precision (exampleInputs r).run (example_covered r) 10 (by norm_num) (exampleEnv N) perfect_correct perfect_converges perfect_strict

/-- C129: nine observations, two of them at the place of another one -/
noncomputable def repeatedObs : List Obs := sevenObs ++ [⟨2, 2, 34, 2⟩, ⟨2, 2, 31, 1⟩]

/-- C129: the hypotheses of `C129_duplicates_run` are met; `filter_obs` merges three observations into one. -/
theorem repeated_far : farFrom 100 [(1000, 1000)] repeatedObs = repeatedObs := by
  classical
  rw [farFrom, List.filter_eq_self]
  intro o ho
  simp only [List.mem_singleton, forall_eq, decide_eq_true_eq]
  simp only [repeatedObs, sevenObs, sixObs, List.cons_append, List.nil_append, List.mem_cons, List.not_mem_nil, or_false] at ho
  rcases ho with rfl | rfl | rfl | rfl | rfl | rfl | rfl | rfl | rfl <;> (unfold Obs.dist; rw [Real.lt_sqrt (by norm_num)]; norm_num)

theorem repeated_places : repeatedObs.Pairwise fun o p => o.dist p.x p.y < 1 → p.x = o.x ∧ p.y = o.y := by
  have key : ∀ (o : Obs) (x y : ℝ), o.dist x y < 1 → (o.x - x) ^ 2 + (o.y - y) ^ 2 < 1 := by
    intro o x y h
    unfold Obs.dist at h
    rw [Real.sqrt_lt' one_pos] at h
    linarith
  unfold repeatedObs
  rw [List.pairwise_append]
  refine ⟨sevenObs_apart.imp fun h h' => absurd h' (not_lt.mpr h), by simp, fun o ho p hp h => ?_⟩
  have hp' : p.x = 2 ∧ p.y = 2 := by
    simp only [List.mem_cons, List.not_mem_nil, or_false] at hp
    rcases hp with rfl | rfl <;> exact ⟨rfl, rfl⟩
  rw [hp'.1, hp'.2] at h ⊢
  have := key _ _ _ h
  simp only [sevenObs, sixObs, List.cons_append, List.nil_append, List.mem_cons, List.not_mem_nil, or_false] at ho
  rcases ho with rfl | rfl | rfl | rfl | rfl | rfl | rfl <;> first | exact ⟨rfl, rfl⟩ | (norm_num at this)

theorem repeated_covered (r : ℤ) : (exampleInputs r).run.Covered repeatedObs := by
  refine ⟨5, 20, 20, 20, .triple _ _ _ _ _ _ rfl rfl rfl (by norm_num) (by norm_num) (by norm_num), by norm_num, .scalar _ _ rfl, by norm_num, fun o ho => ?_⟩
  simp only [repeatedObs, sevenObs, sixObs, List.cons_append, List.nil_append, List.mem_cons, List.not_mem_nil, or_false] at ho
  refine ⟨?_, ?_, fun w hw => ?_⟩
  · rcases ho with rfl | rfl | rfl | rfl | rfl | rfl | rfl | rfl | rfl <;> norm_num [exampleInputs]
  · rcases ho with rfl | rfl | rfl | rfl | rfl | rfl | rfl | rfl | rfl <;> norm_num
  · simp only [exampleInputs, List.mem_singleton] at hw
    subst hw
    rcases ho with rfl | rfl | rfl | rfl | rfl | rfl | rfl | rfl | rfl <;> norm_num

/-- C129: so the deterministic run with the seven merged observations is the run with all nine. -/
example (r : ℤ) (N : ℕ) : ∃ l, filterObs repeatedObs [(1000, 1000)] 100 = .ok l ∧
    createDeterministic { (exampleInputs r).run with obs := l } (exampleEnv N) = createDeterministic { (exampleInputs r).run with obs := repeatedObs } (exampleEnv N) := by
  have hf : filterObs repeatedObs [(1000, 1000)] 100 = mergeRuns repeatedObs := by
    unfold filterObs
    rw [farFrom_eq, repeated_far]
  obtain ⟨gs, hG⟩ := grouping_exists repeatedObs
  obtain ⟨rs, e, -⟩ := (grouping_spec hG).1 fun g hg _ o ho => by
    have : o ∈ repeatedObs := by
      rw [← grouping_flatten hG]
      exact List.mem_flatten.mpr ⟨g, hg, ho⟩
    obtain ⟨_, _, _, _, _, _, _, _, h⟩ := repeated_covered r
    exact (h o this).2.1.ne'
  refine ⟨rs, hf.trans e, ?_⟩
  have := (C129_duplicates_run { (exampleInputs r).run with obs := repeatedObs } [(1000, 1000)] 100 rs (hf.trans e)
    (by rw [show ({ (exampleInputs r).run with obs := repeatedObs } : RunArgs).obs = repeatedObs from rfl, repeated_far]; exact repeated_covered r)
    (by rw [show ({ (exampleInputs r).run with obs := repeatedObs } : RunArgs).obs = repeatedObs from rfl, repeated_far]; exact repeated_places) 0 (exampleEnv N) perfect_correct perfect_converges perfect_strict).2
  simpa only [repeated_far] using this

end Oneka
