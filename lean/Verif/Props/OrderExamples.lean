import Verif.Props.Order
import Verif.Props.Examples
import Verif.Props.StatisticsExamples

/-!
# Calls that meet the hypotheses of C124
-/

namespace Oneka

open MeasureTheory ProbabilityTheory

/-- the well of the example call -/
noncomputable def northWell : SWell := ⟨1000, 1000, 0.25, .tuple [500, 1000]⟩

/-- a second well -/
noncomputable def southWell : SWell := ⟨2000, -1000, 0.5, .const 700⟩

/-- the example call with two wells; the target is the first one -/
noncomputable def twoWells (r : ℤ) : PyArgs :=
  { exampleCall r with
    wells := .list [.tuple [fl 1000, fl 1000, fl 0.25, .tuple [fl 500, fl 1000]], .tuple [fl 2000, fl (-1000), fl 0.5, fl 700]] }

/-- the same with the wells in the other order; the target is the second one -/
noncomputable def twoWells' (r : ℤ) : PyArgs :=
  { exampleCall r with
    target := .int 1
    wells := .list [.tuple [fl 2000, fl (-1000), fl 0.5, fl 700], .tuple [fl 1000, fl 1000, fl 0.25, .tuple [fl 500, fl 1000]]] }

/-- the numbers in the call -/
noncomputable def twoWellsInputs (r : ℤ) : Inputs := (exampleInputs r).withWells [northWell, southWell] 0

theorem twoWells_well (w : PyVal) (hw : w = .tuple [fl 1000, fl 1000, fl 0.25, .tuple [fl 500, fl 1000]] ∨ w = .tuple [fl 2000, fl (-1000), fl 0.5, fl 700]) : w.IsWell := by
  rcases hw with rfl | rfl
  · refine ⟨_, _, _, _, .inl rfl, ⟨_, rfl, trivial⟩, ⟨_, rfl, trivial⟩, ⟨_, rfl, fin_pos (by norm_num)⟩, .inr (.inl ⟨_, _, _, _, .inl rfl, rfl, rfl, ?_, ?_, ?_⟩)⟩
    · trivial
    · show (500:ℝ) ≤ 1000
      norm_num
    · trivial
  · exact ⟨_, _, _, _, .inl rfl, ⟨_, rfl, trivial⟩, ⟨_, rfl, trivial⟩, ⟨_, rfl, fin_pos (by norm_num)⟩, .inl ⟨_, rfl, trivial, trivial⟩⟩

theorem twoWells_acceptable (r : ℤ) : Acceptable (twoWells r) :=
  { exampleCall_acceptable r with
    wells := ⟨_, rfl, fun w hw => twoWells_well w (by simpa using hw), 0, .inl rfl, le_rfl, by simp⟩ }

theorem twoWells'_acceptable (r : ℤ) : Acceptable (twoWells' r) :=
  { exampleCall_acceptable r with
    wells := ⟨_, rfl, fun w hw => twoWells_well w (by have := List.mem_pair.mp hw; tauto), 1, .inl rfl, by norm_num, by simp⟩ }

theorem twoWells_denotes (r : ℤ) : (twoWells r).Denotes (twoWellsInputs r) :=
  { exampleCall_denotes r with
    wells := ⟨_, rfl, .cons ⟨_, _, _, _, .inl rfl, fl_isReal _, fl_isReal _, fl_isReal _, ⟨_, rfl, .cons (fl_isReal _) (.cons (fl_isReal _) .nil)⟩⟩
      (.cons ⟨_, _, _, _, .inl rfl, fl_isReal _, fl_isReal _, fl_isReal _, fl_isReal _⟩ .nil)⟩ }

theorem twoWells'_denotes (r : ℤ) : (twoWells' r).Denotes ((twoWellsInputs r).withWells [southWell, northWell] 1) :=
  { exampleCall_denotes r with
    target := .inl rfl
    wells := ⟨_, rfl, .cons ⟨_, _, _, _, .inl rfl, fl_isReal _, fl_isReal _, fl_isReal _, fl_isReal _⟩
      (.cons ⟨_, _, _, _, .inl rfl, fl_isReal _, fl_isReal _, fl_isReal _, ⟨_, rfl, .cons (fl_isReal _) (.cons (fl_isReal _) .nil)⟩⟩ .nil)⟩ }

theorem twoWells_spread (r : ℤ) : (twoWellsInputs r).Spread := by
  obtain ⟨h1, h2, h3, -⟩ := exampleInputs_spread r
  refine ⟨h1, h2, h3, ?_⟩
  intro w hw
  rcases List.mem_pair.mp hw with rfl | rfl <;> (rintro ⟨x, m, h⟩; simp [northWell, southWell] at h)

theorem twoWells_retained (r : ℤ) : filterObs (twoWellsInputs r).run.obs ((twoWellsInputs r).run.wells.map fun w => (w.xw, w.yw)) (twoWellsInputs r).buffer = .ok sevenObs := by
  classical
  unfold filterObs
  have : removeNear (twoWellsInputs r).buffer ((twoWellsInputs r).run.wells.map fun w => (w.xw, w.yw)) (twoWellsInputs r).run.obs = sevenObs := by
    rw [removeNear_eq, show (twoWellsInputs r).run.obs = sevenObs from rfl, List.filter_eq_self]
    intro o ho
    simp only [twoWellsInputs, Inputs.withWells, northWell, southWell, exampleInputs, List.map_cons, List.map_nil, List.mem_cons, List.not_mem_nil, or_false, forall_eq_or_imp, forall_eq, decide_eq_true_eq]
    simp only [sevenObs, sixObs, List.cons_append, List.nil_append, List.mem_cons, List.not_mem_nil, or_false] at ho
    rcases ho with rfl | rfl | rfl | rfl | rfl | rfl | rfl <;> constructor <;> (unfold Obs.dist; rw [Real.lt_sqrt (by norm_num)]; norm_num)
  rw [this]
  refine mergeRuns_chain _ ?_
  unfold sevenObs sixObs
  simp only [List.cons_append, List.nil_append]
  refine .cons_cons ?_ (.cons_cons ?_ (.cons_cons ?_ (.cons_cons ?_ (.cons_cons ?_ (.cons_cons ?_ (.singleton _)))))) <;>
    (unfold Obs.dist; rw [Real.le_sqrt' one_pos]; norm_num)

theorem twoWells_returns (r : ℤ) (N : ℕ) (t : DateTime) : (oneka (twoWells r) (exampleCallEnv N t)).ending = .returns .none :=
  C70_returns (env := exampleCallEnv N t) (twoWells_acceptable r) (twoWells_denotes r) (exampleInputs_regular r)
    (fun _ => ⟨twoWells_spread r, fun _ _ => by simp only [exampleCallEnv, exampleEnv]; norm_num⟩) perfect_correct
    perfect_converges sevenObs 0 _ (twoWells_retained r) rfl rfl (by simp [sevenObs, sixObs]) (fun o ho => (sevenObs_usable o ho).1) sevenObs_general
    (fun _ _ ev _ => ⟨ev, rfl⟩) (example_no_endless _ N _) rfl rfl

/-- the order of the two calls -/
theorem twoWells_reorders (r : ℤ) : Reorders (Equiv.swap 0 1) (twoWellsInputs r).run.wells [southWell, northWell] where
  at_ := by
    intro j
    match j with
    | 0 => simp [twoWellsInputs, Inputs.withWells]
    | 1 => simp [twoWellsInputs, Inputs.withWells]
    | j + 2 => rw [Equiv.swap_apply_of_ne_of_ne (by omega) (by omega)]; simp [twoWellsInputs, Inputs.withWells]
  beyond := by
    intro j hj
    have : 2 ≤ j := hj
    exact Equiv.swap_apply_of_ne_of_ne (by omega) (by omega)

/-- C124: the hypotheses of `C124_call` and `C124_archive` are met, with draws that differ between the wells; with the draws of the example both calls return. -/
example (r : ℤ) (N : ℕ) (t : DateTime) : Acceptable (twoWells r) ∧ Acceptable (twoWells' r) ∧ (twoWells r).Denotes (twoWellsInputs r) ∧
    (twoWells' r).Denotes ((twoWellsInputs r).withWells [southWell, northWell] (1:ℕ)) ∧ Reorders (Equiv.swap 0 1) (twoWellsInputs r).run.wells [southWell, northWell] ∧
    (twoWellsInputs r).run.target = (0:ℕ) ∧ Equiv.swap (0:ℕ) 1 1 = 0 ∧
    (oneka (twoWells r) (exampleCallEnv N t)).ending = .returns .none ∧ (oneka (twoWells' r) (exampleCallEnv N t)).ending = .returns .none := by
  refine ⟨twoWells_acceptable r, twoWells'_acceptable r, twoWells_denotes r, twoWells'_denotes r, twoWells_reorders r, rfl, by simp, twoWells_returns r N t, ?_⟩
  rw [← twoWells_returns r N t]
  exact (C124_call (Equiv.swap 0 1) _ _ _ _ 0 1 (exampleCallEnv N t) (exampleEnv N).u (twoWells_acceptable r) (twoWells'_acceptable r) (twoWells_denotes r) (twoWells'_denotes r) (twoWells_reorders r) rfl
    (by simp) fun _ i j => ⟨rfl, by simp only [exampleCallEnv, exampleEnv]; norm_num, by simp only [exampleCallEnv, exampleEnv]; norm_num⟩).1

/-- C124: draws that differ between the wells: the first call gets 0, 1/2, 2/3, …, the second one 1/2, 0, 2/3, … -/
example : ∀ _ j : ℕ, (fun j : ℕ => 1 - 1 / ((Equiv.swap 0 1 j : ℕ) + 1 : ℝ)) j = (fun j : ℕ => 1 - 1 / ((j:ℝ) + 1)) (Equiv.swap 0 1 j) ∧ 0 ≤ 1 - 1 / ((j:ℝ) + 1) ∧ 1 - 1 / ((j:ℝ) + 1) < 1 := by
  intro _ j
  have : (0:ℝ) < (j:ℝ) + 1 := by positivity
  refine ⟨rfl, ?_, ?_⟩
  · rw [sub_nonneg, div_le_one this]
    linarith [Nat.cast_nonneg (α := ℝ) j]
  · have : 0 < 1 / ((j:ℝ) + 1) := by positivity
    linarith

/-- C124: the hypotheses of `C124_law` are met by uniform and normal numbers. -/
example : (∀ σ : Equiv.Perm ℕ, numpyLaw.map (fun x => (fun j => x.1 (σ j), x.2)) = numpyLaw) ∧ (∀ᵐ x ∂numpyLaw, ∀ j, 0 ≤ x.1 j ∧ x.1 j < 1) := by
  constructor
  · intro σ
    have h : (Measure.infinitePi fun _ : ℕ => (volume.restrict (Set.Ico 0 1) : Measure ℝ)).map (fun x j => x (σ j)) = Measure.infinitePi fun _ : ℕ => (volume.restrict (Set.Ico 0 1) : Measure ℝ) := by
      have := Measure.infinitePi_map_piCongrLeft (μ := fun _ : ℕ => (volume.restrict (Set.Ico 0 1) : Measure ℝ)) σ.symm
      convert this using 2
      funext x j
      obtain ⟨i, rfl⟩ := σ.symm.surjective j
      rw [Equiv.apply_symm_apply]
      exact (Equiv.piCongrLeft_apply_apply (fun _ : ℕ => ℝ) σ.symm x i).symm
    have hm : Measurable fun (x : ℕ → ℝ) j => x (σ j) := measurable_pi_lambda _ fun j => measurable_pi_apply _
    unfold numpyLaw
    have := Measure.map_prod_map (Measure.infinitePi fun _ : ℕ => (volume.restrict (Set.Ico 0 1) : Measure ℝ)) (Measure.pi fun _ : Fin 6 => gaussianReal 0 1) hm measurable_id
    rw [h, Measure.map_id] at this
    exact this.symm
  · unfold numpyLaw
    have : ∀ᵐ y ∂(Measure.infinitePi fun _ : ℕ => (volume.restrict (Set.Ico 0 1) : Measure ℝ)), ∀ j, 0 ≤ y j ∧ y j < 1 := by
      rw [ae_all_iff]
      intro j
      exact (measurePreserving_eval_infinitePi (fun _ : ℕ => (volume.restrict (Set.Ico 0 1) : Measure ℝ)) j).quasiMeasurePreserving.ae (ae_restrict_mem measurableSet_Ico)
    exact Measure.quasiMeasurePreserving_fst.ae this

end Oneka
