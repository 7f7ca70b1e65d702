import Verif.Props.Sensitivity
import Verif.Props.Examples

/-!
# Examples for Props/Sensitivity.lean
-/

namespace Oneka

open PField

/-- the call `exampleCall r` with 20 paths instead of 10, a spacing of 8 instead of 4 and an umbra of 6 instead of 4 -/
noncomputable def denseCall (r : ℤ) : PyArgs := { exampleCall r with npaths := .int 20, spacing := .int 8, umbra := .int 6 }

/-- the numbers in it -/
noncomputable def denseInputs (r : ℤ) : Inputs := { exampleInputs r with run := (exampleInputs r).run.denser 2 6 8 }

theorem denseCall_acceptable (r : ℤ) : Acceptable (denseCall r) := by
  have h := exampleCall_acceptable r
  exact ⟨h.1, h.2, h.3, .inl ⟨20, rfl, by norm_num⟩, h.5, h.6, h.7, h.8, h.9, h.10, h.11, positive_int (by norm_num), positive_int (by norm_num), h.14, h.15, h.16, h.17⟩

theorem denseCall_denotes (r : ℤ) : (denseCall r).Denotes (denseInputs r) :=
  { exampleCall_denotes r with
    npaths := .inl rfl
    spacing := by simp [denseCall, denseInputs, RunArgs.denser, PyVal.IsReal, PyVal.num]
    umbra := by simp [denseCall, denseInputs, RunArgs.denser, PyVal.IsReal, PyVal.num] }

theorem dense_returns (r : ℤ) (N : ℕ) (t : DateTime) : (oneka (denseCall r) (exampleCallEnv N t)).ending = .returns .none :=
  C70_returns (env := exampleCallEnv N t) (denseCall_acceptable r) (denseCall_denotes r) (exampleInputs_regular r) (example_draws r N t) perfect_correct
    perfect_converges sevenObs 0 _ (example_retained r) rfl rfl (by simp [sevenObs, sixObs]) (fun o ho => (sevenObs_usable o ho).1) sevenObs_general
    (fun _ _ ev _ => ⟨ev, rfl⟩) (example_no_endless _ N _) rfl rfl

theorem exampleEnv_denser (N k : ℕ) : (exampleEnv N).Denser k (exampleEnv N) := ⟨rfl, rfl, rfl, fun _ _ _ => rfl⟩

/-- C127: the hypotheses of `C127_archived` are met, for stochastic and for deterministic calls; and what it says about the position of the target. -/
example (r : ℤ) (N : ℕ) (t t' : DateTime) : ∃ (d d' : Dict) (f f' : PField ℝ),
    loadOneka ((oneka (exampleCall r) (exampleCallEnv N t)).events.foldl Effect.apply fun _ => none) t.archiveName = .ok d ∧
    d.get "pfield" = some (.field (.field f)) ∧
    loadOneka ((oneka (denseCall r) (exampleCallEnv N t')).events.foldl Effect.apply fun _ => none) t'.archiveName = .ok d' ∧
    d'.get "pfield" = some (.field (.field f')) ∧ f.total = f'.total ∧ f.weightAt 1008 992 ≤ f'.weightAt 1008 992 := by
  obtain ⟨d, d', f, f', j, w, h1, h2, h3, h4, h5, h6, h7, -, h8⟩ := C127_archived (exampleCall r) (denseCall r) (exampleInputs r) (denseInputs r)
    (exampleCallEnv N t) (exampleCallEnv N t') _ _ (exampleCall_denotes r) (denseCall_denotes r) (example_returns r N t) (dense_returns r N t')
    (k := 2) (by norm_num) (exampleEnv_denser N 2) (u' := 6) (s' := 8) rfl rfl rfl (by norm_num [exampleInputs]) (by norm_num [exampleInputs])
    (fun _ => none) (fun _ => none)
  obtain rfl : j = 0 := by simpa [exampleInputs] using h5.symm
  obtain rfl : w = ⟨1000, 1000, 0.25, .tuple [500, 1000]⟩ := by simpa [exampleInputs] using h6.symm
  exact ⟨d, d', f, f', h1, h2, h3, h4, h7, h8 _ _ ⟨1, -1, by norm_num, by norm_num⟩⟩

/-- C127: the run of `exampleArgs` returns, so (`C127_course`) it returns with any other umbra and spacing, and (`C127_spacing`) with spacing 8 every weight is as before. -/
example (N n : ℕ) : ∃ r f f', createStochastic exampleArgs n (exampleEnv N) = some r ∧ r.outcome = .ok f ∧
    createStochastic (exampleArgs.redrawn 4 8) n (exampleEnv N) = some ⟨.ok f', r.log⟩ ∧ f.weightAt 16 (-8) = f'.weightAt 16 (-8) := by
  obtain ⟨r, f, hr, ho⟩ := exampleRun_returns N n
  obtain ⟨f', h1, h2⟩ := C127_spacing exampleArgs n 0 (exampleEnv N) ⟨0, 0, 0.25, .tuple [500, 1000]⟩ rfl rfl (by norm_num [exampleArgs]) (s' := 8)
    (by norm_num [exampleArgs]) (by norm_num [exampleArgs]) (by norm_num [exampleArgs]) (by norm_num) hr ho
  exact ⟨r, f, f', hr, ho, h1, h2 _ _ ⟨4, -2, by norm_num [exampleArgs], by norm_num [exampleArgs]⟩ ⟨2, -1, by norm_num, by norm_num⟩⟩

/-- C127: the hypotheses of `C127_stochastic` are met. -/
example (N n : ℕ) : ∃ r' f', createStochastic (exampleArgs.denser 1 5 8) n (exampleEnv N) = some r' ∧ r'.outcome = .ok f' ∧
    ∃ r f, createStochastic exampleArgs n (exampleEnv N) = some r ∧ r.outcome = .ok f ∧ f.weightAt 8 0 ≤ f'.weightAt 8 0 := by
  obtain ⟨r, f, hr, ho⟩ := exampleRun_returns N n
  have hc := (C127_course exampleArgs n (exampleEnv N) 5 8 (by norm_num [exampleArgs]) (by norm_num)).1
  rw [hr, show exampleArgs.redrawn 5 8 = exampleArgs.denser 1 5 8 by simp [RunArgs.redrawn, RunArgs.denser]] at hc
  obtain ⟨o, l⟩ := r
  simp only at ho
  subst ho
  rcases h' : createStochastic (exampleArgs.denser 1 5 8) n (exampleEnv N) with _ | ⟨_ | f', l'⟩
  · rw [h'] at hc; exact hc.elim
  · rw [h'] at hc; exact hc.elim
  · obtain ⟨r2, f2, k1, k2, -, -, k5⟩ := C127_stochastic exampleArgs n 1 0 (exampleEnv N) (exampleEnv N) ⟨0, 0, 0.25, .tuple [500, 1000]⟩ rfl rfl one_pos
      (exampleEnv_denser N 1) (by norm_num [exampleArgs]) (by norm_num [exampleArgs]) (by norm_num [exampleArgs]) (by norm_num [exampleArgs]) h' rfl
    exact ⟨_, f', rfl, rfl, r2, f2, by rw [← k1, hr], k2, (k5 _ _ ⟨1, 0, by norm_num, by norm_num⟩).2⟩

end Oneka
