import Verif.Props.Runme

/-!
# Runs of the shipped data modules that meet the hypotheses of C75–C78
-/

namespace Oneka

/-- Every shipped data module can be imported; all traces are interrupted after `N` velocity evaluations; `s` is the time of the log file, `t` that of the archive. -/
noncomputable def shippedEnv (N : ℕ) (s t : DateTime) : MainEnv where
  modules name := ((shipped.find? fun p => p.1 = name).map fun p => Import.found p.2.attrs).getD .missing
  asctime := "Sat Jul 25 12:30:00 2020"
  logTime := s
  logError := none
  call := exampleCallEnv N t
  elapsed := .fin 12

theorem interrupted_no_endless (n : Inputs) (obs : List Obs) (N : ℕ) (t : SWell) : ¬ EndlessRun n obs (exampleEnv N) t := by
  have key : ∀ (a : RunArgs) (q : Dist → ℕ → Except PyErr ℝ) (coefs : (Fin 6 → ℝ) → Matrix (Fin 6) (Fin 6) ℝ → Except PyErr (Fin 6 → ℝ)) (i : ℕ),
      ¬ EndlessTrace a (exampleEnv N).la t q coefs ((exampleEnv N).interrupt i) := by
    rintro a q coefs i ⟨m, ev, cov, c, -, -, -, k, -, h⟩
    refine absurd h (Option.isSome_iff_ne_none.mp ?_)
    obtain ⟨tr, htr⟩ := interrupted_terminates (F := XR) (N := N) (fe := fun n p => match (exampleEnv N).interrupt i k n with
      | some e => .error e
      | none => ({ m with xo := t.xw, yo := t.yw, coef := c } : Aquifer ℝ).toX.reverseVelocity a.confined p)
      (fun p => ⟨.keyboardInterrupt, by simp [exampleEnv]⟩) (.fin (t.xw + (t.rw + 1) * Real.cos (2 * Real.pi * k / a.npaths)))
        (.fin (t.yw + (t.rw + 1) * Real.sin (2 * Real.pi * k / a.npaths))) a.duration a.tol a.maxstep
    exact Option.isSome_of_eq_some htr
  unfold EndlessRun
  split
  · rintro ⟨i, -, h⟩
    exact key _ _ _ _ h
  · exact key _ _ _ _

theorem shipped_found (N : ℕ) (s t : DateTime) {p : String × DataSet} (hp : p ∈ shipped) : (shippedEnv N s t).modules p.1 = .found p.2.attrs := by
  simp only [shipped, List.mem_cons, List.not_mem_nil, or_false] at hp
  rcases hp with rfl | rfl | rfl | rfl | rfl | rfl | rfl <;> simp [shippedEnv, shipped]

/-! ## C78 -/

/-- C78: the hypotheses of `C78_raises` and `C78_returns` are met for every shipped data module; the run returns. -/
theorem shipped_returns (N : ℕ) (s t : DateTime) {p : String × DataSet} (hp : p ∈ shipped) : (runMain p.1 (shippedEnv N s t)).ending = .returns () :=
  C78_returns hp (shipped_found N s t hp) rfl (fun _ _ => by simp only [shippedEnv, exampleCallEnv, exampleEnv]; norm_num) perfect_correct perfect_converges
    (fun _ ev _ => ⟨ev, rfl⟩) (fun _ _ _ => interrupted_no_endless _ _ _ _) rfl rfl

/-- C78: a run of a shipped data module that raises: the disk is full -/
example (N : ℕ) (s t : DateTime) : ∃ e, (runMain "data.perham" { shippedEnv N s t with call := { exampleCallEnv N t with writeError := some (.other 7) } }).ending = .raises e := by
  have hp : ("data.perham", perhamData) ∈ shipped := by simp [shipped]
  have hm := shipped_found N s t hp
  obtain ⟨c, hc⟩ := shipped_good _ hp
  obtain ⟨q1, q2, q3, q4⟩ := shipped_ending (env := { shippedEnv N s t with call := { exampleCallEnv N t with writeError := some (.other 7) } }) hp hm rfl
  cases he : (runMain "data.perham" { shippedEnv N s t with call := { exampleCallEnv N t with writeError := some (.other 7) } }).ending with
  | raises e => exact ⟨e, rfl⟩
  | returns v =>
    exfalso
    obtain ⟨-, a, v, -, hv⟩ := main_returns he hm
    obtain ⟨-, -, -, -, -, -, h, -⟩ := returned_course hv
    simp at h
  | diverges =>
    exfalso
    obtain ⟨k, u, -, -, h⟩ := C78_diverges (env := { shippedEnv N s t with call := { exampleCallEnv N t with writeError := some (.other 7) } }) hp hm rfl he
    exact interrupted_no_endless _ _ _ _ h

/-! ## C75 -/

/-- C75: applied to a run of data/perham.py, in a world without files -/
example (N : ℕ) (s t : DateTime) : ∃ d, loadOneka ((⟨fun _ => none, fun _ => none, []⟩ : World).afterMain "data.perham" (shippedEnv N s t)).archives t.archiveName = .ok d ∧
    d.get "npaths" = some (.val (.int perhamData.npaths)) := by
  have hp : ("data.perham", perhamData) ∈ shipped := by simp [shipped]
  obtain ⟨d, h1, -, h2⟩ := C75_archive "data.perham" (shippedEnv N s t) perhamData.attrs (shipped_found N s t hp) (shipped_returns N s t hp) ⟨fun _ => none, fun _ => none, []⟩
  obtain ⟨v, h3, h4⟩ := h2 ("npaths", "NPATHS") (by simp [archivedConstants])
  refine ⟨d, h1, ?_⟩
  obtain rfl : PyVal.int perhamData.npaths = v := by simpa [DataSet.attrs] using h3
  exact h4

/-- C75: the hypotheses of `C75_log` are met by every shipped data module -/
example (N : ℕ) (s t : DateTime) {p : String × DataSet} (hp : p ∈ shipped) : (shippedEnv N s t).modules p.1 = .found p.2.attrs ∧
    Supplies p.2.attrs (shippedEnv N s t).asctime (p.2.args (shippedEnv N s t).asctime) ∧ (shippedEnv N s t).logError = none ∧
    Acceptable (p.2.args (shippedEnv N s t).asctime) ∧ (p.2.args (shippedEnv N s t).asctime).nrealizations.IsInteger p.2.nrealizations :=
  ⟨shipped_found N s t hp, data_supplies _ _, rfl, (shipped_ending hp (shipped_found N s t hp) rfl).1, .inl rfl⟩

/-! ## C76 -/

/-- C76: a module that does not exist -/
example (N : ℕ) (s t : DateTime) : (shippedEnv N s t).modules "data.atlantis" = .missing := by simp [shippedEnv, shipped]

/-- C76: a module with a syntax error -/
example (N : ℕ) (s t : DateTime) : ({ shippedEnv N s t with modules := fun _ => .fails (.other 3) } : MainEnv).modules "data.basic" = .fails (.other 3) := rfl

/-- C76: a module without the constant UMBRA -/
example : ("umbra", "UMBRA") ∈ archivedConstants ∧ (fun n => if n = "UMBRA" then none else basicData.attrs n) "UMBRA" = none := by
  refine ⟨by simp [archivedConstants], rfl⟩

/-- C76: a module that is rejected: a target that is not in the list of wells -/
example (runtime : String) : Supplies { basicData with target := 2 }.attrs runtime ({ basicData with target := 2 }.args runtime) ∧
    ¬ Acceptable ({ basicData with target := 2 }.args runtime) := by
  refine ⟨data_supplies _ _, fun h => ?_⟩
  obtain ⟨ws, hw, -, k, hk, -, hlt⟩ := h.wells
  have h1 : ws = basicData.wells.map LitWell.py := by
    have : PyVal.list (basicData.wells.map LitWell.py) = .list ws := hw
    simpa using this.symm
  have h2 : k = 2 := by
    rcases hk with hk | hk
    · have : PyVal.int 2 = .int k := hk
      simpa using this.symm
    · obtain ⟨b, hb, -⟩ := hk
      have : PyVal.int 2 = .bool b := hb
      simp at this
  subst h1 h2
  simp [basicData, basicDataWells] at hlt

/-! ## C77 -/

theorem shipped_opens (N : ℕ) (s t : DateTime) {p : String × DataSet} (hp : p ∈ shipped) : (runMain p.1 (shippedEnv N s t)).Opens s.logName :=
  (entries_eq (shipped_found N s t hp) (data_args _ _) rfl).1

/-- C77: two runs at different times, in one process or in two -/
example (N : ℕ) (t : DateTime) : ("data.basic", basicData) ∈ shipped ∧ ("data.perham", perhamData) ∈ shipped ∧
    (⟨2020, 7, 25, 12, 30, 0⟩ : DateTime).Valid ∧ (⟨2020, 7, 25, 12, 30, 1⟩ : DateTime).Valid ∧
    (runMain "data.basic" (shippedEnv N ⟨2020, 7, 25, 12, 30, 0⟩ t)).Opens (DateTime.logName ⟨2020, 7, 25, 12, 30, 0⟩) ∧
    (runMain "data.perham" (shippedEnv N ⟨2020, 7, 25, 12, 30, 1⟩ t)).Opens (DateTime.logName ⟨2020, 7, 25, 12, 30, 1⟩) ∧
    DateTime.logName ⟨2020, 7, 25, 12, 30, 0⟩ ≠ DateTime.logName ⟨2020, 7, 25, 12, 30, 1⟩ ∧
    (runMain "data.perham" (shippedEnv N ⟨2020, 7, 25, 12, 30, 1⟩ t)).entries ≠ [] := by
  have h1 : ("data.basic", basicData) ∈ shipped := by simp [shipped]
  have h2 : ("data.perham", perhamData) ∈ shipped := by simp [shipped]
  have v1 : (⟨2020, 7, 25, 12, 30, 0⟩ : DateTime).Valid := ⟨by norm_num, by norm_num, by norm_num, by norm_num, by norm_num, by norm_num⟩
  have v2 : (⟨2020, 7, 25, 12, 30, 1⟩ : DateTime).Valid := ⟨by norm_num, by norm_num, by norm_num, by norm_num, by norm_num, by norm_num⟩
  refine ⟨h1, h2, v1, v2, shipped_opens N _ t h1, shipped_opens N _ t h2, fun h => ?_, ?_⟩
  · have := logName_injective v1 v2 h
    simp at this
  · intro h
    obtain ⟨-, ⟨v, -, hv⟩, -⟩ := C75_log "data.perham" (shippedEnv N ⟨2020, 7, 25, 12, 30, 1⟩ t) perhamData.attrs _ perhamData.nrealizations (shipped_found N _ t h2)
      (data_supplies _ _) rfl (shipped_ending h2 (shipped_found N _ t h2) rfl).1 (.inl rfl) ⟨fun _ => none, fun _ => none, []⟩
    have := (C77_own_partial "data.perham" (shippedEnv N ⟨2020, 7, 25, 12, 30, 1⟩ t) ⟨fun _ => none, fun _ => none, []⟩ rfl _).1 (shipped_opens N _ t h2)
    rw [h] at this
    change _ ∈ World.log _ (DateTime.logName _) at hv
    have e : (shippedEnv N ⟨2020, 7, 25, 12, 30, 1⟩ t).logTime = ⟨2020, 7, 25, 12, 30, 1⟩ := rfl
    rw [e] at hv
    rw [this] at hv
    simp [World.log] at hv

end Oneka
