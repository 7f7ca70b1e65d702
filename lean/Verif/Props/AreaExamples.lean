import Verif.Props.Area
import Verif.Props.StillExamples

/-!
# Examples for Props/Area.lean
-/

namespace Oneka

/-- C149_cells: a square -/
example (B : ℝ) : area {p | ∀ q : ℝ × ℝ, euclid p q ≤ 71/100 * 4 → |q.1| ≤ B ∧ |q.2| ≤ B} ≤ ENNReal.ofReal ({p : ℝ × ℝ | OnLattice 1000 1000 4 4 p.1 p.2 ∧ |p.1| ≤ B ∧ |p.2| ≤ B}.ncard * 4 ^ 2) :=
  (C149_cells (xo := 1000) (yo := 1000) (s := 4) (by norm_num) {p : ℝ × ℝ | |p.1| ≤ B ∧ |p.2| ≤ B} (lattice_finite (by norm_num) B)).1

/-- C149_deterministic: the example call with one realization -/
example (N : ℕ) (t : DateTime) : ∃ (L : RealizationLog) (A : ℝ), realizations (oneka (exampleCall 1) (exampleCallEnv N t)).events = [L] ∧ areas (oneka (exampleCall 1) (exampleCallEnv N t)).events = [A] ∧
    area (L.strip 1) ≤ ENNReal.ofReal A ∧ ENNReal.ofReal A ≤ area (L.strip (4 + 71/100 * 4)) := by
  obtain ⟨L, A, h1, h2, h3, h4⟩ := C149_deterministic (exampleCall 1) (exampleInputs 1) (exampleCallEnv N t) _ (exampleCall_denotes 1) (by norm_num [exampleInputs]) (example_returns 1 N t) le_rfl
  refine ⟨L, A, h1, h2, h3 1 (by norm_num) ?_, h4⟩
  show (1:ℝ) + 71/100 * 4 ≤ 4
  norm_num

/-- C149_stochastic: a hundred realizations; the places that more than half of them pass at less than 1 m -/
example (N : ℕ) (t : DateTime) (fs : Files) : ∃ (d : Dict) (f : PField ℝ), loadOneka ((oneka (exampleCall 100) (exampleCallEnv N t)).events.foldl Effect.apply fs) t.archiveName = .ok d ∧
    d.get "pfield" = some (.field (.field f)) ∧ area (manyStrips (realizations (oneka (exampleCall 100) (exampleCallEnv N t)).events) 1 (1/2)) ≤ ENNReal.ofReal (f.areaWhere 4 (fun p => 1/2 < p)) := by
  obtain ⟨d, f, h1, h2, h3, -⟩ := C149_stochastic (exampleCall 100) (exampleInputs 100) (exampleCallEnv N t) _ (exampleCall_denotes 100) (by norm_num [exampleInputs]) (example_returns 100 N t) le_rfl fs
  refine ⟨d, f, h1, h2, (h3 (1/2) (by norm_num)).1 1 (by norm_num) ?_⟩
  show (1:ℝ) + 71/100 * 4 ≤ 4
  norm_num

/-- C149_upper: the example call with an umbra of ten cells -/
example (r : ℤ) (N : ℕ) (t : DateTime) (v : PyVal) (h : (oneka { exampleCall r with umbra := .int 40 } (exampleCallEnv N t)).ending = .returns v) :
    ∀ A ∈ areas (oneka { exampleCall r with umbra := .int 40 } (exampleCallEnv N t)).events, ENNReal.ofReal A ≤
      area (manyStrips (realizations (oneka { exampleCall r with umbra := .int 40 } (exampleCallEnv N t)).events) (40 + 71/100 * 4) 0) := by
  have hd : ({ exampleCall r with umbra := .int 40 } : PyArgs).Denotes { exampleInputs r with run := { (exampleInputs r).run with umbra := 40 } } :=
    { exampleCall_denotes r with umbra := by simp [PyVal.IsReal, PyVal.num] }
  obtain ⟨-, -, -, -, -, h1, -⟩ := C149_upper _ _ _ v hd h fun _ => none
  exact h1

/-- C149_upper: the example call itself returns -/
example (r : ℤ) (N : ℕ) (t : DateTime) : ∀ A ∈ areas (oneka (exampleCall r) (exampleCallEnv N t)).events, ENNReal.ofReal A ≤ area (manyStrips (realizations (oneka (exampleCall r) (exampleCallEnv N t)).events) (4 + 71/100 * 4) 0) := by
  obtain ⟨-, -, -, -, -, h1, -⟩ := C149_upper _ _ _ _ (exampleCall_denotes r) (example_returns r N t) fun _ => none
  exact h1

/-- C149_pathlines, C149_at_rest: the call of Props/StillExamples.lean. In ten days the well pumps the water under one square metre. -/
example (t : DateTime) : ∀ L ∈ realizations (oneka restWays (restEnv t)).events,
    (∃ P : ℕ → ℝ → ℝ × ℝ, area {p | ∃ j : ℕ, j < restInputs.run.npaths ∧ Passes (P j) 10 1 p.1 p.2} ≤ ENNReal.ofReal (L.zoneArea 1000 1000 4 4)) ∧ 1 - 1 / 10 ^ 16 ≤ L.zoneArea 1000 1000 4 4 ∧ L.zoneArea 1000 1000 4 4 ≤ 300 := by
  intro L hL
  obtain ⟨-, -, obs, k', w', -, -, -, -, h6, h7, h8, h9, -⟩ := C68_stochastic restWays restInputs (restEnv t) _ rest_denotes (by simp [restInputs, exampleInputs]) (rest_returns t) (fun _ => none)
  obtain rfl : k' = 0 := by
    have : (0:ℤ) = k' := h6
    omega
  obtain rfl : w' = ⟨1000, 1000, 1/4, .const (1/2)⟩ := (Option.some.inj h7).symm
  obtain ⟨i, hi⟩ := List.getElem?_of_mem hL
  have R := h9 i L hi
  obtain ⟨m1, m2, m3, m4, m5⟩ := rest_model (rest_draws t i) R.wells_length (R.wells 0 _ rfl) R.conductivity R.porosity R.thickness (Except.ok.inj R.coef).symm
  have hp3 := Real.pi_gt_three
  have hp4 := Real.pi_lt_d2
  obtain ⟨lo, up⟩ := C149_at_rest R (D := 10) (tol := 1) (maxstep := 1/2500) (δ := 1/30) rfl rfl rfl (by norm_num) (by norm_num) (by norm_num) (fun _ _ => rfl) (fun j _ => m5 _ j) (by norm_num) rfl m1 m4 (by norm_num)
    (by norm_num) (by simp [restInputs]) (by simp [restInputs, exampleInputs]) 1000 1000 (s := 4) (u := 4) (by norm_num) (by norm_num)
  rw [m2, m3] at lo up
  have hq : (1/2:ℝ) * 10 / (Real.pi * (1/4 * 20)) ≤ 1/3 := by
    rw [div_le_iff₀ (by positivity)]
    linarith
  have hq0 : 0 ≤ (1/2:ℝ) * 10 / (Real.pi * (1/4 * 20)) := by positivity
  refine ⟨?_, ?_, ?_⟩
  · have hP : ∀ j : ℕ, ∃ P, Follows L.model true (SWell.start ⟨1000, 1000, 1/4, .const (1/2)⟩ restInputs.run.npaths j) 10 (1/2500) (1/30) P := fun j => m5 _ j
    choose P hP using hP
    exact ⟨P, (C149_pathlines R (D := 10) (tol := 1) (maxstep := 1/2500) (δ := 1/30) rfl rfl rfl (by norm_num) (by norm_num) (by norm_num) (fun _ _ => rfl) P (fun j _ => hP j) 1000 1000 (s := 4) (u := 4) (by norm_num) (by norm_num)).1 1 (by norm_num) (by norm_num)⟩
  · refine le_trans (by norm_num) (lo ?_)
    have h1 : Real.sqrt ((1/4 + 1) ^ 2 + (1 - 1 / 10 ^ 16) * (1/2 * 10 / (Real.pi * (1/4 * 20)))) ≤ 3/2 := by
      rw [Real.sqrt_le_left (by norm_num)]
      nlinarith
    show _ ≤ ((10:ℤ):ℝ) * (4 - 71/100 * 4 - 1/30)
    calc _ ≤ Real.pi * (3/2) := mul_le_mul_of_nonneg_left h1 Real.pi_pos.le
      _ ≤ _ := by norm_num; linarith
  · refine up.trans ?_
    have h1 : Real.sqrt ((1/4 + 1) ^ 2 + (1 + 1 / 10 ^ 16) * (1/2 * 10 / (Real.pi * (1/4 * 20)))) ≤ 3/2 := by
      rw [Real.sqrt_le_left (by norm_num)]
      nlinarith
    have h0 := Real.sqrt_nonneg ((1/4 + 1) ^ 2 + (1 + 1 / 10 ^ 16) * (1/2 * 10 / (Real.pi * (1/4 * 20))))
    calc _ ≤ Real.pi * (4 + 71/100 * 4 + 1/30 + 3/2) ^ 2 := mul_le_mul_of_nonneg_left (pow_le_pow_left₀ (by positivity) (by linarith) 2) Real.pi_pos.le
      _ ≤ 300 := by norm_num; linarith

end Oneka
