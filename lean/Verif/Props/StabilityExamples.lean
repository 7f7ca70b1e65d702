import Verif.Props.Stability
import Verif.Props.EstimatorExamples

/-!
# Cases that meet the hypotheses of C110
-/

namespace Oneka
open Matrix Aquifer

open Classical in
/-- A solver that misses the least sum of squares, by at most `η ^ 2`, where it can. -/
noncomputable def sloppy (η : ℝ) : LinAlg where
  lstsq rows := if h : ∃ (r : List ((Fin 6 → ℝ) × ℝ)) (c : Fin 6 → ℝ), rows = r.map finRow ∧
      (∀ c' : Fin 6 → ℝ, (r.map fun r => (∑ i, r.1 i * c i - r.2) ^ 2).sum ≤ (r.map fun r => (∑ i, r.1 i * c' i - r.2) ^ 2).sum + η ^ 2) ∧
      ∃ c' : Fin 6 → ℝ, (r.map fun r => (∑ i, r.1 i * c' i - r.2) ^ 2).sum < (r.map fun r => (∑ i, r.1 i * c i - r.2) ^ 2).sum
    then .ok h.choose_spec.choose else perfect.lstsq rows
  inv := perfect.inv

theorem sloppy_within (η : ℝ) : (sloppy η).Within η := by
  intro rows c h c'
  unfold sloppy at h
  simp only at h
  split_ifs at h with hc
  · have e := hc.choose_spec.choose_spec
    rw [Except.ok.inj h] at e
    have e1 := finRow_injective.list_map e.1
    have e2 := e.2.1
    rw [← e1] at e2
    exact e2 c'
  · have := perfect_correct.lstsq_min rows c h c'
    nlinarith [sq_nonneg η]

/-- the exact fit of six observations -/
theorem six_fit : ∃ m' ev V, plain.fitRegionalFlow perfect sixObs 0 0 = (m', .ok (ev, V)) := by
  obtain ⟨⟨ev, V⟩, h⟩ := (C37_degenerate perfect perfect_correct perfect_converges plain (by norm_num [plain]) (by norm_num [plain]) sixObs 0 0
    (sixObs_usable_of rfl (by simp [plain]))).2 sixObs_general
  exact ⟨_, ev, V, Prod.ext rfl h⟩

/-- the sloppy fit of six observations succeeds, and it is not the exact one -/
theorem six_sloppy {η : ℝ} (hη : 0 < η) {m' : Aquifer ℝ} {ev : Fin 6 → ℝ} {V : Matrix (Fin 6) (Fin 6) ℝ} (h : plain.fitRegionalFlow perfect sixObs 0 0 = (m', .ok (ev, V))) :
    ∃ m₂ ev₂ V₂, plain.fitRegionalFlow (sloppy η) sixObs 0 0 = (m₂, .ok (ev₂, V₂)) ∧ ev₂ ≠ ev := by
  have hK : 0 < plain.conductivity := by norm_num [plain]
  have hT : 0 < plain.thickness := by norm_num [plain]
  have hu : plain.Usable sixObs := sixObs_usable_of rfl (by simp [plain])
  obtain ⟨rfl, h1, h2⟩ := fit_excess perfect_correct hK hT hu h
  obtain ⟨-, h3, -, -⟩ := fit_ok perfect_correct hK hT hu h
  set rows := sixObs.map (plain.rowOf 0 0) with hrows
  -- a vector with a small positive excess
  have hφ : 0 < mono 0 0 ⬝ᵥ (V *ᵥ mono 0 0) := by
    refine lt_of_le_of_ne (inverse_nonneg h1 _) fun h0 => ?_
    have := inverse_cauchy h1 (mono 0 0) (mono 0 0)
    rw [← h0, zero_mul] at this
    have e : mono 0 0 ⬝ᵥ mono 0 0 = 1 := by
      change ∑ i, mono 0 0 i * mono 0 0 i = 1
      rw [conic_mono]
      have e5 : mono 0 0 5 = 1 := rfl
      unfold conic
      rw [e5]
      ring
    rw [e] at this
    norm_num at this
  obtain ⟨d, hd1, hd2⟩ := inverse_attained h1 (mono 0 0) hη.le (δ := η * √(mono 0 0 ⬝ᵥ (V *ᵥ mono 0 0))) (le_of_eq (abs_of_pos (by positivity)))
  have hd3 : 0 < d ⬝ᵥ (gram (rows.map Prod.fst) *ᵥ d) := by
    refine lt_of_le_of_ne (gram_quad_nonneg _ _) fun h0 => ?_
    have := inverse_cauchy h1 (mono 0 0) d
    rw [← h0, mul_zero, hd1] at this
    have : 0 < (η * √(mono 0 0 ⬝ᵥ (V *ᵥ mono 0 0))) ^ 2 := by positivity
    linarith
  have hmin : ∀ c' : Fin 6 → ℝ, (rows.map fun r => (∑ i, r.1 i * ev i - r.2) ^ 2).sum ≤ (rows.map fun r => (∑ i, r.1 i * c' i - r.2) ^ 2).sum := by
    intro c'
    rw [hrows, sse_misfit, sse_misfit]
    exact h3 c'
  have hex := sse_minimum h1 hmin
  have hc : ∃ (r : List ((Fin 6 → ℝ) × ℝ)) (c : Fin 6 → ℝ), rows.map finRow = r.map finRow ∧
      (∀ c' : Fin 6 → ℝ, (r.map fun r => (∑ i, r.1 i * c i - r.2) ^ 2).sum ≤ (r.map fun r => (∑ i, r.1 i * c' i - r.2) ^ 2).sum + η ^ 2) ∧
      ∃ c' : Fin 6 → ℝ, (r.map fun r => (∑ i, r.1 i * c' i - r.2) ^ 2).sum < (r.map fun r => (∑ i, r.1 i * c i - r.2) ^ 2).sum := by
    refine ⟨rows, ev + d, rfl, fun c' => ?_, ev, ?_⟩
    · have := hex (ev + d)
      rw [add_sub_cancel_left] at this
      have := hmin c'
      linarith
    · have := hex (ev + d)
      rw [add_sub_cancel_left] at this
      linarith
  have hl : (sloppy η).lstsq (rows.map finRow) = .ok hc.choose_spec.choose := dif_pos hc
  have hi : ∃ B, (sloppy η).inv (fun i j => .fin (gram (rows.map Prod.fst) i j)) = .ok B := by
    have hB : ∃ A' B : Matrix (Fin 6) (Fin 6) ℝ, ((fun i j => XR.fin (gram (rows.map Prod.fst) i j)) = fun i j => XR.fin (A' i j)) ∧ A' * B = 1 := ⟨_, V, rfl, h1⟩
    exact ⟨_, dif_pos hB⟩
  obtain ⟨B, hB⟩ := hi
  refine ⟨{ plain with xo := 0, yo := 0, coef := hc.choose_spec.choose }, hc.choose_spec.choose, B, ?_, ?_⟩
  · rw [fit_usable hK hT 0 0 hu, hl]
    simp only [← hrows, hB]
  · intro he
    obtain ⟨e1, -, c', hlt⟩ := hc.choose_spec.choose_spec
    have e2 := finRow_injective.list_map e1
    rw [he, ← e2] at hlt
    exact absurd (hmin c') (not_le.mpr hlt)

/-- C110: flows and a solver that miss the least misfit by a hundredth stay within a tenth of a standard deviation -/
example : ∃ m₁ ev V m₂ ev₂ V₂, plain.fitRegionalFlow perfect sixObs 0 0 = (m₁, .ok (ev, V)) ∧ plain.fitRegionalFlow (sloppy 0.1) sixObs 0 0 = (m₂, .ok (ev₂, V₂)) ∧ ev₂ ≠ ev ∧
    (∀ x y, |m₂.potential x y - m₁.potential x y| ≤ 0.1 * spread V (x - 0) (y - 0)) ∧ spread V (3 - 0) (0 - 0) ≤ 200 ∧
    ∃ c : Fin 6 → ℝ, misfit plain sixObs ({ plain with xo := 0, yo := 0, coef := c } : Aquifer ℝ).potential ≤ misfit plain sixObs m₁.potential + 0.1 ^ 2 ∧
      ({ plain with xo := 0, yo := 0, coef := c } : Aquifer ℝ).potential 3 0 = m₁.potential 3 0 - 0.1 * spread V (3 - 0) (0 - 0) := by
  have hK : 0 < plain.conductivity := by norm_num [plain]
  have hT : 0 < plain.thickness := by norm_num [plain]
  have hu : plain.Usable sixObs := sixObs_usable_of rfl (by simp [plain])
  obtain ⟨m₁, ev, V, h⟩ := six_fit
  obtain ⟨m₂, ev₂, V₂, h', hne⟩ := six_sloppy (η := 0.1) (by norm_num) h
  refine ⟨m₁, ev, V, m₂, ev₂, V₂, h, h', hne, fun x y => C110_solver perfect (sloppy 0.1) perfect_correct 0.1 (by norm_num) (sloppy_within _) plain m₁ m₂ hK hT sixObs 0 0 hu ev ev₂ V V₂ h h' x y, ?_, ?_⟩
  · have := C110_site perfect perfect_correct plain m₁ hK hT sixObs 0 0 ev V hu h ⟨3, 0, 30, 1⟩ (by simp [sixObs])
    norm_num [potentialStd, plain] at this ⊢
    exact this
  · refine (C110_range perfect perfect_correct plain m₁ hK hT sixObs 0 0 ev V hu h 0.1 (by norm_num) 3 0 _).mpr ?_
    rw [sub_sub_cancel_left, abs_neg, abs_of_nonneg (mul_nonneg (by norm_num) (by unfold spread; exact Real.sqrt_nonneg _))]

/-- seven confined levels change by a foot each -/
example : ∃ m₁ ev₁ m₂ ev₂ V, plain.fitRegionalFlow perfect (observed sevenSites fun _ => 30) 0 0 = (m₁, .ok (ev₁, V)) ∧
    plain.fitRegionalFlow perfect (observed sevenSites fun _ => 31) 0 0 = (m₂, .ok (ev₂, V)) ∧
    ∀ x y, |m₂.potential x y - m₁.potential x y| ≤ levelChange sevenSites (fun _ => 30) (fun _ => 31) * spread V (x - 0) (y - 0) := by
  obtain ⟨m₁, ev₁, m₂, ev₂, V, h1, h2, h3, -⟩ := C110_levels_partial perfect perfect_correct perfect_converges plain (by norm_num [plain]) (by norm_num [plain]) 0 0 sevenSites sevenSites_suitable
    (fun _ => 30) (fun _ => 31) (fun _ => by norm_num [plain]) (fun _ => by norm_num [plain])
  exact ⟨m₁, ev₁, m₂, ev₂, V, h1, h2, h3⟩

/-- one of seven confined levels rises by two feet -/
example : ∃ m₁ r₁ m₂ r₂, plain.fitRegionalFlow perfect (observed sevenSites fun _ => 30) 0 0 = (m₁, .ok r₁) ∧
    plain.fitRegionalFlow perfect (observed sevenSites (Function.update (fun _ => 30) 3 32)) 0 0 = (m₂, .ok r₂) ∧
    |m₂.potential (sevenSites 3).x (sevenSites 3).y - m₁.potential (sevenSites 3).x (sevenSites 3).y| ≤ 400 := by
  obtain ⟨m₁, r₁, m₂, r₂, h1, h2, h3⟩ := C110_damped_partial perfect perfect_correct perfect_converges plain (by norm_num [plain]) (by norm_num [plain]) 0 0 sevenSites sevenSites_suitable
    (fun _ => 30) (fun _ => by norm_num [plain]) 3 32 (by norm_num [plain])
  exact ⟨m₁, r₁, m₂, r₂, h1, h2, h3.trans (by norm_num [plain])⟩

/-- one of six unconfined levels rises from 10 to 12 -/
example : ∃ m₁ ev₁ V m₂ r₂, plain.fitRegionalFlow perfect (observed sixSites fun _ => 10) 0 0 = (m₁, .ok (ev₁, V)) ∧
    plain.fitRegionalFlow perfect (observed sixSites (Function.update (fun _ => 10) 3 12)) 0 0 = (m₂, .ok r₂) ∧
    levelChange sixSites (fun _ => 10) (Function.update (fun _ => 10) 3 12) * spread V ((sixSites 3).x - 0) ((sixSites 3).y - 0) <
      |m₂.potential (sixSites 3).x (sixSites 3).y - m₁.potential (sixSites 3).x (sixSites 3).y| :=
  C110_fails_unconfined perfect perfect_correct perfect_converges plain (by norm_num [plain]) (by norm_num [plain]) 0 0 sixSites sixSites_suitable (fun _ => 10) (fun _ => by norm_num [plain]) 3 12
    (by norm_num) (by norm_num [plain])

end Oneka
