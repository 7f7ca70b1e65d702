import Verif.Props.FlCovariance
import Verif.Props.FlFitExamples

/-!
# Cases that meet the hypotheses of C114
-/

namespace Oneka
open Matrix Aquifer

/-- the numbers as real numbers -/
noncomputable def realMat (A : Matrix (Fin 6) (Fin 6) Fl) : Matrix (Fin 6) (Fin 6) ℝ := Matrix.of fun i j => (A i j).val

open Classical in
/-- A linear-algebra package that rounds exact results. -/
noncomputable def nearestSolver : FlLinAlg where
  lstsq := roundedSolver.lstsq
  normal rows := Matrix.of fun i j => Fl.of (rows.map fun r => (r i).val * (r j).val).sum
  inv A := if (realMat A).det = 0 then .error .linAlgError else .ok (Matrix.of fun i j => Fl.of ((realMat A)⁻¹ i j))

theorem nearestSolver_multiplies : nearestSolver.Multiplies fun _ => 2 ^ (-53 : ℤ) := by
  intro rows i j
  refine (round53_accurate _).trans (mul_le_mul_of_nonneg_left ?_ (by positivity))
  induction rows with
  | nil => simp
  | cons r l ih =>
    simp only [List.map_cons, List.sum_cons]
    exact (abs_add_le _ _).trans (add_le_add_right ih _)

theorem nearestSolver_inverts : nearestSolver.Inverts fun _ => 2 ^ (-52 : ℤ) := by
  classical
  intro A B h i j
  simp only [nearestSolver] at h
  split_ifs at h with hd
  have h := Except.ok.inj h
  have h1 : ∑ k, (A i k).val * (realMat A)⁻¹ k j = if i = j then 1 else 0 := by
    have := congrFun (congrFun (Matrix.mul_nonsing_inv (realMat A) (isUnit_iff_ne_zero.mpr hd)) i) j
    rw [Matrix.mul_apply, Matrix.one_apply] at this
    exact this
  rw [← h1, ← Finset.sum_sub_distrib, Finset.mul_sum]
  refine (Finset.abs_sum_le_sum_abs _ _).trans (Finset.sum_le_sum fun k _ => ?_)
  have hB : (B k j).val = round53 ((realMat A)⁻¹ k j) := by rw [← h]; rfl
  have h2 := round53_accurate ((realMat A)⁻¹ k j)
  rw [← hB] at h2
  have h3 : |(B k j).val - (realMat A)⁻¹ k j| ≤ 2 ^ (-52 : ℤ) * |(B k j).val| := by
    have h4 := abs_sub_abs_le_abs_sub ((realMat A)⁻¹ k j) (B k j).val
    rw [abs_sub_comm] at h4
    norm_num [_root_.zpow_neg] at h2 ⊢
    linarith [abs_nonneg ((realMat A)⁻¹ k j)]
  rw [← mul_sub, abs_mul, abs_mul]
  have := mul_le_mul_of_nonneg_left h3 (abs_nonneg (A i k).val)
  linarith

theorem nearestSolver_gives : nearestSolver.Gives fun _ => 2 ^ (-52 : ℤ) := by
  classical
  intro A e h
  simp only [nearestSolver] at h
  split_ifs at h with hd
  exact ⟨realMat A, hd, fun i j => by simp only [realMat, Matrix.of_apply, sub_self, abs_zero]; positivity⟩

theorem nearestSolver_converges : nearestSolver.Converges := roundedSolver_returns

theorem small_rounding : (10000:ℝ) ^ 2 * ((1 + 2 ^ (-53 : ℤ)) * (1 + 2 ^ (-52 : ℤ)) * (1 + 2 ^ (-49 : ℤ)) ^ 2 - 1) ≤ 1/1000000 := by
  norm_num [_root_.zpow_neg]

/-- C114: six observations near a pumping well in an unconfined aquifer; a package that rounds exact results. The fit returns, every covariance is accurate to about one millionth of the product of the standard
deviations, and so are the correlations and the variances of the regional flow. -/
example : ∃ m' c' V' m₀ c V, @flFitRegionalFlow nearestLib nearestObs nearestSolver mixed flSixObs 0 0 = (m', .ok (c', V')) ∧ mixed.exact.fitRegionalFlow perfect sixObs 0 0 = (m₀, .ok (c, V)) ∧
    (∀ i j, |(V' i j).val - V i j| ≤ 1/1000000 / (1 - 1/1000000) * (√(V i i) * √(V j j))) ∧
    (∀ i j, |(V' i j).val / (√(V' i i).val * √(V' j j).val) - V i j / (√(V i i) * √(V j j))| ≤ 2 * (1/1000000) / (1 - 2 * (1/1000000))) ∧
    ∀ u v, |(![u ^ 2, v ^ 2, u * v, u, v, 1] : Fin 6 → ℝ) ⬝ᵥ ((Matrix.of fun i j => (V' i j).val) *ᵥ ![u ^ 2, v ^ 2, u * v, u, v, 1]) - spread V u v ^ 2| ≤
      1/1000000 / (1 - 1/1000000) * (spread V u v * conicTerms (fun i => √(V i i)) u v) := by
  let := nearestLib
  let := nearestObs
  have hK : 0 < mixed.exact.conductivity := mixed_physical.1
  have hT : 0 < mixed.exact.thickness := mixed_physical.3
  have z0 : (0 : Fl).val = 0 := Fl.zero_val
  obtain ⟨rows, hr, -⟩ := C111_rows nearestLib_log nearestObs_accurate mixed hK hT (by simp [mixed]) flSixObs 0 0 mixed_usable mixed_clear
  have hκ : mixed.exact.Determined (flSixObs.map FlObs.exact) (0 : Fl).val (0 : Fl).val 10000 := by rw [z0]; exact mixed_determined
  have hgen : ¬ OnOneConic (flSixObs.map FlObs.exact) := by rw [flSixObs_exact]; exact sixObs_general
  obtain ⟨m', c', V', hf⟩ := C114_returns nearestLib_log nearestObs_accurate nearestSolver nearestSolver_converges _ (fun _ => by positivity) nearestSolver_multiplies _ (fun _ => by positivity)
    nearestSolver_gives mixed hK hT (by simp [mixed]) flSixObs 0 0 mixed_usable mixed_clear hgen 10000 (by norm_num) hκ rows hr (lt_of_le_of_lt small_rounding (by norm_num))
  obtain ⟨⟨c, V⟩, h⟩ := (C37_degenerate perfect perfect_correct perfect_converges mixed.exact hK hT sixObs 0 0 (flSixObs_exact ▸ mixed_usable)).2 sixObs_general
  have h₀ : mixed.exact.fitRegionalFlow perfect (flSixObs.map FlObs.exact) (0 : Fl).val (0 : Fl).val = ((mixed.exact.fitRegionalFlow perfect sixObs 0 0).1, .ok (c, V)) := by rw [z0, flSixObs_exact]; exact Prod.ext rfl h
  refine ⟨m', c', V', _, c, V, hf, Prod.ext rfl h, ?_, ?_, ?_⟩
  · exact C114_covariance nearestLib_log nearestObs_accurate nearestSolver _ (fun _ => by positivity) nearestSolver_multiplies _ (fun _ => by positivity) nearestSolver_inverts perfect perfect_correct mixed hK hT
      (by simp [mixed]) flSixObs 0 0 mixed_usable mixed_clear 10000 (by norm_num) hκ rows hr (1/1000000) (by norm_num) (by norm_num) small_rounding m' c' V' hf _ c V h₀
  · exact fun i j => (C114_correlations nearestLib_log nearestObs_accurate nearestSolver _ (fun _ => by positivity) nearestSolver_multiplies _ (fun _ => by positivity) nearestSolver_inverts perfect perfect_correct mixed
      hK hT (by simp [mixed]) flSixObs 0 0 mixed_usable mixed_clear 10000 (by norm_num) hκ rows hr (1/1000000) (by norm_num) (by norm_num) small_rounding m' c' V' hf _ c V h₀ i j).2
  · exact C114_variance nearestLib_log nearestObs_accurate nearestSolver _ (fun _ => by positivity) nearestSolver_multiplies _ (fun _ => by positivity) nearestSolver_inverts perfect perfect_correct mixed hK hT
      (by simp [mixed]) flSixObs 0 0 mixed_usable mixed_clear 10000 (by norm_num) hκ rows hr (1/1000000) (by norm_num) (by norm_num) small_rounding m' c' V' hf _ c V h₀

end Oneka
