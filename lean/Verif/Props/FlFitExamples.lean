import Verif.Props.FlFit
import Verif.Props.FlUtilities
import Verif.Props.RoundingAquifer
import Verif.Props.Fit

/-!
# Cases that meet the hypotheses of C111
-/

namespace Oneka
open Matrix Aquifer

/-- the rows as real numbers -/
noncomputable def realRow (r : (Fin 6 → Fl) × Fl) : (Fin 6 → ℝ) × ℝ := (fun i => (r.1 i).val, r.2.val)

/-- A solver that rounds the coefficients of a best solution; the inverse is not computed. -/
noncomputable def roundedSolver : FlLinAlg where
  lstsq rows := match perfect.lstsq (rows.map fun r => finRow (realRow r)) with
    | .ok c => .ok fun i => Fl.of (c i)
    | .error e => .error e
  normal _ := fun _ _ => 0
  inv A := .ok A

/-- by how much the rounding of the coefficients misses the least sum of squares (root) -/
noncomputable def roundedExcess (rows : List ((Fin 6 → Fl) × Fl)) : ℝ :=
  match perfect.lstsq (rows.map fun r => finRow (realRow r)) with
  | .ok c => √((rows.map fun r => (∑ i, (r.1 i).val * (Fl.of (c i)).val - r.2.val) ^ 2).sum - (rows.map fun r => (∑ i, (r.1 i).val * c i - r.2.val) ^ 2).sum)
  | .error _ => 0

theorem roundedExcess_nonneg (rows : List ((Fin 6 → Fl) × Fl)) : 0 ≤ roundedExcess rows := by
  unfold roundedExcess
  split
  · exact Real.sqrt_nonneg _
  · exact le_refl _

theorem roundedSolver_within : roundedSolver.Within roundedExcess := by
  intro rows c h c'
  unfold roundedExcess
  cases hp : perfect.lstsq (rows.map fun r => finRow (realRow r)) with
  | error e => simp only [roundedSolver, hp, reduceCtorEq] at h
  | ok c₀ =>
    simp only [roundedSolver, hp, Except.ok.injEq] at h
    subst h
    have hmin : ∀ d : Fin 6 → ℝ, (rows.map fun r => (∑ i, (r.1 i).val * c₀ i - r.2.val) ^ 2).sum ≤ (rows.map fun r => (∑ i, (r.1 i).val * d i - r.2.val) ^ 2).sum := by
      intro d
      have := perfect_correct.lstsq_min (rows.map realRow) c₀ (by rw [List.map_map]; exact hp) d
      rw [List.map_map, List.map_map] at this
      exact this
    dsimp only
    rw [Real.sq_sqrt (sub_nonneg.mpr (hmin _))]
    have := hmin c'
    linarith

theorem roundedSolver_returns (rows : List ((Fin 6 → Fl) × Fl)) : ∃ c, roundedSolver.lstsq rows = .ok c := by
  obtain ⟨c, h⟩ := perfect_converges (rows.map realRow)
  rw [List.map_map] at h
  exact ⟨_, by simp only [roundedSolver]; rw [show (rows.map fun r => finRow (realRow r)) = rows.map (finRow ∘ realRow) from rfl, h]⟩

/-- six observations whose entries are floats -/
noncomputable def flSixObs : List FlObs :=
  [⟨Fl.of (3 : ℕ), 0, Fl.of (30 : ℕ), Fl.of (1 : ℕ)⟩, ⟨Fl.of (1 : ℕ), 0, Fl.of (31 : ℕ), Fl.of (1 : ℕ)⟩, ⟨0, Fl.of (1 : ℕ), Fl.of (32 : ℕ), Fl.of (2 : ℕ)⟩,
   ⟨Fl.of (1 : ℕ), Fl.of (1 : ℕ), Fl.of (30 : ℕ), Fl.of (1 : ℕ)⟩, ⟨Fl.of (2 : ℕ), 0, Fl.of (35 : ℕ), Fl.of (1 : ℕ)⟩, ⟨0, Fl.of (2 : ℕ), Fl.of (29 : ℕ), Fl.of (2 ^ (-1 : ℤ))⟩]

theorem flSixObs_exact : flSixObs.map FlObs.exact = sixObs := by
  have e6 : (2:ℝ) ^ (-1 : ℤ) = 0.5 := by norm_num [_root_.zpow_neg]
  simp only [flSixObs, sixObs, List.map_cons, List.map_nil, FlObs.exact, Fl.zero_val]
  rw [of_nat (n := 3) (by norm_num), of_nat (n := 1) (by norm_num), of_nat (n := 2) (by norm_num), of_nat (n := 30) (by norm_num), of_nat (n := 31) (by norm_num), of_nat (n := 32) (by norm_num),
    of_nat (n := 35) (by norm_num), of_nat (n := 29) (by norm_num), of_pow, e6]
  norm_num

theorem mixed_usable : mixed.exact.Usable (flSixObs.map FlObs.exact) := by
  rw [flSixObs_exact, mixed_exact]
  exact sixObs_usable_of rfl (by simp)

theorem mixed_clear : ∀ o ∈ flSixObs, mixed.exact.LevelClear o.exact := by
  intro o ho
  have : o.exact ∈ sixObs := by rw [← flSixObs_exact]; exact List.mem_map.mpr ⟨o, ho, rfl⟩
  right
  rw [mixed_exact]
  simp only [sixObs, List.mem_cons, List.not_mem_nil, or_false] at this
  rcases this with h | h | h | h | h | h <;> rw [h] <;> norm_num [_root_.zpow_neg]

/-- the six observations determine the flow -/
theorem mixed_determined : mixed.exact.Determined (flSixObs.map FlObs.exact) 0 0 10000 := by
  rw [flSixObs_exact, mixed_exact]
  intro d
  set N := √(sixObs.map fun o => (conic d (o.x - 0) (o.y - 0) / potentialStd 1 100 (o.z - 0) o.std) ^ 2).sum with hN
  have hN0 : 0 ≤ N := Real.sqrt_nonneg _
  have hs : ∀ o ∈ sixObs, 14 ≤ potentialStd 1 100 (o.z - 0) o.std ∧ potentialStd 1 100 (o.z - 0) o.std ≤ 64 := by
    intro o ho
    simp only [sixObs, List.mem_cons, List.not_mem_nil, or_false] at ho
    rcases ho with rfl | rfl | rfl | rfl | rfl | rfl <;> norm_num [potentialStd]
  have hp : ∀ o ∈ sixObs, |conic d (o.x - 0) (o.y - 0)| ≤ 64 * N := by
    intro o ho
    have h1 : |conic d (o.x - 0) (o.y - 0) / potentialStd 1 100 (o.z - 0) o.std| ≤ N :=
      Real.abs_le_sqrt (List.single_le_sum (by
        intro t ht
        obtain ⟨p, -, rfl⟩ := List.mem_map.mp ht
        exact sq_nonneg _) _ (List.mem_map.mpr ⟨o, ho, rfl⟩))
    obtain ⟨a, b⟩ := hs o ho
    have hp0 : 0 < potentialStd 1 100 (o.z - 0) o.std := by linarith
    rw [abs_div, abs_of_pos hp0, div_le_iff₀ hp0] at h1
    have := mul_le_mul_of_nonneg_left b hN0
    linarith
  have p0 := abs_le.mp (hp ⟨3, 0, 30, 1⟩ (by simp [sixObs]))
  have p1 := abs_le.mp (hp ⟨1, 0, 31, 1⟩ (by simp [sixObs]))
  have p2 := abs_le.mp (hp ⟨0, 1, 32, 2⟩ (by simp [sixObs]))
  have p3 := abs_le.mp (hp ⟨1, 1, 30, 1⟩ (by simp [sixObs]))
  have p4 := abs_le.mp (hp ⟨2, 0, 35, 1⟩ (by simp [sixObs]))
  have p5 := abs_le.mp (hp ⟨0, 2, 29, 0.5⟩ (by simp [sixObs]))
  simp only [conic] at p0 p1 p2 p3 p4 p5
  have d0 : |d 0| ≤ 128 * N := abs_le.mpr (by constructor <;> linarith)
  have d3 : |d 3| ≤ 512 * N := abs_le.mpr (by constructor <;> linarith)
  have d5 : |d 5| ≤ 704 * N := abs_le.mpr (by constructor <;> linarith)
  have d1 : |d 1| ≤ 448 * N := abs_le.mpr (by constructor <;> linarith)
  have d4 : |d 4| ≤ 1216 * N := abs_le.mpr (by constructor <;> linarith)
  have d2 : |d 2| ≤ 3072 * N := abs_le.mpr (by constructor <;> linarith)
  have ht : ∀ o ∈ sixObs, (conicTerms d (o.x - 0) (o.y - 0) / potentialStd 1 100 (o.z - 0) o.std) ^ 2 ≤ (1000 * N) ^ 2 := by
    intro o ho
    obtain ⟨a, -⟩ := hs o ho
    have hc : conicTerms d (o.x - 0) (o.y - 0) ≤ 10688 * N := by
      simp only [sixObs, List.mem_cons, List.not_mem_nil, or_false] at ho
      rcases ho with rfl | rfl | rfl | rfl | rfl | rfl <;> simp only [conicTerms, abs_mul, sub_zero] <;> norm_num <;> linarith [abs_nonneg (d 0), abs_nonneg (d 1), abs_nonneg (d 2), abs_nonneg (d 3), abs_nonneg (d 4), abs_nonneg (d 5)]
    have h0 : 0 ≤ conicTerms d (o.x - 0) (o.y - 0) := by unfold conicTerms; positivity
    refine pow_le_pow_left₀ (div_nonneg h0 (by linarith)) ?_ 2
    rw [div_le_iff₀ (by linarith)]
    have := mul_le_mul_of_nonneg_left a (by linarith : 0 ≤ 1000 * N)
    linarith
  refine Real.sqrt_le_iff.mpr ⟨by positivity, ?_⟩
  have := List.sum_le_card_nsmul (sixObs.map fun o => (conicTerms d (o.x - 0) (o.y - 0) / potentialStd 1 100 (o.z - 0) o.std) ^ 2) ((1000 * N) ^ 2) (by
    intro t ht'
    obtain ⟨p, hp', rfl⟩ := List.mem_map.mp ht'
    exact ht p hp')
  have l : sixObs.length = 6 := rfl
  rw [List.length_map, l, nsmul_eq_mul] at this
  refine this.trans ?_
  have := sq_nonneg N
  push_cast
  nlinarith

/-- C111: six observations near a pumping well in an unconfined aquifer; a solver that rounds the best coefficients -/
example : ∃ rows m' c' V' m₀ c V, @flConstructFit nearestLib nearestObs mixed 0 0 flSixObs = .ok rows ∧ @flFitRegionalFlow nearestLib nearestObs roundedSolver mixed flSixObs 0 0 = (m', .ok (c', V')) ∧
    mixed.exact.fitRegionalFlow perfect sixObs 0 0 = (m₀, .ok (c, V)) ∧ ∀ x y, |m'.exact.potential x y - m₀.potential x y| ≤
      (8/7 * roundedExcess rows + 2 ^ (-53 : ℤ) * (48 * 10000 * √(misfit mixed.exact sixObs m₀.potential) + (132 + 9 * (1 : ℕ)) * mixed.exact.residualTerms sixObs 0 0 c)) * spread V (x - 0) (y - 0) := by
  let := nearestLib
  let := nearestObs
  have hK : 0 < mixed.exact.conductivity := mixed_physical.1
  have hT : 0 < mixed.exact.thickness := mixed_physical.3
  have z0 : (0 : Fl).val = 0 := Fl.zero_val
  obtain ⟨rows, hr, -⟩ := C111_rows nearestLib_log nearestObs_accurate mixed hK hT (by simp [mixed]) flSixObs 0 0 mixed_usable mixed_clear
  obtain ⟨c', hc'⟩ := roundedSolver_returns rows
  have hf : mixed.flFitRegionalFlow roundedSolver flSixObs 0 0 = ({ mixed with xo := 0, yo := 0, coef := c' }, .ok (c', fun _ _ => 0)) := by
    simp only [flFitRegionalFlow, hr, hc']
    rfl
  obtain ⟨⟨c, V⟩, h⟩ := (C37_degenerate perfect perfect_correct perfect_converges mixed.exact hK hT sixObs 0 0 (flSixObs_exact ▸ mixed_usable)).2 sixObs_general
  refine ⟨rows, _, c', _, _, c, V, hr, hf, Prod.ext rfl h, fun x y => ?_⟩
  have := C111_fit nearestLib_log nearestObs_accurate roundedSolver roundedExcess roundedExcess_nonneg roundedSolver_within perfect perfect_correct mixed hK hT (by simp [mixed]) flSixObs 0 0 mixed_usable mixed_clear
    10000 (by norm_num) (by rw [z0]; exact mixed_determined) (by norm_num) rows hr _ c' _ hf _ c V (by rw [z0, flSixObs_exact]; exact Prod.ext rfl h) x y
  rw [z0, flSixObs_exact] at this
  exact this

/-- C111: with an observation at the base the fit raises -/
example : @flConstructFit nearestLib nearestObs mixed 0 0 (⟨0, Fl.of (1 : ℕ), 0, Fl.of (1 : ℕ)⟩ :: flSixObs) = .error .rangeError := by
  let := nearestLib
  let := nearestObs
  refine (C111_raises mixed mixed_physical.1 mixed_physical.3 _ 0 0 ?_).1 ⟨_, List.mem_cons_self, le_of_eq (by change (0 : Fl).val = (0 : Fl).val; rfl)⟩
  intro o ho
  rcases List.mem_cons.mp ho with rfl | ho
  · change 0 < (Fl.of (1 : ℕ)).val
    rw [of_nat (by norm_num)]
    norm_num
  · exact (mixed_usable o.exact (List.mem_map.mpr ⟨o, ho, rfl⟩)).2.1

/-- C111: the condition number that the covariance matrix gives -/
example : ∃ κ, plain.Determined sixObs 0 0 κ := by
  obtain ⟨⟨ev, V⟩, h⟩ := (C37_degenerate perfect perfect_correct perfect_converges plain (by norm_num [plain]) (by norm_num [plain]) sixObs 0 0
    (sixObs_usable_of rfl (by simp [plain]))).2 sixObs_general
  exact ⟨_, C111_determined perfect perfect_correct plain _ (by norm_num [plain]) (by norm_num [plain]) sixObs 0 0 ev V (sixObs_usable_of rfl (by simp [plain])) (Prod.ext rfl h)⟩

end Oneka
