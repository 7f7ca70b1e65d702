import Verif.Props.Ratio
import Verif.Props.Examples

/-!
# Calls that meet the hypotheses of C125
-/

namespace Oneka

/-- the example call with twice the conductivity, porosity and discharge -/
noncomputable def doubledCall (r : ℤ) : PyArgs :=
  { exampleCall r with
    cDist := .tuple [fl (2 * 5), fl (2 * 10), fl (2 * 20)]
    pDist := .tuple [fl (2 * 0.2), fl (2 * 0.25)]
    wells := .list [.tuple [fl 1000, fl 1000, fl 0.25, .tuple [fl (2 * 500), fl (2 * 1000)]]] }

theorem doubledCall_acceptable (r : ℤ) : Acceptable (doubledCall r) :=
  { exampleCall_acceptable r with
    cDist := by
      refine .inr (.inr ⟨_, _, _, _, _, _, .inl rfl, rfl, rfl, rfl, ?_, ?_, ?_, ?_⟩)
      · show (0:ℝ) ≤ 2 * 5
        norm_num
      · show (2 * 5:ℝ) ≤ 2 * 10
        norm_num
      · show (2 * 10:ℝ) ≤ 2 * 20
        norm_num
      · trivial
    pDist := by
      refine .inr (.inl ⟨_, _, _, _, .inl rfl, rfl, rfl, ?_, ?_, ?_⟩)
      · show (0:ℝ) ≤ 2 * 0.2
        norm_num
      · show (2 * 0.2:ℝ) ≤ 2 * 0.25
        norm_num
      · show (2 * 0.25:ℝ) ≤ 1
        norm_num
    wells := by
      refine ⟨_, rfl, ?_, 0, .inl rfl, le_rfl, by simp⟩
      intro w hw
      obtain rfl := List.mem_singleton.mp hw
      refine ⟨_, _, _, _, .inl rfl, ⟨_, rfl, trivial⟩, ⟨_, rfl, trivial⟩, ⟨_, rfl, fin_pos (by norm_num)⟩, .inr (.inl ⟨_, _, _, _, .inl rfl, rfl, rfl, ?_, ?_, ?_⟩)⟩
      · trivial
      · show (2 * 500:ℝ) ≤ 2 * 1000
        norm_num
      · trivial }

theorem doubledCall_denotes (r : ℤ) : (doubledCall r).Denotes ((exampleInputs r).times 2) :=
  { exampleCall_denotes r with
    cDist := ⟨_, rfl, .cons (fl_isReal _) (.cons (fl_isReal _) (.cons (fl_isReal _) .nil))⟩
    pDist := ⟨_, rfl, .cons (fl_isReal _) (.cons (fl_isReal _) .nil)⟩
    wells := ⟨_, rfl, .cons ⟨_, _, _, _, .inl rfl, fl_isReal _, fl_isReal _, fl_isReal _, ⟨_, rfl, .cons (fl_isReal _) (.cons (fl_isReal _) .nil)⟩⟩ .nil⟩ }

/-- C125: the hypotheses of `C125_call` and `C125_archive` are met: both calls return. -/
example (r : ℤ) (N : ℕ) (t : DateTime) : Acceptable (exampleCall r) ∧ Acceptable (doubledCall r) ∧ (exampleCall r).Denotes (exampleInputs r) ∧ (doubledCall r).Denotes ((exampleInputs r).times 2) ∧
    (exampleCallEnv N t).run.la.Correct ∧ (exampleCallEnv N t).run.la.Converges ∧ (exampleCallEnv N t).run.la.Strict ∧
    ScalesNormal 2 (exampleCallEnv N t).run.mvn (exampleCallEnv N t).run.mvn ∧
    (oneka (exampleCall r) (exampleCallEnv N t)).ending = .returns .none ∧ (oneka (doubledCall r) (exampleCallEnv N t)).ending = .returns .none := by
  have hm : ScalesNormal 2 (exampleCallEnv N t).run.mvn (exampleCallEnv N t).run.mvn := fun _ _ _ => rfl
  refine ⟨exampleCall_acceptable r, doubledCall_acceptable r, exampleCall_denotes r, doubledCall_denotes r, perfect_correct, perfect_converges, perfect_strict, hm, example_returns r N t, ?_⟩
  rw [← example_returns r N t]
  exact (C125_call 2 two_pos _ _ _ (exampleCallEnv N t) (exampleCall_acceptable r) (doubledCall_acceptable r) (exampleCall_denotes r) (doubledCall_denotes r) perfect_correct perfect_converges perfect_strict _ fun _ => hm).1

/-- C125: a generator that uses the covariance (independent coefficients with the standard deviations of the fit, from the numbers `z`) scales, too. -/
example (μ : ℝ) (h : 0 < μ) (z : ℕ → Fin 6 → ℝ) : ScalesNormal μ (fun i ev cov => .ok fun k => ev k + Real.sqrt (cov k k) * z i k) (fun i ev cov => .ok fun k => ev k + Real.sqrt (cov k k) * z i k) := by
  intro i ev cov
  simp only [Except.map]
  congr 1
  funext k
  rw [Real.sqrt_mul (sq_nonneg μ), Real.sqrt_sq h.le]
  ring

end Oneka
