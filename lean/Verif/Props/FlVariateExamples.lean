import Verif.Props.FlVariate

/-! Examples for C108. -/

namespace Oneka

theorem fl_nat_val (n : ℤ) (h : |n| ≤ 2 ^ 53) : round53 (n : ℝ) = n := by simpa using round53_exact n 0 h

/-- a pair and a draw that meet the hypotheses of C108 -/
theorem flPair_meets : ∃ (d : FlDist) (u : Fl), d.Ordered ∧ (∀ a m b, d ≠ .triple a m b) ∧ IsDraw u ∧ d.lo < d.hi := by
  have hu : round53 ((2:ℝ) ^ (-1 : ℤ)) = 2 ^ (-1 : ℤ) := round53_zpow _
  refine ⟨.pair ⟨((1:ℤ):ℝ), fl_nat_val 1 (by norm_num)⟩ ⟨((7:ℤ):ℝ), fl_nat_val 7 (by norm_num)⟩, ⟨_, hu⟩, ?_, by simp, ⟨2 ^ 52, by norm_num, ?_⟩, ?_⟩
  · change ((1:ℤ):ℝ) ≤ ((7:ℤ):ℝ); norm_num
  · change (2:ℝ) ^ (-1 : ℤ) = _; norm_num
  · change ((1:ℤ):ℝ) < ((7:ℤ):ℝ); norm_num

/-- a triple and a draw that meet the hypotheses of C108, with one of its variates -/
theorem flTriple_meets : ∃ (d : FlDist) (u v : Fl), d.Ordered ∧ IsDraw u ∧ 0 < d.lo ∧ d.hi ≤ 2 ^ 47 * d.lo ∧ d.lo < d.hi ∧ d.sample u = .ok v := by
  have hu : round53 ((2:ℝ) ^ (-1 : ℤ)) = 2 ^ (-1 : ℤ) := round53_zpow _
  have ho : FlDist.Ordered (.triple ⟨((1:ℤ):ℝ), fl_nat_val 1 (by norm_num)⟩ ⟨((3:ℤ):ℝ), fl_nat_val 3 (by norm_num)⟩ ⟨((7:ℤ):ℝ), fl_nat_val 7 (by norm_num)⟩) := by
    refine ⟨?_, ?_, ?_⟩
    · change ((1:ℤ):ℝ) ≤ ((3:ℤ):ℝ); norm_num
    · change ((3:ℤ):ℝ) ≤ ((7:ℤ):ℝ); norm_num
    · change ((1:ℤ):ℝ) < ((7:ℤ):ℝ); norm_num
  have hd : IsDraw ⟨_, hu⟩ := ⟨2 ^ 52, by norm_num, by change (2:ℝ) ^ (-1 : ℤ) = _; norm_num⟩
  obtain ⟨v, -, hv, -⟩ := C108_draw_partial ho hd
  refine ⟨_, _, v, ho, hd, ?_, ?_, ho.2.2, hv⟩
  · change 0 < ((1:ℤ):ℝ); norm_num
  · change ((7:ℤ):ℝ) ≤ 2 ^ 47 * ((1:ℤ):ℝ); norm_num

end Oneka
