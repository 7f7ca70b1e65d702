import Verif.Lemmas.FlVariate
import Verif.Lemmas.FlThresholds

/-!
# C108: random parameters in floating-point arithmetic

`FlDist.sample` and `FlDist.mean` are the code with every operation rounded to 53 digits; `d.exact` is the same distribution in exact arithmetic, where C41 and C42 hold.
-/

namespace Oneka

open Variate

/-- C108, the part that holds for all distributions: a draw never raises, stays within `2^-48` of the size of the range of the exact variate of the same random number, and has no sign that the distribution does not have.
Missing: the variate lies in the range. This holds for scalars and pairs (`C108_uniform`), and fails for triples (`C108_fails_triangular`). Example: `flPair_meets`. -/
theorem C108_draw_partial {d : FlDist} (h : d.Ordered) {u : Fl} (hu : IsDraw u) :
    ∃ v w, d.sample u = .ok v ∧ d.exact.sample u.val = .ok w ∧ |v.val - w| ≤ 2 ^ (-48 : ℤ) * (|d.lo| + |d.hi|) ∧
      (0 ≤ d.lo → 0 ≤ v.val) ∧ (d.hi ≤ 0 → v.val ≤ 0) := by
  obtain ⟨u0, -⟩ := hu.range
  have p := eps_pos
  have c : (2:ℝ) ^ (-48 : ℤ) = 32 * eps := by unfold eps; norm_num
  have grow : ∀ {x y : ℝ}, 0 ≤ y → x ≤ 20 * eps * y → x ≤ 2 ^ (-48 : ℤ) * y := by
    intro x y hy hx
    rw [c]
    nlinarith [mul_nonneg p.le hy]
  cases d with
  | const c => exact ⟨c, c.val, rfl, rfl, by rw [sub_self, abs_zero]; positivity, id, id⟩
  | pair a b =>
    obtain ⟨m1, m2⟩ := uniform_mem h hu
    exact ⟨_, _, rfl, exact_pair _ _ _, grow (by positivity) (uniform_near h hu), fun h0 => le_trans h0 m1, fun h0 => le_trans m2 h0⟩
  | triple a m b =>
    obtain ⟨h1, h2, h3⟩ := h
    have ex : ∃ v, flTriangular a m b u = .ok v := by
      rw [triangular_cases h1 h2 h3]
      split_ifs <;> exact ⟨_, rfl⟩
    obtain ⟨v, hv⟩ := ex
    obtain ⟨s1, s2, -⟩ := triangular_sign h1 h2 h3 hu hv
    exact ⟨v, _, hv, exact_triple h1 h2 h3 u0 hu.lt_one, grow (by positivity) (triangular_near h1 h2 h3 hu hv), s1, s2⟩

/-- C108: a draw from a scalar or a pair lies in the range, rounding included. Example: `flPair_meets`. -/
theorem C108_uniform {d : FlDist} (h : d.Ordered) (hd : ∀ a m b, d ≠ .triple a m b) {u : Fl} (hu : IsDraw u) :
    ∃ v, d.sample u = .ok v ∧ d.lo ≤ v.val ∧ v.val ≤ d.hi := by
  cases d with
  | const c => exact ⟨c, rfl, le_rfl, le_rfl⟩
  | pair a b => exact ⟨_, rfl, uniform_mem h hu⟩
  | triple a m b => exact absurd rfl (hd a m b)

/-- C108: a draw from a positive distribution is positive, if its largest value is at most `2^47` times its smallest. Example: `flTriple_meets`. -/
theorem C108_positive {d : FlDist} (h : d.Ordered) (h0 : 0 < d.lo) (hw : d.hi ≤ 2 ^ 47 * d.lo) {u : Fl} (hu : IsDraw u) {v : Fl} (hv : d.sample u = .ok v) : 0 < v.val := by
  obtain ⟨v', w, e1, e2, e3, -⟩ := C108_draw_partial h hu
  obtain rfl : v' = v := Except.ok.inj (e1.symm.trans hv)
  obtain ⟨u0, -⟩ := hu.range
  have hlh : d.lo ≤ d.hi := by
    cases d with
    | const c => exact le_rfl
    | pair a b => exact h
    | triple a m b => exact h.2.2.le
  have hlw : d.lo ≤ w := by
    cases d with
    | const c => exact (Except.ok.inj e2).le
    | pair a b =>
      rw [show FlDist.exact (.pair a b) = .tuple [a.val, b.val] from rfl, exact_pair] at e2
      rw [← Except.ok.inj e2]
      have := mul_nonneg (sub_nonneg.mpr h : 0 ≤ b.val - a.val) u0
      change a.val ≤ _
      linarith
    | triple a m b =>
      obtain ⟨h1, h2, h3⟩ := h
      rw [show FlDist.exact (.triple a m b) = .tuple [a.val, m.val, b.val] from rfl, exact_triple h1 h2 h3 u0 hu.lt_one] at e2
      rw [← Except.ok.inj e2]
      exact (tri_mem h1 h2 h3 _).1
  rw [abs_of_pos h0, abs_of_pos (h0.trans_le hlh)] at e3
  have := (abs_le.mp e3).1
  have k : (2:ℝ) ^ (-48 : ℤ) * (d.lo + d.hi) ≤ 2 ^ (-48 : ℤ) * ((1 + 2 ^ 47) * d.lo) := mul_le_mul_of_nonneg_left (by linarith) (by positivity)
  norm_num at k this
  nlinarith

/-- C108 fails for triples: a variate may be less than the minimum, here `0` for a distribution on `[2^-60, 1.25]`. -/
theorem C108_fails_triangular : ∃ (d : FlDist) (u v : Fl), d.Ordered ∧ IsDraw u ∧ 0 < d.lo ∧ d.sample u = .ok v ∧ v.val = 0 := by
  have ra : round53 (2 ^ (-60 : ℤ)) = 2 ^ (-60 : ℤ) := round53_zpow _
  have rb : round53 (5 / 4) = 5 / 4 := by have := round53_exact 5 (-2) (by norm_num); norm_num at this ⊢; exact this
  have ru : round53 (2 ^ (-53 : ℤ)) = 2 ^ (-53 : ℤ) := round53_zpow _
  let a : Fl := ⟨2 ^ (-60 : ℤ), ra⟩
  let b : Fl := ⟨5 / 4, rb⟩
  let u : Fl := ⟨2 ^ (-53 : ℤ), ru⟩
  have h1 : a.val ≤ a.val := le_rfl
  have h2 : a.val ≤ b.val := by change (2:ℝ) ^ (-60 : ℤ) ≤ 5 / 4; norm_num
  have h3 : a.val < b.val := by change (2:ℝ) ^ (-60 : ℤ) < 5 / 4; norm_num
  refine ⟨.triple a a b, u, b - flSqrt ((((1 : ℕ) : Fl) - u) * ((b - a) * (b - a))), ⟨h1, h2, h3⟩, ⟨1, by norm_num, by change (2:ℝ) ^ (-53 : ℤ) = _; norm_num⟩, ?_, ?_, ?_⟩
  · change (0:ℝ) < 2 ^ (-60 : ℤ); positivity
  · change flTriangular a a b u = _
    rw [triangular_cases h1 h2 h3, if_neg]
    have e : ((a - a) / (b - a)).val = 0 := by
      change round53 (round53 (a.val - a.val) / _) = 0
      rw [sub_self, round53_zero, zero_div, round53_zero]
    rw [e]
    change ¬ (2:ℝ) ^ (-53 : ℤ) ≤ 0
    norm_num
  · change round53 (5 / 4 - round53 (Real.sqrt (round53 (round53 (((1 : ℕ) : Fl).val - 2 ^ (-53 : ℤ)) * round53 (round53 (5 / 4 - 2 ^ (-60 : ℤ)) * round53 (5 / 4 - 2 ^ (-60 : ℤ))))))) = 0
    have s1 : round53 (5 / 4 - 2 ^ (-60 : ℤ)) = 5 / 4 := by
      have := round53_eq (x := 5 / 4 - 2 ^ (-60 : ℤ)) 52 5629499534213120 (by norm_num) (by norm_num) (by norm_num) (by norm_num)
      rw [this]; norm_num
    have s2 : round53 (5 / 4 * (5 / 4)) = 25 / 16 := by
      have := round53_eq (x := 5 / 4 * (5 / 4)) 52 7036874417766400 (by norm_num) (by norm_num) (by norm_num) (by norm_num)
      rw [this]; norm_num
    have s3 : round53 (1 - 2 ^ (-53 : ℤ)) = 1 - 2 ^ (-53 : ℤ) := by
      have := round53_eq (x := 1 - 2 ^ (-53 : ℤ)) 53 9007199254740991 (by norm_num) (by norm_num) (by norm_num) (by norm_num)
      rw [this]; norm_num
    have s4 : round53 ((1 - 2 ^ (-53 : ℤ)) * (25 / 16)) = 7036874417766399 / 2 ^ 52 := by
      have := round53_eq (x := (1 - 2 ^ (-53 : ℤ)) * (25 / 16)) 52 7036874417766399 (by norm_num) (by norm_num) (by norm_num) (by norm_num)
      rw [this]; norm_num
    have s5 : round53 (Real.sqrt (7036874417766399 / 2 ^ 52)) = 5 / 4 := by
      have lo : (5629499534213119.5 : ℝ) / 2 ^ 52 < Real.sqrt (7036874417766399 / 2 ^ 52) := Real.lt_sqrt_of_sq_lt (by norm_num)
      have hi : Real.sqrt (7036874417766399 / 2 ^ 52) < 5629499534213120.5 / 2 ^ 52 := by
        rw [Real.sqrt_lt' (by norm_num)]; norm_num
      rw [div_lt_iff₀ (by norm_num)] at lo
      rw [lt_div_iff₀ (by norm_num)] at hi
      have := round53_eq (x := Real.sqrt (7036874417766399 / 2 ^ 52)) 52 5629499534213120 (by linarith) (by linarith) (by push_cast; linarith) (by push_cast; linarith)
      rw [this]; norm_num
    rw [one_val, s1, s2, s3, s4, s5, sub_self, round53_zero]

/-- C108, the mean, the part that holds for all distributions: within `2^-50` of the size of the range of the exact mean. Missing: the mean lies in the range. This holds for scalars and pairs (`C108_mean_pair`), and
fails for triples (`C108_fails_mean`). Example: `flTriple_meets`. -/
theorem C108_mean_partial {d : FlDist} (h : d.Ordered) :
    ∃ w, d.exact.mean = .ok w ∧ |d.mean.val - w| ≤ 2 ^ (-50 : ℤ) * (|d.lo| + |d.hi|) := by
  have c : (2:ℝ) ^ (-50 : ℤ) = 8 * eps := by unfold eps; norm_num
  rw [c]
  have p := eps_pos
  cases d with
  | const c => exact ⟨c.val, rfl, by change |c.val - c.val| ≤ _; rw [sub_self, abs_zero]; positivity⟩
  | pair a b => exact ⟨_, exact_mean_pair _ _, mean_pair_near a b⟩
  | triple a m b => exact ⟨_, exact_mean_triple _ _ _, mean_triple_near h.1 h.2.1⟩

/-- C108: the mean of a scalar or a pair lies in the range, rounding included. Example: `flPair_meets`. -/
theorem C108_mean_pair {d : FlDist} (h : d.Ordered) (hd : ∀ a m b, d ≠ .triple a m b) : d.lo ≤ d.mean.val ∧ d.mean.val ≤ d.hi := by
  cases d with
  | const c => exact ⟨le_rfl, le_rfl⟩
  | pair a b => exact mean_pair_mem h
  | triple a m b => exact absurd rfl (hd a m b)

/-- C108 fails for the mean of triples: it may exceed the maximum. -/
theorem C108_fails_mean : ∃ d : FlDist, d.Ordered ∧ d.hi < d.mean.val := by
  have ra : round53 (1 - 7 / 2 ^ 53) = 1 - 7 / 2 ^ 53 := by
    have := round53_eq (x := 1 - 7 / 2 ^ 53) 53 9007199254740985 (by norm_num) (by norm_num) (by norm_num) (by norm_num)
    rw [this]; norm_num
  have rb : round53 (1 - 6 / 2 ^ 53) = 1 - 6 / 2 ^ 53 := by
    have := round53_eq (x := 1 - 6 / 2 ^ 53) 53 9007199254740986 (by norm_num) (by norm_num) (by norm_num) (by norm_num)
    rw [this]; norm_num
  let a : Fl := ⟨1 - 7 / 2 ^ 53, ra⟩
  let b : Fl := ⟨1 - 6 / 2 ^ 53, rb⟩
  have hab : a.val < b.val := by change (1 - 7 / 2 ^ 53 : ℝ) < 1 - 6 / 2 ^ 53; norm_num
  refine ⟨.triple a b b, ⟨hab.le, le_rfl, hab⟩, ?_⟩
  change (1 - 6 / 2 ^ 53 : ℝ) < round53 (round53 (round53 ((1 - 7 / 2 ^ 53) + (1 - 6 / 2 ^ 53)) + (1 - 6 / 2 ^ 53)) / ((3 : ℕ) : Fl).val)
  have s1 : round53 ((1 - 7 / 2 ^ 53) + (1 - 6 / 2 ^ 53)) = 9007199254740986 / 2 ^ 52 := by
    have := round53_eq_tie (x := (1 - 7 / 2 ^ 53) + (1 - 6 / 2 ^ 53)) 52 9007199254740986 (by norm_num) (by norm_num) (by norm_num) (by decide)
    exact_mod_cast this
  have s2 : round53 (9007199254740986 / 2 ^ 52 + (1 - 6 / 2 ^ 53)) = 6755399441055740 / 2 ^ 51 := by
    have := round53_eq_tie (x := 9007199254740986 / 2 ^ 52 + (1 - 6 / 2 ^ 53)) 51 6755399441055740 (by norm_num) (by norm_num) (by norm_num) (by decide)
    exact_mod_cast this
  have s3 : round53 (6755399441055740 / 2 ^ 51 / 3) = 9007199254740987 / 2 ^ 53 := by
    have := round53_eq (x := 6755399441055740 / 2 ^ 51 / 3) 53 9007199254740987 (by norm_num) (by norm_num) (by norm_num) (by norm_num)
    exact_mod_cast this
  rw [s1, s2, three_val, s3]
  norm_num

end Oneka
