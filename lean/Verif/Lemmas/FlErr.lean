import Verif.Lemmas.FlTime

/-! Forward error analysis with any number of operations. -/

namespace Oneka

/-- `x'` differs from `x` by at most `c` roundings of size `S`. -/
def Err (c S x' x : ℝ) : Prop := |x' - x| ≤ c * eps * S ∧ |x| ≤ S

theorem Err.nonneg {c S x' x : ℝ} (h : Err c S x' x) : 0 ≤ S := (abs_nonneg _).trans h.2

theorem Err.self (x : ℝ) : Err 0 |x| x x := ⟨by simp, le_rfl⟩

theorem Err.mono {c d S T x' x : ℝ} (h : Err c S x' x) (hc : 0 ≤ c) (hd : c ≤ d) (hT : S ≤ T) : Err d T x' x := by
  have e := eps_pos
  exact ⟨h.1.trans (mul_le_mul (mul_le_mul_of_nonneg_right hd e.le) hT h.nonneg (by have := hc.trans hd; positivity)), h.2.trans hT⟩

theorem Err.size {c S x' x : ℝ} (h : Err c S x' x) : |x'| ≤ (1 + c * eps) * S := by
  have := abs_add_le (x' - x) x
  rw [sub_add_cancel] at this
  linarith [h.1, h.2]

/-- rounding once more -/
theorem Err.round {c S x' x : ℝ} (h : Err c S x' x) (hc : c * eps ≤ 1/4) : Err (c + 5/4) S (round53 x') x := by
  have e := eps_pos
  have s0 := h.nonneg
  have h1 : |round53 x' - x'| ≤ eps * |x'| := round53_accurate x'
  have h2 := h.size
  have h3 : (1 + c * eps) * S ≤ 5/4 * S := mul_le_mul_of_nonneg_right (by linarith) s0
  have h4 := mul_le_mul_of_nonneg_left (h2.trans h3) e.le
  refine ⟨?_, h.2⟩
  have := abs_add_le (round53 x' - x') (x' - x)
  rw [sub_add_sub_cancel] at this
  linarith [h.1]

theorem Err.neg {c S x' x : ℝ} (h : Err c S x' x) : Err c S (-x') (-x) := by
  refine ⟨?_, by rw [abs_neg]; exact h.2⟩
  rw [← neg_sub', abs_neg]
  exact h.1

theorem Err.plus {c S T x' x y' y : ℝ} (h : Err c S x' x) (g : Err c T y' y) : Err c (S + T) (x' + y') (x + y) := by
  refine ⟨?_, (abs_add_le _ _).trans (add_le_add h.2 g.2)⟩
  rw [add_sub_add_comm]
  refine (abs_add_le _ _).trans ((add_le_add h.1 g.1).trans_eq (by ring))

theorem Err.add {c S T : ℝ} {x' y' : Fl} {x y : ℝ} (h : Err c S x'.val x) (g : Err c T y'.val y) (hc : c * eps ≤ 1/4) :
    Err (c + 2) (S + T) (x' + y').val (x + y) := by
  have := (h.plus g).round hc
  have s0 := this.nonneg
  have e := eps_pos
  exact ⟨this.1.trans (mul_le_mul_of_nonneg_right (by nlinarith) s0), this.2⟩

theorem Err.times {c d S T x' x y' y : ℝ} (h : Err c S x' x) (g : Err d T y' y) (hc : 0 ≤ c) (hcd : c * d * eps ≤ 1/2) : Err (c + d + 1/2) (S * T) (x' * y') (x * y) := by
  have e := eps_pos
  have s0 := h.nonneg; have t0 := g.nonneg
  refine ⟨?_, by rw [abs_mul]; exact mul_le_mul h.2 g.2 (abs_nonneg _) s0⟩
  have e1 : x' * y' - x * y = (x' - x) * y' + x * (y' - y) := by ring
  rw [e1]
  refine (abs_add_le _ _).trans ?_
  rw [abs_mul, abs_mul]
  have a1 : |x' - x| * |y'| ≤ (c * eps * S) * ((1 + d * eps) * T) := mul_le_mul h.1 g.size (abs_nonneg _) (by positivity)
  have a2 : |x| * |y' - y| ≤ S * (d * eps * T) := mul_le_mul h.2 g.1 (abs_nonneg _) s0
  have a3 : c * d * eps * (eps * (S * T)) ≤ 1/2 * (eps * (S * T)) := mul_le_mul_of_nonneg_right hcd (by positivity)
  nlinarith

theorem Err.mul {c d S T : ℝ} {x' y' : Fl} {x y : ℝ} (h : Err c S x'.val x) (g : Err d T y'.val y) (hc : 0 ≤ c) (hcd : c * d * eps ≤ 1/2) (hs : (c + d) * eps ≤ 1/8) :
    Err (c + d + 2) (S * T) (x' * y').val (x * y) := by
  have e := eps_pos; have e' := eps_small
  have r := (h.times g hc hcd).round (by nlinarith)
  have := h.nonneg; have := g.nonneg
  refine ⟨r.1.trans (mul_le_mul_of_nonneg_right (mul_le_mul_of_nonneg_right (by linarith) e.le) (by positivity)), r.2⟩

/-- quotients, if the denominator has a relative error -/
theorem Err.over {c d S x' x y' y : ℝ} (h : Err c S x' x) (g : Err d |y| y' y) (hc : 0 ≤ c) (hd : 0 ≤ d) (hy : y ≠ 0) (hd8 : d * eps ≤ 1/8) :
    Err (8/7 * (c + d)) (S / |y|) (x' / y') (x / y) := by
  have e := eps_pos
  have s0 := h.nonneg
  have y0 : 0 < |y| := abs_pos.mpr hy
  have hy' : 7/8 * |y| ≤ |y'| := by
    have h1 := abs_sub_abs_le_abs_sub y y'
    rw [abs_sub_comm] at h1
    have h2 := g.1
    have h3 := mul_le_mul_of_nonneg_right hd8 y0.le
    linarith
  have y0' : 0 < |y'| := by linarith
  have hy0 : y' ≠ 0 := abs_pos.mp y0'
  refine ⟨?_, by rw [abs_div]; exact div_le_div_of_nonneg_right h.2 y0.le⟩
  have e1 : x' / y' - x / y = ((x' - x) * y - x * (y' - y)) / (y' * y) := by field_simp; ring
  rw [e1, abs_div, abs_mul, div_le_iff₀ (by positivity)]
  have a0 : |(x' - x) * y - x * (y' - y)| ≤ c * eps * S * |y| + S * (d * eps * |y|) := by
    refine (abs_sub _ _).trans ?_
    rw [abs_mul, abs_mul]
    exact add_le_add (mul_le_mul_of_nonneg_right h.1 y0.le) (mul_le_mul h.2 g.1 (abs_nonneg _) s0)
  refine a0.trans ?_
  have e2 : 8/7 * (c + d) * eps * (S / |y|) * (|y'| * |y|) = 8/7 * (c + d) * eps * S * |y'| := by field_simp
  rw [e2]
  have := mul_le_mul_of_nonneg_left hy' (by positivity : 0 ≤ 8/7 * (c + d) * eps * S)
  linarith

theorem Err.div {c d S : ℝ} {x' y' : Fl} {x y : ℝ} (h : Err c S x'.val x) (g : Err d |y| y'.val y) (hc : 0 ≤ c) (hd : 0 ≤ d) (hy : y ≠ 0) (hs : (c + d) * eps ≤ 1/8) :
    Err (8/7 * (c + d) + 2) (S / |y|) (x' / y').val (x / y) := by
  have e := eps_pos
  have s0 := h.nonneg
  have := (h.over g hc hd hy (by nlinarith)).round (by linarith)
  exact this.mono (by positivity) (by linarith) le_rfl

/-- sums of numbers of the same sign keep a relative error -/
theorem Err.plus_pos {c S T : ℝ} {x' y' : Fl} {x y : ℝ} (h : Err c S x'.val x) (g : Err c T y'.val y) (hc : c * eps ≤ 1/4) :
    Err (c + 2) (S + T) (x' + y').val (x + y) := h.add g hc

theorem Err.sum {α : Type} {c : ℝ} (hc : 0 ≤ c) (l : List α) (t' : α → Fl) (t s : α → ℝ) (ht : ∀ a ∈ l, Err c (s a) (t' a).val (t a)) :
    ∀ (z' : Fl) (z Z : ℝ) (k : ℕ), Err (c + 2 * k) Z z'.val z → (c + 2 * (k + l.length : ℕ)) * eps ≤ 1/4 →
      Err (c + 2 * (k + l.length : ℕ)) (Z + (l.map s).sum) (l.foldl (fun a x => a + t' x) z').val (z + (l.map t).sum) := by
  induction l with
  | nil => intro z' z Z k h _; simpa using h
  | cons a l ih =>
    intro z' z Z k h hb
    have e := eps_pos
    have h1 := ht a (List.mem_cons_self ..)
    have hk : (c + 2 * (k : ℝ)) * eps ≤ 1/4 := by
      refine le_trans (mul_le_mul_of_nonneg_right ?_ e.le) hb
      push_cast
      have : (0:ℝ) ≤ (a :: l).length := by positivity
      linarith
    have h2 := h.add (h1.mono hc (by linarith [Nat.cast_nonneg (α := ℝ) k]) le_rfl) hk
    have h3 := ih (fun b hb => ht b (List.mem_cons_of_mem _ hb)) (z' + t' a) (z + t a) (Z + s a) (k + 1) (by
      have : c + 2 * ((k + 1 : ℕ) : ℝ) = c + 2 * k + 2 := by push_cast; ring
      rw [this]; exact h2) (by rw [show k + 1 + l.length = k + (a :: l).length by simp; omega]; exact hb)
    rw [show k + 1 + l.length = k + (a :: l).length by simp; omega] at h3
    simp only [List.foldl_cons, List.map_cons, List.sum_cons]
    rw [← add_assoc, ← add_assoc]
    exact h3

end Oneka
