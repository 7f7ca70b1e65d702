import Verif.Lemmas.FlErr
import Verif.Lemmas.PropsPathlines
import Verif.Spec.RoundingAquifer

/-! Discharge, potential and velocity in floating-point arithmetic. -/

namespace Oneka
namespace Aquifer

theorem foldl_pair {α F : Type} [Add F] (f g : α → F) (l : List α) (a b : F) :
    l.foldl (fun Q w => (Q.1 + f w, Q.2 + g w)) (a, b) = (l.foldl (fun q w => q + f w) a, l.foldl (fun q w => q + g w) b) := by
  induction l generalizing a b with
  | nil => rfl
  | cons w l ih => exact ih _ _

/-- a well read as real numbers -/
def wexact (w : Well Fl) : Well ℝ := ⟨w.xw.val, w.yw.val, w.rw.val, w.qw.val⟩

theorem twoPiInv_abs : |((twoPiInv : ℚ) : ℝ)| ≤ 1/6 := by unfold twoPiInv; norm_num [abs_le]
theorem fourPiInv_abs : |((fourPiInv : ℚ) : ℝ)| ≤ 1/12 := by unfold fourPiInv; norm_num [abs_le]

theorem err_sub (a b : Fl) : Err (5/4) |a.val - b.val| (a - b).val (a.val - b.val) := by
  have := (Err.self (a.val - b.val)).round (by norm_num)
  rwa [zero_add] at this

/-- `c ε` is small for moderate `c` -/
theorem ce {c : ℝ} (hc : c ≤ 100000) : c * eps ≤ 1/8 := by
  have e := eps_pos; have e' := eps_small
  nlinarith

theorem err_r2 (w : Well Fl) (x y : Fl) : Err 7 |(wexact w).r2 x.val y.val| ((x - w.xw) * (x - w.xw) + (y - w.yw) * (y - w.yw)).val ((wexact w).r2 x.val y.val) := by
  have hx := (err_sub x w.xw).mul (err_sub x w.xw) (by norm_num) ((ce (c := 5/4 * (5/4)) (by norm_num)).trans (by norm_num)) (ce (by norm_num))
  have hy := (err_sub y w.yw).mul (err_sub y w.yw) (by norm_num) ((ce (c := 5/4 * (5/4)) (by norm_num)).trans (by norm_num)) (ce (by norm_num))
  have h := hx.add hy ((ce (by norm_num)).trans (by norm_num))
  have e1 : (wexact w).r2 x.val y.val = (x.val - w.xw.val) * (x.val - w.xw.val) + (y.val - w.yw.val) * (y.val - w.yw.val) := by
    unfold Well.r2 wexact; ring
  have e2 : |(wexact w).r2 x.val y.val| = |x.val - w.xw.val| * |x.val - w.xw.val| + |y.val - w.yw.val| * |y.val - w.yw.val| := by
    rw [e1, abs_mul_abs_self, abs_mul_abs_self, abs_of_nonneg (add_nonneg (mul_self_nonneg _) (mul_self_nonneg _))]
  rw [e2, e1]
  exact h.mono (by norm_num) (by norm_num) le_rfl

variable [LibM]

theorem err_q (r : ℚ) : Err (5/4) |(r : ℝ)| (PyMath.q r : Fl).val r := by
  have := (Err.self (r : ℝ)).round (by norm_num)
  rw [zero_add] at this
  exact this

/-- a well's term of the discharge -/
theorem err_well (w : Well Fl) (x y d : Fl) (c : ℝ) (hd : Err (5/4) |c| d.val c) (hr : (wexact w).r2 x.val y.val ≠ 0) :
    Err 18 |w.qw.val / 6 * c / (wexact w).r2 x.val y.val| (-w.qw * d / ((x - w.xw) * (x - w.xw) + (y - w.yw) * (y - w.yw)) * PyMath.q twoPiInv).val
      (-(w.qw.val * (twoPiInv : ℝ) * (c / (wexact w).r2 x.val y.val))) := by
  have h1 : Err 0 |w.qw.val| (-w.qw).val (-w.qw.val) := by
    have := Err.self (-w.qw.val)
    rwa [abs_neg] at this
  have h2 := h1.mul hd (by norm_num) (by norm_num) (ce (by norm_num))
  have h3 := h2.div (err_r2 w x y) (by norm_num) (by norm_num) hr (ce (by norm_num))
  have h4 := h3.mul (err_q twoPiInv) (by norm_num) ((ce (by norm_num)).trans (by norm_num)) (ce (by norm_num))
  have e : -w.qw.val * c / (wexact w).r2 x.val y.val * (twoPiInv : ℝ) = -(w.qw.val * (twoPiInv : ℝ) * (c / (wexact w).r2 x.val y.val)) := by ring
  rw [e] at h4
  refine h4.mono (by norm_num) (by norm_num) ?_
  rw [abs_div, abs_mul, abs_div, abs_of_pos (by norm_num : (0:ℝ) < 6)]
  have := mul_le_mul_of_nonneg_left twoPiInv_abs (by positivity : 0 ≤ |w.qw.val| * |c| / |(wexact w).r2 x.val y.val|)
  refine this.trans_eq (by ring)

theorem off_r2 {m : Aquifer Fl} {x y : Fl} (hoff : m.exact.OffWells x.val y.val) {w : Well Fl} (hw : w ∈ m.wells) : 0 < (wexact w).r2 x.val y.val :=
  r2_pos (hoff (wexact w) (List.mem_map_of_mem (f := wexact) hw))

/-- The discharge vector. -/
theorem err_discharge (m : Aquifer Fl) (x y : Fl) (hoff : m.exact.OffWells x.val y.val) (hn : (18 + 2 * (m.wells.length : ℝ)) * eps ≤ 1/8) :
    Err (18 + 2 * m.wells.length) (m.exact.dischargeTerms x.val y.val) (m.discharge x y).1.val (m.exact.discharge x.val y.val).1 ∧
    Err (18 + 2 * m.wells.length) (m.exact.dischargeTerms x.val y.val) (m.discharge x y).2.val (m.exact.discharge x.val y.val).2 := by
  have e := eps_pos
  have reg : ∀ a c d u v u' v' : Fl, ∀ p q : ℝ, Err (5/4) |p| u'.val p → Err (5/4) |q| v'.val q →
      Err 18 (|2 * a.val * p| + |c.val * q| + |d.val|) (-(PyMath.q 2 * a * u' + c * v' + d)).val (-(2 * a.val * p + c.val * q + d.val)) := by
    intro a c d u v u' v' p q hp hq
    have h1 := (err_q 2).mul (Err.self a.val) (by norm_num) (by norm_num) (ce (by norm_num))
    have h2 := h1.mul hp (by norm_num) ((ce (by norm_num)).trans (by norm_num)) (ce (by norm_num))
    have h3 := (Err.self c.val).mul hq (by norm_num) (by norm_num) (ce (by norm_num))
    have h4 := h2.add (h3.mono (d := (5/4 + 0 + 2 + 5/4 + 2)) (by norm_num) (by norm_num) le_rfl) ((ce (by norm_num)).trans (by norm_num))
    have h5 := h4.add ((Err.self d.val).mono (d := (5/4 + 0 + 2 + 5/4 + 2 + 2)) (by norm_num) (by norm_num) le_rfl) ((ce (by norm_num)).trans (by norm_num))
    have h6 := (h5.mono (d := 18) (by norm_num) (by norm_num) le_rfl).neg
    simp only [Rat.cast_ofNat, ← abs_mul] at h6
    exact h6
  have ex := reg (m.coef 0) (m.coef 2) (m.coef 3) x y _ _ _ _ (err_sub x m.xo) (err_sub y m.yo)
  have ey := reg (m.coef 1) (m.coef 2) (m.coef 4) x y _ _ _ _ (err_sub y m.yo) (err_sub x m.xo)
  have fx := Err.sum (c := 18) (by norm_num) m.wells _ _ _ (fun w hw => err_well w x y (x - w.xw) _ (err_sub x w.xw) (off_r2 hoff hw).ne') _ _ _ 0 (by rw [Nat.cast_zero, mul_zero, add_zero]; exact ex) (by
    rw [zero_add]; exact hn.trans (by norm_num))
  have fy := Err.sum (c := 18) (by norm_num) m.wells _ _ _ (fun w hw => err_well w x y (y - w.yw) _ (err_sub y w.yw) (off_r2 hoff hw).ne') _ _ _ 0 (by rw [Nat.cast_zero, mul_zero, add_zero]; exact ey) (by
    rw [zero_add]; exact hn.trans (by norm_num))
  rw [zero_add] at fx fy
  rw [discharge_eq]
  unfold discharge
  rw [foldl_pair (fun w : Well Fl => -w.qw * (x - w.xw) / ((x - w.xw) * (x - w.xw) + (y - w.yw) * (y - w.yw)) * PyMath.q twoPiInv)
    (fun w : Well Fl => -w.qw * (y - w.yw) / ((x - w.xw) * (x - w.xw) + (y - w.yw) * (y - w.yw)) * PyMath.q twoPiInv)]
  simp only [exact, dischargeTerms, List.map_map]
  exact ⟨fx.mono (by positivity) le_rfl (le_max_left _ _), fy.mono (by positivity) le_rfl (le_max_right _ _)⟩

omit [LibM] in
theorem log_near {r r' : ℝ} (hr : 0 < r) (h : Err 7 |r| r' r) : 0 < r' ∧ |Real.log r' - Real.log r| ≤ 8 * eps := by
  have e := eps_pos; have e' := eps_small
  have h1 := h.1
  rw [abs_of_pos hr, abs_le] at h1
  have b := mul_le_mul_of_nonneg_right e' hr.le
  have hr' : 0 < r' := by linarith [h1.1]
  refine ⟨hr', ?_⟩
  rw [abs_le]
  constructor
  · have := Real.log_le_sub_one_of_pos (div_pos hr hr')
    rw [Real.log_div hr.ne' hr'.ne'] at this
    have h2 : r / r' - 1 ≤ 8 * eps := by
      rw [sub_le_iff_le_add, div_le_iff₀ hr']
      nlinarith [h1.1]
    linarith
  · have := Real.log_le_sub_one_of_pos (div_pos hr' hr)
    rw [Real.log_div hr'.ne' hr.ne'] at this
    have h2 : r' / r - 1 ≤ 7 * eps := by
      rw [sub_le_iff_le_add, div_le_iff₀ hr]
      linarith [h1.2]
    linarith

/-- a well's term of the potential -/
theorem err_log (hlog : LogAccurate) (w : Well Fl) (x y : Fl) (hr : 0 < (wexact w).r2 x.val y.val) :
    Err 15 (|w.qw.val| / 12 * (1 + |Real.log ((wexact w).r2 x.val y.val)|))
      (w.qw * PyMath.log ((x - w.xw) * (x - w.xw) + (y - w.yw) * (y - w.yw)) * PyMath.q fourPiInv).val
      (w.qw.val * (fourPiInv : ℝ) * Real.log ((wexact w).r2 x.val y.val)) := by
  have e := eps_pos; have e' := eps_small
  obtain ⟨r0, h0⟩ := log_near hr (err_r2 w x y)
  have h1 := hlog _ r0
  have e2 : (2:ℝ) ^ (-52 : ℤ) = 2 * eps := by unfold eps; norm_num [zpow_neg]
  rw [e2] at h1
  set l := Real.log ((wexact w).r2 x.val y.val)
  set r' := ((x - w.xw) * (x - w.xw) + (y - w.yw) * (y - w.yw))
  have h2 : Err 9 (1 + |l|) (PyMath.log r' : Fl).val l := by
    refine ⟨?_, by linarith [abs_nonneg l]⟩
    have h3 := abs_add_le ((LibM.log r').val - Real.log r'.val) (Real.log r'.val - l)
    rw [sub_add_sub_cancel] at h3
    have h4 : |Real.log r'.val| ≤ |l| + 8 * eps := by
      have := abs_sub_abs_le_abs_sub (Real.log r'.val) l
      linarith
    have h5 := mul_le_mul_of_nonneg_left h4 (by positivity : 0 ≤ 2 * eps)
    have h6 := mul_nonneg e.le (abs_nonneg l)
    change |(LibM.log r').val - l| ≤ _
    nlinarith
  have h3 := (Err.self w.qw.val).mul h2 (by norm_num) (by norm_num) (ce (by norm_num))
  have h4 := h3.mul (err_q fourPiInv) (by norm_num) ((ce (by norm_num)).trans (by norm_num)) (ce (by norm_num))
  rw [show w.qw.val * l * (fourPiInv : ℝ) = w.qw.val * (fourPiInv : ℝ) * l by ring] at h4
  refine h4.mono (by norm_num) (by norm_num) ?_
  have := mul_le_mul_of_nonneg_left fourPiInv_abs (by positivity : 0 ≤ |w.qw.val| * (1 + |l|))
  linarith

/-- The potential. -/
theorem err_potential (hlog : LogAccurate) (m : Aquifer Fl) (x y : Fl) (hoff : m.exact.OffWells x.val y.val) (hn : (19 + 2 * (m.wells.length : ℝ)) * eps ≤ 1/8) :
    Err (19 + 2 * m.wells.length) (m.exact.potentialTerms x.val y.val) (m.potential x y).val (m.exact.potential x.val y.val) := by
  have e := eps_pos
  have n0 : (0:ℝ) ≤ m.wells.length := by positivity
  have hx := err_sub x m.xo
  have hy := err_sub y m.yo
  have two := fun (c u v : Fl) (p q : ℝ) (hp : Err (5/4) |p| u.val p) (hq : Err (5/4) |q| v.val q) =>
    ((Err.self c.val).mul (hp.mul hq (by norm_num) ((ce (by norm_num)).trans (by norm_num)) (ce (by norm_num))) (by norm_num) (by norm_num) (ce (by norm_num)))
  have one := fun (c u : Fl) (p : ℝ) (hp : Err (5/4) |p| u.val p) => ((Err.self c.val).mul hp (by norm_num) (by norm_num) (ce (by norm_num)))
  have a := two (m.coef 0) _ _ _ _ hx hx
  have b := two (m.coef 1) _ _ _ _ hy hy
  have c := (one (m.coef 2) _ _ hx).mul hy (by norm_num) ((ce (by norm_num)).trans (by norm_num)) (ce (by norm_num))
  have d := one (m.coef 3) _ _ hx
  have f := one (m.coef 4) _ _ hy
  have g := Err.self (m.coef 5).val
  have up := fun {k S x' z : ℝ} (h : Err k S x' z) (d : ℝ) (h0 : 0 ≤ k) (hd : k ≤ d) => h.mono h0 hd le_rfl
  have s1 := (up a 7 (by norm_num) (by norm_num)).add (up b 7 (by norm_num) (by norm_num)) ((ce (by norm_num)).trans (by norm_num))
  have s2 := s1.add (up c (7 + 2) (by norm_num) (by norm_num)) ((ce (by norm_num)).trans (by norm_num))
  have s3 := s2.add (up d (7 + 2 + 2) (by norm_num) (by norm_num)) ((ce (by norm_num)).trans (by norm_num))
  have s4 := s3.add (up f (7 + 2 + 2 + 2) (by norm_num) (by norm_num)) ((ce (by norm_num)).trans (by norm_num))
  have s5 := s4.add (up g (7 + 2 + 2 + 2 + 2) (by norm_num) (by norm_num)) ((ce (by norm_num)).trans (by norm_num))
  have z : Err (15 + 2 * ((0:ℕ) : ℝ)) 0 (PyMath.q 0 : Fl).val 0 := by
    rw [q_val, Rat.cast_zero, round53_zero]
    exact ⟨by simp, by simp⟩
  have w := Err.sum (c := 15) (by norm_num) m.wells _ _ _ (fun w hw => err_log hlog w x y (off_r2 hoff hw)) _ _ _ 0 z (by
    rw [zero_add]; refine le_trans (mul_le_mul_of_nonneg_right ?_ e.le) (hn.trans (by norm_num)); linarith)
  rw [zero_add, zero_add, zero_add] at w
  have t := (up s5 (17 + 2 * m.wells.length) (by norm_num) (by linarith)).add (up w (17 + 2 * m.wells.length) (by positivity) (by linarith))
    ((mul_le_mul_of_nonneg_right (by linarith) e.le).trans (hn.trans (by norm_num)))
  rw [show (17 + 2 * (m.wells.length : ℝ) + 2) = 19 + 2 * m.wells.length by ring] at t
  rw [potential_eq]
  simp only [potentialTerms, exact, List.map_map, conic]
  have e1 : ∀ p q r : ℝ, |p| * (|q| * |r|) = |p * (q * r)| := fun p q r => by rw [abs_mul, abs_mul]
  have e2 : ∀ p q : ℝ, |p| * |q| = |p * q| := fun p q => (abs_mul _ _).symm
  simp only [e1, e2, ← pow_two] at t
  exact t

end Aquifer
end Oneka
