import Mathlib.Analysis.SpecialFunctions.Log.Deriv
import Mathlib.Analysis.Calculus.Deriv.Prod
import Mathlib.Analysis.Calculus.FDeriv.Prod
import Mathlib.Analysis.Calculus.FDeriv.Mul
import Mathlib.Analysis.Calculus.FDeriv.Pow
import Verif.Spec.Aquifer
import Verif.Tac

namespace Oneka
namespace Aquifer

theorem foldl_add_sum {α : Type} (f : α → ℝ) (l : List α) (a : ℝ) :
    l.foldl (fun s w => s + f w) a = a + (l.map f).sum := by
  induction l generalizing a with
  | nil => simp
  | cons w l ih => simp [ih, add_assoc]

theorem foldl_pair_sum {α : Type} (f g : α → ℝ) (l : List α) (a : ℝ × ℝ) :
    l.foldl (fun s w => (s.1 + f w, s.2 + g w)) a = (a.1 + (l.map f).sum, a.2 + (l.map g).sum) := by
  induction l generalizing a with
  | nil => simp
  | cons w l ih => simp [ih, add_assoc]

theorem sum_map_neg' {α : Type} (f : α → ℝ) (l : List α) : (l.map fun w => -f w).sum = -(l.map f).sum := by
  induction l with
  | nil => simp
  | cons w l ih => simp [ih]; ring

theorem potentialWells_eq (m : Aquifer ℝ) (x y : ℝ) :
    m.potentialWells x y = (m.wells.map fun w => w.qw * (fourPiInv : ℝ) * Real.log (w.r2 x y)).sum := by
  unfold potentialWells
  rw [foldl_add_sum (fun well : Well ℝ => well.qw * PyMath.log ((x - well.xw) * (x - well.xw) + (y - well.yw) * (y - well.yw))
    * PyMath.q fourPiInv)]
  simp only [PyMath.q_real, PyMath.log_real, Rat.cast_zero, zero_add, Well.r2]
  congr 1
  refine List.map_congr_left fun w _ => ?_
  rw [← pow_two, ← pow_two]
  ring

theorem potential_eq (m : Aquifer ℝ) (x y : ℝ) :
    m.potential x y = conic m.coef (x - m.xo) (y - m.yo) +
      (m.wells.map fun w => w.qw * (fourPiInv : ℝ) * Real.log (w.r2 x y)).sum := by
  unfold potential
  rw [potentialWells_eq]
  unfold conic
  ring

theorem discharge_eq (m : Aquifer ℝ) (x y : ℝ) :
    m.discharge x y =
      (-(2 * m.coef 0 * (x - m.xo) + m.coef 2 * (y - m.yo) + m.coef 3)
          + (m.wells.map fun w => -(w.qw * (twoPiInv : ℝ) * ((x - w.xw) / w.r2 x y))).sum,
       -(2 * m.coef 1 * (y - m.yo) + m.coef 2 * (x - m.xo) + m.coef 4)
          + (m.wells.map fun w => -(w.qw * (twoPiInv : ℝ) * ((y - w.yw) / w.r2 x y))).sum) := by
  unfold discharge
  rw [foldl_pair_sum
    (fun well : Well ℝ => (-well.qw) * (x - well.xw) / ((x - well.xw) * (x - well.xw) + (y - well.yw) * (y - well.yw)) * PyMath.q twoPiInv)
    (fun well : Well ℝ => (-well.qw) * (y - well.yw) / ((x - well.xw) * (x - well.xw) + (y - well.yw) * (y - well.yw)) * PyMath.q twoPiInv)]
  simp only [PyMath.q_real, Well.r2, Rat.cast_ofNat]
  ext
  · simp only [add_right_inj]
    congr 1
    refine List.map_congr_left fun w _ => ?_
    rw [← pow_two, ← pow_two]
    ring
  · simp only [add_right_inj]
    congr 1
    refine List.map_congr_left fun w _ => ?_
    rw [← pow_two, ← pow_two]
    ring

theorem r2_pos {w : Well ℝ} {x y : ℝ} (h : (x, y) ≠ (w.xw, w.yw)) : 0 < w.r2 x y := by
  unfold Well.r2
  by_cases hx : x = w.xw
  · have : y - w.yw ≠ 0 := fun hy => h (by rw [hx, sub_eq_zero.mp hy])
    positivity
  · have : x - w.xw ≠ 0 := sub_ne_zero.mpr hx
    positivity

theorem twoPiInv_eq : (twoPiInv : ℝ) = 2 * (fourPiInv : ℝ) := by unfold twoPiInv fourPiInv; norm_num

/-- The linear form `(a, b) ↦ p a + q b`. -/
noncomputable def form (p q : ℝ) : ℝ × ℝ →L[ℝ] ℝ := p • ContinuousLinearMap.fst ℝ ℝ ℝ + q • ContinuousLinearMap.snd ℝ ℝ ℝ

theorem form_add (p q p' q' : ℝ) : form p q + form p' q' = form (p + p') (q + q') := by
  unfold form; module

theorem form_smul (c p q : ℝ) : c • form p q = form (c * p) (c * q) := by
  unfold form; module

theorem hasFDerivAt_fst_sub (a x y : ℝ) : HasFDerivAt (fun p : ℝ × ℝ => p.1 - a) (form 1 0) (x, y) := by
  have : form 1 0 = ContinuousLinearMap.fst ℝ ℝ ℝ := by unfold form; module
  rw [this]
  exact hasFDerivAt_fst.sub_const a

theorem hasFDerivAt_snd_sub (a x y : ℝ) : HasFDerivAt (fun p : ℝ × ℝ => p.2 - a) (form 0 1) (x, y) := by
  have : form 0 1 = ContinuousLinearMap.snd ℝ ℝ ℝ := by unfold form; module
  rw [this]
  exact hasFDerivAt_snd.sub_const a

theorem hasFDerivAt_conic (c : Fin 6 → ℝ) (xo yo x y : ℝ) :
    HasFDerivAt (fun p : ℝ × ℝ => conic c (p.1 - xo) (p.2 - yo))
      (form (2 * c 0 * (x - xo) + c 2 * (y - yo) + c 3) (2 * c 1 * (y - yo) + c 2 * (x - xo) + c 4)) (x, y) := by
  have hu := hasFDerivAt_fst_sub xo x y
  have hv := hasFDerivAt_snd_sub yo x y
  have h := ((((((hu.pow 2).const_mul (c 0)).add ((hv.pow 2).const_mul (c 1))).add ((hu.const_mul (c 2)).mul hv)).add
    (hu.const_mul (c 3))).add (hv.const_mul (c 4))).add_const (c 5)
  refine (h.congr_fderiv ?_)
  simp only [form_smul, form_add, nsmul_eq_mul]
  ext <;> simp [form] <;> ring

theorem hasFDerivAt_log_r2 (w : Well ℝ) {x y : ℝ} (h : (x, y) ≠ (w.xw, w.yw)) :
    HasFDerivAt (fun p : ℝ × ℝ => Real.log (w.r2 p.1 p.2))
      (form (2 * ((x - w.xw) / w.r2 x y)) (2 * ((y - w.yw) / w.r2 x y))) (x, y) := by
  have hu := hasFDerivAt_fst_sub w.xw x y
  have hv := hasFDerivAt_snd_sub w.yw x y
  have h1 : HasFDerivAt (fun p : ℝ × ℝ => w.r2 p.1 p.2) (form (2 * (x - w.xw)) (2 * (y - w.yw))) (x, y) := by
    refine ((hu.pow 2).add (hv.pow 2)).congr_fderiv ?_
    ext <;> simp [form]
  refine (h1.log (r2_pos h).ne').congr_fderiv ?_
  ext <;> simp [form] <;> field_simp

theorem hasFDerivAt_sum {α : Type} (l : List α) (f : α → ℝ × ℝ → ℝ) (a b : α → ℝ) (p : ℝ × ℝ)
    (h : ∀ w ∈ l, HasFDerivAt (f w) (form (a w) (b w)) p) :
    HasFDerivAt (fun q => (l.map fun w => f w q).sum) (form (l.map a).sum (l.map b).sum) p := by
  induction l with
  | nil => simpa [form] using hasFDerivAt_const (0:ℝ) p
  | cons w l ih =>
    simp only [List.map_cons, List.sum_cons]
    rw [← form_add]
    exact (h w (by simp)).add (ih fun v hv => h v (by simp [hv]))

theorem potential_fderiv (m : Aquifer ℝ) {x y : ℝ} (h : m.OffWells x y) :
    HasFDerivAt (fun p : ℝ × ℝ => m.potential p.1 p.2) (form (-(m.discharge x y).1) (-(m.discharge x y).2)) (x, y) := by
  have h1 := hasFDerivAt_conic m.coef m.xo m.yo x y
  have h2 := hasFDerivAt_sum m.wells (fun w p => w.qw * (fourPiInv : ℝ) * Real.log (w.r2 p.1 p.2))
    (fun w => w.qw * (twoPiInv : ℝ) * ((x - w.xw) / w.r2 x y))
    (fun w => w.qw * (twoPiInv : ℝ) * ((y - w.yw) / w.r2 x y)) (x, y) (by
      intro w hw
      refine ((hasFDerivAt_log_r2 w (h w hw)).const_mul _).congr_fderiv ?_
      rw [form_smul, twoPiInv_eq]
      congr 1 <;> ring)
  have e : (fun p : ℝ × ℝ => m.potential p.1 p.2) = fun p : ℝ × ℝ => conic m.coef (p.1 - m.xo) (p.2 - m.yo) +
      (m.wells.map fun w => w.qw * (fourPiInv : ℝ) * Real.log (w.r2 p.1 p.2)).sum := by
    funext p; exact m.potential_eq p.1 p.2
  rw [e]
  refine (h1.add h2).congr_fderiv ?_
  rw [form_add, discharge_eq]
  rw [sum_map_neg', sum_map_neg']
  congr 1 <;> ring

theorem hasDerivAt_sum {α : Type} (l : List α) (f : α → ℝ → ℝ) (a : α → ℝ) (x : ℝ)
    (h : ∀ w ∈ l, HasDerivAt (f w) (a w) x) : HasDerivAt (fun q => (l.map fun w => f w q).sum) (l.map a).sum x := by
  induction l with
  | nil => simpa using hasDerivAt_const x (0:ℝ)
  | cons w l ih =>
    simp only [List.map_cons, List.sum_cons]
    exact (h w (by simp)).add (ih fun v hv => h v (by simp [hv]))

theorem r2_deriv_x (w : Well ℝ) (x y : ℝ) : HasDerivAt (fun s => w.r2 s y) (2 * (x - w.xw)) x := by
  unfold Well.r2
  have := (((hasDerivAt_id x).sub_const w.xw).pow 2).add_const ((y - w.yw) ^ 2)
  simpa using this

theorem r2_deriv_y (w : Well ℝ) (x y : ℝ) : HasDerivAt (fun s => w.r2 x s) (2 * (y - w.yw)) y := by
  unfold Well.r2
  have := (((hasDerivAt_id y).sub_const w.yw).pow 2).const_add ((x - w.xw) ^ 2)
  simpa using this

/-- The four partial derivatives of the discharge off the wells. -/
theorem discharge_partials (m : Aquifer ℝ) {x y : ℝ} (h : m.OffWells x y) :
    ∃ a b c : ℝ, HasDerivAt (fun s => (m.discharge s y).1) a x ∧ HasDerivAt (fun s => (m.discharge x s).1) b y ∧
      HasDerivAt (fun s => (m.discharge s y).2) b x ∧ HasDerivAt (fun s => (m.discharge x s).2) c y ∧
      a + c = -2 * (m.coef 0 + m.coef 1) := by
  refine ⟨-(2 * m.coef 0) + (m.wells.map fun w => -(w.qw * (twoPiInv : ℝ) *
      ((w.r2 x y - (x - w.xw) * (2 * (x - w.xw))) / (w.r2 x y) ^ 2))).sum,
    -(m.coef 2) + (m.wells.map fun w => -(w.qw * (twoPiInv : ℝ) *
      ((-2 * (x - w.xw) * (y - w.yw)) / (w.r2 x y) ^ 2))).sum,
    -(2 * m.coef 1) + (m.wells.map fun w => -(w.qw * (twoPiInv : ℝ) *
      ((w.r2 x y - (y - w.yw) * (2 * (y - w.yw))) / (w.r2 x y) ^ 2))).sum, ?_, ?_, ?_, ?_, ?_⟩
  · simp only [discharge_eq]
    refine HasDerivAt.add ?_ ?_
    · have := ((((hasDerivAt_id x).sub_const m.xo).const_mul (2 * m.coef 0)).add_const (m.coef 2 * (y - m.yo) + m.coef 3)).neg
      refine (this.congr_deriv (by simp)).congr_of_eventuallyEq (Filter.Eventually.of_forall fun s => ?_)
      simp only [Pi.neg_apply, id]; ring
    · refine hasDerivAt_sum _ _ _ _ fun w hw => ?_
      have := (((((hasDerivAt_id x).sub_const w.xw).div (r2_deriv_x w x y) (r2_pos (h w hw)).ne')).const_mul
        (w.qw * (twoPiInv : ℝ))).neg
      exact this.congr_deriv (by simp)
  · simp only [discharge_eq]
    refine HasDerivAt.add ?_ ?_
    · have := ((((hasDerivAt_id y).sub_const m.yo).const_mul (m.coef 2)).add_const (2 * m.coef 0 * (x - m.xo) + m.coef 3)).neg
      refine (this.congr_deriv (by simp)).congr_of_eventuallyEq (Filter.Eventually.of_forall fun s => ?_)
      simp only [Pi.neg_apply, id]; ring
    · refine hasDerivAt_sum _ _ _ _ fun w hw => ?_
      have := (((hasDerivAt_const y (x - w.xw)).div (r2_deriv_y w x y) (r2_pos (h w hw)).ne').const_mul
        (w.qw * (twoPiInv : ℝ))).neg
      exact this.congr_deriv (by ring)
  · simp only [discharge_eq]
    refine HasDerivAt.add ?_ ?_
    · have := ((((hasDerivAt_id x).sub_const m.xo).const_mul (m.coef 2)).add_const (2 * m.coef 1 * (y - m.yo) + m.coef 4)).neg
      refine (this.congr_deriv (by simp)).congr_of_eventuallyEq (Filter.Eventually.of_forall fun s => ?_)
      simp only [Pi.neg_apply, id]; ring
    · refine hasDerivAt_sum _ _ _ _ fun w hw => ?_
      have := (((hasDerivAt_const x (y - w.yw)).div (r2_deriv_x w x y) (r2_pos (h w hw)).ne').const_mul
        (w.qw * (twoPiInv : ℝ))).neg
      exact this.congr_deriv (by ring)
  · simp only [discharge_eq]
    refine HasDerivAt.add ?_ ?_
    · have := ((((hasDerivAt_id y).sub_const m.yo).const_mul (2 * m.coef 1)).add_const (m.coef 2 * (x - m.xo) + m.coef 4)).neg
      refine (this.congr_deriv (by simp)).congr_of_eventuallyEq (Filter.Eventually.of_forall fun s => ?_)
      simp only [Pi.neg_apply, id]; ring
    · refine hasDerivAt_sum _ _ _ _ fun w hw => ?_
      have := (((((hasDerivAt_id y).sub_const w.yw).div (r2_deriv_y w x y) (r2_pos (h w hw)).ne')).const_mul
        (w.qw * (twoPiInv : ℝ))).neg
      exact this.congr_deriv (by simp)
  · have key : ∀ l : List (Well ℝ), (∀ w ∈ l, (x, y) ≠ (w.xw, w.yw)) →
        (l.map fun w => -(w.qw * (twoPiInv : ℝ) * ((w.r2 x y - (x - w.xw) * (2 * (x - w.xw))) / (w.r2 x y) ^ 2))).sum +
        (l.map fun w => -(w.qw * (twoPiInv : ℝ) * ((w.r2 x y - (y - w.yw) * (2 * (y - w.yw))) / (w.r2 x y) ^ 2))).sum = 0 := by
      intro l
      induction l with
      | nil => simp
      | cons w l ih =>
        intro hl
        have := ih fun v hv => hl v (by simp [hv])
        have hr := r2_pos (hl w (by simp))
        have e : w.r2 x y = (x - w.xw) ^ 2 + (y - w.yw) ^ 2 := rfl
        simp only [List.map_cons, List.sum_cons]
        have : (w.r2 x y - (x - w.xw) * (2 * (x - w.xw))) / (w.r2 x y) ^ 2 + (w.r2 x y - (y - w.yw) * (2 * (y - w.yw))) / (w.r2 x y) ^ 2 = 0 := by
          rw [← add_div, div_eq_zero_iff]
          left
          rw [e]; ring
        linear_combination (-(w.qw * (twoPiInv : ℝ))) * this + ih fun v hv => hl v (by simp [hv])
    linear_combination key m.wells h

end Aquifer
end Oneka
