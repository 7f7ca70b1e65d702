import Verif.Spec.FlFit
import Verif.Lemmas.FlAquifer
import Verif.Lemmas.FlUtilities
import Verif.Lemmas.Stability

namespace Oneka
open Matrix

theorem Err.sub {c S T : ℝ} {x' y' : Fl} {x y : ℝ} (h : Err c S x'.val x) (g : Err c T y'.val y) (hc : c * eps ≤ 1/4) : Err (c + 2) (S + T) (x' - y').val (x - y) := by
  have := (h.plus g.neg).round hc
  rw [← sub_eq_add_neg, ← sub_eq_add_neg] at this
  have s0 := this.nonneg
  have e := eps_pos
  exact ⟨this.1.trans (mul_le_mul_of_nonneg_right (mul_le_mul_of_nonneg_right (by linarith) e.le) s0), this.2⟩

/-- the square of an inexact number -/
theorem err_square [LibObs] (hl : LibObs.Accurate) {x' : Fl} {x : ℝ} (h : Err (5/4) |x| x'.val x) : Err 6 |x ^ 2| (LibObs.square x').val (x ^ 2) := by
  have e := eps_pos
  have e' := eps_small
  have h1 := h.times h (by norm_num) ((Aquifer.ce (c := 5/4 * (5/4)) (by norm_num)).trans (by norm_num))
  rw [← abs_mul, ← pow_two, ← pow_two] at h1
  have h2 := (FlUtil.square_err hl x').1
  have h3 := h1.size
  have h4 := h1.1
  refine ⟨?_, le_rfl⟩
  have h5 := abs_sub_le (LibObs.square x').val (x'.val ^ 2) (x ^ 2)
  have h6 := mul_le_mul_of_nonneg_left h3 (by positivity : (0:ℝ) ≤ 2 * eps)
  have h7 := mul_nonneg e.le (abs_nonneg (x ^ 2))
  nlinarith

namespace Aquifer

variable [LibM] [LibObs]

theorem err_wells (hlog : LogAccurate) (m : Aquifer Fl) (x y : Fl) (hoff : m.exact.OffWells x.val y.val) (hn : (19 + 2 * (m.wells.length : ℝ)) * eps ≤ 1/8) :
    Err (15 + 2 * m.wells.length) (m.exact.wellTerms x.val y.val) (m.potentialWells x y).val (m.exact.potentialWells x.val y.val) := by
  have e := eps_pos
  have z : Err (15 + 2 * ((0:ℕ) : ℝ)) 0 (PyMath.q 0 : Fl).val 0 := by
    rw [q_val, Rat.cast_zero, round53_zero]
    exact ⟨by simp, by simp⟩
  have w := Err.sum (c := 15) (by norm_num) m.wells _ _ _ (fun w hw => err_log hlog w x y (off_r2 hoff hw)) _ _ _ 0 z (by
    rw [zero_add]; refine le_trans (mul_le_mul_of_nonneg_right ?_ e.le) (hn.trans (by norm_num)); linarith)
  rw [zero_add, zero_add, zero_add] at w
  rw [potentialWells_eq]
  simp only [wellTerms, exact, List.map_map]
  exact w

theorem expected_pos {K T h σ : ℝ} (hK : 0 < K) (hT : 0 < T) (hh : 0 < h) : 0 < expectedPotential K T h σ := by
  unfold expectedPotential potentialOfHead
  split_ifs with hc
  · positivity
  · have : 0 < h - T / 2 := by linarith
    positivity

omit [LibM] [LibObs] in
theorem std_pos {K T h σ : ℝ} (hK : 0 < K) (hT : 0 < T) (hh : 0 < h) (hσ : 0 < σ) : 0 < potentialStd K T h σ := by
  unfold potentialStd
  have : 0 < min h T := lt_min hh hT
  positivity

theorem flFosm_near (hl : LibObs.Accurate) (m : Aquifer Fl) (hK : 0 < m.exact.conductivity) (hT : 0 < m.exact.thickness) (o : FlObs) (hz : m.exact.base < o.exact.z) (hs : 0 < o.exact.std)
    (hc : m.exact.LevelClear o.exact) : ∃ ev sd, m.flFosm o = .ok (ev, sd) ∧
      Err 28 |expectedPotential m.exact.conductivity m.exact.thickness (o.exact.z - m.exact.base) o.exact.std| ev.val
        (expectedPotential m.exact.conductivity m.exact.thickness (o.exact.z - m.exact.base) o.exact.std) ∧
      Err 6 |potentialStd m.exact.conductivity m.exact.thickness (o.exact.z - m.exact.base) o.exact.std| sd.val
        (potentialStd m.exact.conductivity m.exact.thickness (o.exact.z - m.exact.base) o.exact.std) := by
  change 0 < m.conductivity.val at hK
  change 0 < m.thickness.val at hT
  change m.base.val < o.z.val at hz
  change 0 < o.std.val at hs
  change m.thickness.val ≤ o.z.val - m.base.val ∨ (1 + 2 ^ (-52 : ℤ)) * (o.z.val - m.base.val) < m.thickness.val at hc
  change ∃ ev sd, m.flFosm o = .ok (ev, sd) ∧ Err 28 |expectedPotential m.conductivity.val m.thickness.val (o.z.val - m.base.val) o.std.val| ev.val
      (expectedPotential m.conductivity.val m.thickness.val (o.z.val - m.base.val) o.std.val) ∧
    Err 6 |potentialStd m.conductivity.val m.thickness.val (o.z.val - m.base.val) o.std.val| sd.val (potentialStd m.conductivity.val m.thickness.val (o.z.val - m.base.val) o.std.val)
  set K := m.conductivity.val with hKd
  set T := m.thickness.val with hTd
  set h := o.z.val - m.base.val with hh
  set σ := o.std.val with hσ
  have h0 : 0 < h := by rw [hh]; linarith
  have e := eps_pos
  have e' := eps_small
  have hhead : Err (5/4) |h| (o.z - m.base).val h := err_sub o.z m.base
  have hval : (o.z - m.base).val = round53 h := rfl
  have hhalf : Err (5/4) |(1/2 : ℝ)| (PyMath.q (1/2) : Fl).val (1/2) := by
    have := err_q (1/2)
    push_cast at this
    exact this
  by_cases hcf : T ≤ h
  · have hb : m.thickness ≤ o.z - m.base := by
      change T ≤ (o.z - m.base).val
      have h1 : round53 T = T := m.thickness.isFloat
      rw [hval, ← h1]
      exact round53_mono hcf
    refine ⟨_, _, by simp only [flFosm, if_pos hb]; rfl, ?_, ?_⟩
    · have h1 := (Err.self K).mul (Err.self T) le_rfl (by norm_num) (by norm_num) (x' := m.conductivity) (y' := m.thickness)
      have h2 := hhalf.mul (Err.self T) (by norm_num) (by norm_num) (ce (by norm_num)) (y' := m.thickness)
      have h3 := (hhead.mono (by norm_num) (by norm_num : (5/4:ℝ) ≤ 5/4 + 0 + 2) le_rfl).sub h2 ((ce (by norm_num)).trans (by norm_num))
      have h4 := h1.mul h3 (by norm_num) ((ce (by norm_num)).trans (by norm_num)) (ce (by norm_num))
      have ev : expectedPotential K T h σ = K * T * (h - 1/2 * T) := by
        unfold expectedPotential potentialOfHead
        rw [if_neg (not_lt.mpr hcf), if_neg (not_lt.mpr hcf)]
        ring
      rw [ev]
      have hp : 0 < K * T * (h - 1/2 * T) := by
        have : 0 < h - 1/2 * T := by linarith
        positivity
      refine ⟨h4.1.trans ?_, le_rfl⟩
      rw [abs_of_pos hp, abs_of_pos hK, abs_of_pos hT, abs_of_pos h0, abs_of_pos (by norm_num : (0:ℝ) < 1/2)]
      have h5 : K * T * (h + 1/2 * T) ≤ 3 * (K * T * (h - 1/2 * T)) := by
        have := mul_le_mul_of_nonneg_left (by linarith : h + 1/2 * T ≤ 3 * (h - 1/2 * T)) (by positivity : 0 ≤ K * T)
        linarith
      have h6 := mul_le_mul_of_nonneg_left h5 e.le
      have h7 := mul_nonneg e.le hp.le
      nlinarith
    · have h1 := (Err.self K).mul (Err.self T) le_rfl (by norm_num) (by norm_num) (x' := m.conductivity) (y' := m.thickness)
      have h2 := h1.mul (Err.self σ) (by norm_num) (by norm_num) (ce (by norm_num)) (y' := o.std)
      have sd : potentialStd K T h σ = K * T * σ := by unfold potentialStd; rw [min_eq_right hcf]
      rw [sd]
      rw [← abs_mul, ← abs_mul] at h2
      exact h2.mono (by norm_num) (by norm_num) le_rfl
  · push Not at hcf
    have hlt : (1 + 2 ^ (-52 : ℤ)) * h < T := hc.resolve_left (not_le.mpr hcf)
    have hb : ¬ m.thickness ≤ o.z - m.base := by
      change ¬ T ≤ (o.z - m.base).val
      have h1 : |round53 h - h| ≤ eps * |h| := round53_accurate h
      rw [abs_of_pos h0] at h1
      have h2 := (abs_le.mp h1).2
      have e2 : (2:ℝ) ^ (-52 : ℤ) = 2 * eps := by unfold eps; norm_num [_root_.zpow_neg]
      rw [e2] at hlt
      rw [hval, not_le]
      nlinarith
    have hp : 0 < (o.z - m.base).val := by
      have h1 : |round53 h - h| ≤ eps * |h| := round53_accurate h
      rw [abs_of_pos h0] at h1
      have h2 := (abs_le.mp h1).1
      rw [hval]
      nlinarith
    refine ⟨_, _, by simp only [flFosm, if_neg hb, if_pos hp]; rfl, ?_, ?_⟩
    · have h1 := hhalf.mul (Err.self K) (by norm_num) (by norm_num) (ce (by norm_num)) (y' := m.conductivity)
      have h2 := (err_square hl hhead).add ((FlUtil.square_err hl o.std).mono (by norm_num) (by norm_num : (2:ℝ) ≤ 6) le_rfl) ((ce (by norm_num)).trans (by norm_num))
      have h3 := h1.mul h2 (by norm_num) ((ce (by norm_num)).trans (by norm_num)) (ce (by norm_num))
      have ev : expectedPotential K T h σ = 1/2 * K * (h ^ 2 + σ ^ 2) := by
        unfold expectedPotential potentialOfHead
        rw [if_pos hcf, if_pos hcf]
        ring
      rw [ev]
      rw [abs_of_pos (by positivity : 0 < 1/2 * K * (h ^ 2 + σ ^ 2))]
      rw [abs_of_pos hK, abs_of_pos (by norm_num : (0:ℝ) < 1/2), abs_of_pos (by positivity : 0 < h ^ 2), abs_of_pos (by positivity : 0 < o.std.val ^ 2)] at h3
      exact h3.mono (by norm_num) (by norm_num) le_rfl
    · have h1 := (Err.self K).mul hhead le_rfl (by norm_num) (ce (by norm_num)) (x' := m.conductivity)
      have h2 := h1.mul (Err.self σ) (by norm_num) (by norm_num) (ce (by norm_num)) (y' := o.std)
      have sd : potentialStd K T h σ = K * h * σ := by unfold potentialStd; rw [min_eq_left hcf.le]
      rw [sd]
      rw [← abs_mul, ← abs_mul] at h2
      exact h2.mono (by norm_num) (by norm_num) le_rfl

theorem flRow_near (hlog : LogAccurate) (hl : LibObs.Accurate) (m : Aquifer Fl) (hK : 0 < m.exact.conductivity) (hT : 0 < m.exact.thickness) (xo yo : Fl) (o : FlObs)
    (hz : m.exact.base < o.exact.z) (hs : 0 < o.exact.std) (hoff : m.exact.OffWells o.exact.x o.exact.y) (hc : m.exact.LevelClear o.exact) (hn : (36 + 2 * (m.wells.length : ℝ)) * eps ≤ 1/8) :
    ∃ r, m.flFitRow xo yo o = .ok r ∧ (∀ i, Err 16 |(m.exact.rowOf xo.val yo.val o.exact).1 i| (r.1 i).val ((m.exact.rowOf xo.val yo.val o.exact).1 i)) ∧
      Err (44 + 3 * m.wells.length) ((expectedPotential m.exact.conductivity m.exact.thickness (o.exact.z - m.exact.base) o.exact.std + m.exact.wellTerms o.exact.x o.exact.y) /
        potentialStd m.exact.conductivity m.exact.thickness (o.exact.z - m.exact.base) o.exact.std) r.2.val (m.exact.rowOf xo.val yo.val o.exact).2 := by
  obtain ⟨ev, sd, hf, hev, hsd⟩ := flFosm_near hl m hK hT o hz hs hc
  have e := eps_pos
  have e' := eps_small
  have n0 : (0:ℝ) ≤ m.wells.length := by positivity
  have hS : 0 < potentialStd m.exact.conductivity m.exact.thickness (o.exact.z - m.exact.base) o.exact.std := std_pos hK hT (by linarith) hs
  have hE : 0 < expectedPotential m.exact.conductivity m.exact.thickness (o.exact.z - m.exact.base) o.exact.std := expected_pos hK hT (by linarith)
  set S := potentialStd m.exact.conductivity m.exact.thickness (o.exact.z - m.exact.base) o.exact.std with hSd
  set E := expectedPotential m.exact.conductivity m.exact.thickness (o.exact.z - m.exact.base) o.exact.std with hEd
  have hsd0 : sd.val ≠ 0 := by
    have h1 := hsd.1
    rw [abs_of_pos hS] at h1
    have h2 := (abs_le.mp h1).1
    intro h0
    rw [h0] at h2
    nlinarith
  refine ⟨_, by simp only [flFitRow, hf, hsd0, decide_false, Bool.and_false, Bool.false_eq_true, if_false]; rfl, fun i => ?_, ?_⟩
  · have hdx := err_sub o.x xo
    have hdy := err_sub o.y yo
    have k : ∀ (a : Fl) (p : ℝ), Err 6 |p| a.val p → Err 16 |p / S| (a / sd).val (p / S) := by
      intro a p hp
      have := hp.div hsd (by norm_num) (by norm_num) hS.ne' (ce (by norm_num))
      rw [← abs_div] at this
      exact this.mono (by norm_num) (by norm_num) le_rfl
    have up := fun {k S x' z : ℝ} (h : Err k S x' z) (h0 : 0 ≤ k) (hd : k ≤ 6) => h.mono h0 hd le_rfl
    change Err 16 |mono (o.x.val - xo.val) (o.y.val - yo.val) i / S| _ (mono (o.x.val - xo.val) (o.y.val - yo.val) i / S)
    refine k _ _ ?_
    fin_cases i
    · exact err_square hl hdx
    · exact err_square hl hdy
    · have := hdx.mul hdy (by norm_num) ((ce (c := 5/4 * (5/4)) (by norm_num)).trans (by norm_num)) (ce (by norm_num))
      rw [← abs_mul] at this
      exact up this (by norm_num) (by norm_num)
    · exact up hdx (by norm_num) (by norm_num)
    · exact up hdy (by norm_num) (by norm_num)
    · have h1 : (((1 : ℕ) : Fl)).val = 1 := by
        change round53 ((1 : ℕ) : ℝ) = 1
        simpa using round53_zpow 0
      have h2 := Err.self (((1 : ℕ) : Fl)).val
      rw [h1] at h2
      have h3 : Err 6 |(1:ℝ)| (((1 : ℕ) : Fl)).val 1 := by
        rw [h1]
        exact up h2 le_rfl (by norm_num)
      exact h3
  · have hw := err_wells hlog m o.x o.y hoff ((mul_le_mul_of_nonneg_right (by linarith) e.le).trans hn)
    have h1 := (hev.mono (by norm_num) (by linarith : (28:ℝ) ≤ 28 + 2 * m.wells.length) le_rfl).sub (hw.mono (by positivity) (by linarith) le_rfl) 
      ((mul_le_mul_of_nonneg_right (by linarith : (28:ℝ) + 2 * m.wells.length ≤ 36 + 2 * m.wells.length) e.le).trans (hn.trans (by norm_num)))
    have h2 := h1.div hsd (by positivity) (by norm_num) hS.ne' ((mul_le_mul_of_nonneg_right (by linarith) e.le).trans hn)
    rw [abs_of_pos hS, abs_of_pos hE] at h2
    exact h2.mono (by positivity) (by linarith) le_rfl

/-! ### rows -/

theorem flConstruct_ok (m : Aquifer Fl) (xo yo : Fl) (row : FlObs → (Fin 6 → Fl) × Fl) (obs : List FlObs) (h : ∀ o ∈ obs, m.flFitRow xo yo o = .ok (row o)) :
    m.flConstructFit xo yo obs = .ok (obs.map row) := by
  induction obs with
  | nil => rfl
  | cons o os ih =>
    unfold flConstructFit
    rw [h o (by simp), ih fun p hp => h p (by simp [hp])]
    rfl

theorem flConstruct_err (m : Aquifer Fl) (xo yo : Fl) (obs : List FlObs) (h : ∀ o ∈ obs, (∃ r, m.flFitRow xo yo o = .ok r) ∨ m.flFitRow xo yo o = .error .rangeError)
    (h' : ∃ o ∈ obs, m.flFitRow xo yo o = .error .rangeError) : m.flConstructFit xo yo obs = .error .rangeError := by
  induction obs with
  | nil => obtain ⟨o, ho, -⟩ := h'; simp at ho
  | cons o os ih =>
    unfold flConstructFit
    rcases h o (by simp) with ⟨r, hr⟩ | hr
    · rw [hr]
      obtain ⟨p, hp, hz⟩ := h'
      rw [ih (fun q hq => h q (by simp [hq])) ⟨p, by
        rcases List.mem_cons.mp hp with rfl | hp
        · rw [hr] at hz; simp at hz
        · exact hp, hz⟩]
    · rw [hr]

/-! ### perturbed least squares -/

omit [LibM] [LibObs] in
/-- `u` is the effect of a change of the coefficients, `u'` the same with perturbed rows, `r` the residual of the exact fit, `e` its perturbation. -/
theorem perturbed {H : Type} [NormedAddCommGroup H] [InnerProductSpace ℝ H] {u u' r e : H} {θ τ η : ℝ} (hθ : 0 ≤ θ) (hθ1 : θ ≤ 1/8) (hη : 0 ≤ η) (horth : inner ℝ u r = 0)
    (hu : ‖u' - u‖ ≤ θ * ‖u‖) (he : ‖e‖ ≤ τ) (hmin : ‖u' - (r + e)‖ ^ 2 ≤ ‖r + e‖ ^ 2 + η ^ 2) : ‖u‖ ≤ 8/7 * η + 3 * θ * ‖r‖ + 3 * τ := by
  have h1 : ‖u' - (r + e)‖ ^ 2 = ‖u'‖ ^ 2 - 2 * inner ℝ u' (r + e) + ‖r + e‖ ^ 2 := norm_sub_sq_real _ _
  have h2 : inner ℝ u' (r + e) = inner ℝ (u' - u) r + inner ℝ u' e := by
    rw [inner_add_right, inner_sub_left, horth, sub_zero]
  have h3 : inner ℝ (u' - u) r ≤ θ * ‖u‖ * ‖r‖ := (real_inner_le_norm _ _).trans (mul_le_mul_of_nonneg_right hu (norm_nonneg _))
  have h4 : inner ℝ u' e ≤ ‖u'‖ * τ := (real_inner_le_norm _ _).trans (mul_le_mul_of_nonneg_left he (norm_nonneg _))
  have h5 : ‖u‖ ≤ 8/7 * ‖u'‖ := by
    have := norm_sub_norm_le u u'
    rw [norm_sub_rev] at this
    have := mul_le_mul_of_nonneg_right hθ1 (norm_nonneg u)
    linarith
  have hr := norm_nonneg r
  have hu' := norm_nonneg u'
  have ht : 0 ≤ τ := (norm_nonneg _).trans he
  have h6 : θ * ‖u‖ * ‖r‖ ≤ 8/7 * θ * ‖r‖ * ‖u'‖ := by
    have := mul_le_mul_of_nonneg_left h5 (mul_nonneg hθ hr)
    linarith
  have h7 : ‖u'‖ ^ 2 ≤ 2 * (8/7 * θ * ‖r‖ + τ) * ‖u'‖ + η ^ 2 := by nlinarith
  have ha : 0 ≤ 8/7 * θ * ‖r‖ + τ := by positivity
  have h8 : ‖u'‖ ≤ 2 * (8/7 * θ * ‖r‖ + τ) + η := by
    by_contra hlt
    push Not at hlt
    nlinarith
  have := mul_nonneg hθ hr
  linarith

/-- a function on the list as a vector -/
noncomputable def vec {α : Type} (l : List α) (f : α → ℝ) : EuclideanSpace ℝ (Fin l.length) := WithLp.toLp 2 fun i => f l[i]

omit [LibM] [LibObs] in
theorem vec_sub {α : Type} (l : List α) (f g : α → ℝ) : vec l f - vec l g = vec l fun a => f a - g a := rfl

omit [LibM] [LibObs] in
theorem vec_add {α : Type} (l : List α) (f g : α → ℝ) : vec l f + vec l g = vec l fun a => f a + g a := rfl

omit [LibM] [LibObs] in
theorem vec_inner {α : Type} (l : List α) (f g : α → ℝ) : inner ℝ (vec l f) (vec l g) = (l.map fun a => f a * g a).sum := by
  rw [← Fin.sum_univ_fun_getElem]
  simp only [vec, PiLp.inner_apply, RCLike.inner_apply, conj_trivial]
  exact Finset.sum_congr rfl fun i _ => mul_comm _ _

omit [LibM] [LibObs] in
theorem vec_norm_sq {α : Type} (l : List α) (f : α → ℝ) : ‖vec l f‖ ^ 2 = (l.map fun a => f a ^ 2).sum := by
  rw [← real_inner_self_eq_norm_sq, vec_inner]
  simp only [pow_two]

omit [LibM] [LibObs] in
theorem vec_norm {α : Type} (l : List α) (f : α → ℝ) : ‖vec l f‖ = √(l.map fun a => f a ^ 2).sum := by
  rw [← vec_norm_sq, Real.sqrt_sq (norm_nonneg _)]

omit [LibM] [LibObs] in
theorem vec_mono {α : Type} (l : List α) (f g : α → ℝ) (h : ∀ a ∈ l, |f a| ≤ g a) : ‖vec l f‖ ≤ ‖vec l g‖ := by
  rw [vec_norm, vec_norm]
  refine Real.sqrt_le_sqrt (List.sum_le_sum fun a ha => ?_)
  exact sq_le_sq' (by linarith [(abs_le.mp (h a ha)).1]) (abs_le.mp (h a ha)).2

omit [LibM] [LibObs] in
theorem vec_smul {α : Type} (l : List α) (c : ℝ) (hc : 0 ≤ c) (f : α → ℝ) : ‖vec l fun a => c * f a‖ = c * ‖vec l f‖ := by
  have : (vec l fun a => c * f a) = c • vec l f := rfl
  rw [this, norm_smul, Real.norm_eq_abs, abs_of_nonneg hc]

/-! ### the fit -/

omit [LibM] [LibObs] in
theorem mul_ne {a b : Fl} (ha : a.val ≠ 0) (hb : b.val ≠ 0) : (a * b).val ≠ 0 := by
  have h1 : |round53 (a.val * b.val) - a.val * b.val| ≤ eps * |a.val * b.val| := round53_accurate _
  have h2 : 0 < |a.val * b.val| := abs_pos.mpr (mul_ne_zero ha hb)
  intro h0
  have h3 : round53 (a.val * b.val) = 0 := h0
  rw [h3, zero_sub, abs_neg] at h1
  have := eps_small
  nlinarith

theorem flFitRow_returns (m : Aquifer Fl) (hK : 0 < m.conductivity.val) (hT : 0 < m.thickness.val) (xo yo : Fl) (o : FlObs) (hz : m.base.val < o.z.val) (hs : 0 < o.std.val) :
    ∃ r, m.flFitRow xo yo o = .ok r := by
  have hp : 0 < (o.z - m.base).val := by
    have h0 : 0 < o.z.val - m.base.val := by linarith
    have h1 : |round53 (o.z.val - m.base.val) - (o.z.val - m.base.val)| ≤ eps * |o.z.val - m.base.val| := round53_accurate _
    rw [abs_of_pos h0] at h1
    have h2 := (abs_le.mp h1).1
    have := eps_small
    change 0 < round53 (o.z.val - m.base.val)
    nlinarith
  have : ∃ ev sd, m.flFosm o = .ok (ev, sd) ∧ sd.val ≠ 0 := by
    by_cases hb : m.thickness ≤ o.z - m.base
    · exact ⟨_, _, by simp only [flFosm, if_pos hb]; rfl, mul_ne (mul_ne hK.ne' hT.ne') hs.ne'⟩
    · exact ⟨_, _, by simp only [flFosm, if_neg hb, if_pos hp]; rfl, mul_ne (mul_ne hK.ne' hp.ne') hs.ne'⟩
  obtain ⟨ev, sd, hf, hsd⟩ := this
  exact ⟨_, by simp only [flFitRow, hf, hsd, decide_false, Bool.and_false, Bool.false_eq_true, if_false]; rfl⟩

/-- all rows -/
theorem flRows (hlog : LogAccurate) (hl : LibObs.Accurate) (m : Aquifer Fl) (hK : 0 < m.conductivity.val) (hT : 0 < m.thickness.val) (hn : m.wells.length ≤ 2 ^ 40) (obs : List FlObs) (xo yo : Fl)
    (hu : m.exact.Usable (obs.map FlObs.exact)) (hc : ∀ o ∈ obs, m.exact.LevelClear o.exact) :
    ∃ row : FlObs → (Fin 6 → Fl) × Fl, (∀ o ∈ obs, m.flFitRow xo yo o = .ok (row o)) ∧ ∀ o ∈ obs,
      (∀ i, Err 16 |(m.exact.rowOf xo.val yo.val o.exact).1 i| ((row o).1 i).val ((m.exact.rowOf xo.val yo.val o.exact).1 i)) ∧
      Err (44 + 3 * m.wells.length) ((expectedPotential m.exact.conductivity m.exact.thickness (o.exact.z - m.exact.base) o.exact.std + m.exact.wellTerms o.exact.x o.exact.y) /
        potentialStd m.exact.conductivity m.exact.thickness (o.exact.z - m.exact.base) o.exact.std) (row o).2.val (m.exact.rowOf xo.val yo.val o.exact).2 := by
  have n : (m.wells.length : ℝ) ≤ 2 ^ 40 := by exact_mod_cast hn
  have hn' : (36 + 2 * (m.wells.length : ℝ)) * eps ≤ 1/8 := by
    unfold eps
    refine (mul_le_mul_of_nonneg_right (by linarith : 36 + 2 * (m.wells.length : ℝ) ≤ 36 + 2 * 2 ^ 40) (by positivity)).trans ?_
    norm_num [_root_.zpow_neg]
  have : ∀ o ∈ obs, ∃ r, m.flFitRow xo yo o = .ok r ∧ (∀ i, Err 16 |(m.exact.rowOf xo.val yo.val o.exact).1 i| (r.1 i).val ((m.exact.rowOf xo.val yo.val o.exact).1 i)) ∧
      Err (44 + 3 * m.wells.length) ((expectedPotential m.exact.conductivity m.exact.thickness (o.exact.z - m.exact.base) o.exact.std + m.exact.wellTerms o.exact.x o.exact.y) /
        potentialStd m.exact.conductivity m.exact.thickness (o.exact.z - m.exact.base) o.exact.std) r.2.val (m.exact.rowOf xo.val yo.val o.exact).2 := by
    intro o ho
    obtain ⟨hz, hs, hoff⟩ := hu o.exact (List.mem_map.mpr ⟨o, ho, rfl⟩)
    exact flRow_near hlog hl m hK hT xo yo o hz hs hoff (hc o ho) hn'
  choose! row h1 h2 h3 using this
  exact ⟨row, h1, fun o ho => ⟨h2 o ho, h3 o ho⟩⟩

theorem flFit_within {la : FlLinAlg} {η : List ((Fin 6 → Fl) × Fl) → ℝ} (hla : la.Within η) {m m' : Aquifer Fl} {obs : List FlObs} {xo yo : Fl} {rows : List ((Fin 6 → Fl) × Fl)}
    (hr : m.flConstructFit xo yo obs = .ok rows) {c' : Fin 6 → Fl} {V' : Matrix (Fin 6) (Fin 6) Fl} (hf : m.flFitRegionalFlow la obs xo yo = (m', .ok (c', V'))) :
    m' = { m with xo := xo, yo := yo, coef := c' } ∧
    ∀ c : Fin 6 → ℝ, (rows.map fun r => (∑ i, (r.1 i).val * (c' i).val - r.2.val) ^ 2).sum ≤ (rows.map fun r => (∑ i, (r.1 i).val * c i - r.2.val) ^ 2).sum + η rows ^ 2 := by
  unfold flFitRegionalFlow at hf
  rw [hr] at hf
  cases hl : la.lstsq rows with
  | error e => simp only [hl, Prod.mk.injEq, reduceCtorEq, and_false] at hf
  | ok c =>
    cases hi : la.inv (la.normal (rows.map Prod.fst)) with
    | error e => simp only [hl, hi, Prod.mk.injEq, reduceCtorEq, and_false] at hf
    | ok B =>
      simp only [hl, hi, Prod.mk.injEq, Except.ok.injEq] at hf
      obtain ⟨rfl, rfl, rfl⟩ := hf
      exact ⟨rfl, hla rows _ hl⟩

omit [LibM] [LibObs] in
theorem row_value (m : Aquifer ℝ) (xo yo : ℝ) (o : Obs) (d : Fin 6 → ℝ) :
    ∑ i, (m.rowOf xo yo o).1 i * d i = conic d (o.x - xo) (o.y - yo) / potentialStd m.conductivity m.thickness (o.z - m.base) o.std := by
  rw [← conic_mono, Finset.sum_div]
  exact Finset.sum_congr rfl fun i _ => by simp only [rowOf]; ring

omit [LibM] [LibObs] in
theorem row_terms (m : Aquifer ℝ) (xo yo : ℝ) (o : Obs) (hS : 0 < potentialStd m.conductivity m.thickness (o.z - m.base) o.std) (d : Fin 6 → ℝ) :
    ∑ i, |(m.rowOf xo yo o).1 i| * |d i| = conicTerms d (o.x - xo) (o.y - yo) / potentialStd m.conductivity m.thickness (o.z - m.base) o.std := by
  have h : ∀ i, |(m.rowOf xo yo o).1 i| * |d i| = |d i * mono (o.x - xo) (o.y - yo) i| / potentialStd m.conductivity m.thickness (o.z - m.base) o.std := by
    intro i
    simp only [rowOf]
    rw [abs_div, abs_of_pos hS, abs_mul]
    ring
  simp only [h]
  rw [← Finset.sum_div]
  congr 1
  rw [Fin.sum_univ_six]
  have e0 : mono (o.x - xo) (o.y - yo) 0 = (o.x - xo) ^ 2 := rfl
  have e1 : mono (o.x - xo) (o.y - yo) 1 = (o.y - yo) ^ 2 := rfl
  have e2 : mono (o.x - xo) (o.y - yo) 2 = (o.x - xo) * (o.y - yo) := rfl
  have e3 : mono (o.x - xo) (o.y - yo) 3 = o.x - xo := rfl
  have e4 : mono (o.x - xo) (o.y - yo) 4 = o.y - yo := rfl
  have e5 : mono (o.x - xo) (o.y - yo) 5 = 1 := rfl
  rw [e0, e1, e2, e3, e4, e5, mul_one, ← mul_assoc]
  rfl

omit [LibM] [LibObs] in
/-- how far the fitted flow is off, at the observations -/
theorem flFit_close (m : Aquifer Fl) (hK : 0 < m.exact.conductivity) (hT : 0 < m.exact.thickness) (obs : List FlObs) (xo yo : Fl) (hu : m.exact.Usable (obs.map FlObs.exact)) (κ : ℝ) (hκ0 : 0 ≤ κ)
    (hκ : m.exact.Determined (obs.map FlObs.exact) xo.val yo.val κ) (hκ1 : κ ≤ 2 ^ 46) (row : FlObs → (Fin 6 → Fl) × Fl)
    (h2 : ∀ o ∈ obs, (∀ i, Err 16 |(m.exact.rowOf xo.val yo.val o.exact).1 i| ((row o).1 i).val ((m.exact.rowOf xo.val yo.val o.exact).1 i)) ∧
      Err (44 + 3 * m.wells.length) ((expectedPotential m.exact.conductivity m.exact.thickness (o.exact.z - m.exact.base) o.exact.std + m.exact.wellTerms o.exact.x o.exact.y) /
        potentialStd m.exact.conductivity m.exact.thickness (o.exact.z - m.exact.base) o.exact.std) (row o).2.val (m.exact.rowOf xo.val yo.val o.exact).2) {η : ℝ} (hη : 0 ≤ η) (c' c : Fin 6 → ℝ)
    (hex : ∀ d : Fin 6 → ℝ, misfit m.exact (obs.map FlObs.exact) ({ m.exact with xo := xo.val, yo := yo.val, coef := d } : Aquifer ℝ).potential =
      misfit m.exact (obs.map FlObs.exact) ({ m.exact with xo := xo.val, yo := yo.val, coef := c } : Aquifer ℝ).potential +
        (d - c) ⬝ᵥ (gram (((obs.map FlObs.exact).map (m.exact.rowOf xo.val yo.val)).map Prod.fst) *ᵥ (d - c)))
    (hnear : ((obs.map row).map fun r => (∑ i, (r.1 i).val * c' i - r.2.val) ^ 2).sum ≤ ((obs.map row).map fun r => (∑ i, (r.1 i).val * c i - r.2.val) ^ 2).sum + η ^ 2) :
    ‖vec obs fun o => ∑ i, (m.exact.rowOf xo.val yo.val o.exact).1 i * (c' - c) i‖ ≤
      8/7 * η + 2 ^ (-53 : ℤ) * (48 * κ * √(misfit m.exact (obs.map FlObs.exact) ({ m.exact with xo := xo.val, yo := yo.val, coef := c } : Aquifer ℝ).potential) +
        (132 + 9 * m.wells.length) * m.exact.residualTerms (obs.map FlObs.exact) xo.val yo.val c) := by
  have e := eps_pos
  set R : FlObs → (Fin 6 → ℝ) × ℝ := fun o => m.exact.rowOf xo.val yo.val o.exact with hR
  set u : FlObs → ℝ := fun o => ∑ i, (R o).1 i * (c' - c) i with hu_
  set u' : FlObs → ℝ := fun o => ∑ i, ((row o).1 i).val * (c' - c) i with hu'_
  set r : FlObs → ℝ := fun o => (R o).2 - ∑ i, (R o).1 i * c i with hr_
  set w : FlObs → ℝ := fun o => ((row o).2.val - (R o).2) - ∑ i, (((row o).1 i).val - (R o).1 i) * c i with hw_
  have hS : ∀ o ∈ obs, 0 < potentialStd m.exact.conductivity m.exact.thickness (o.exact.z - m.exact.base) o.exact.std := by
    intro o ho
    obtain ⟨hz, hs, -⟩ := hu o.exact (List.mem_map.mpr ⟨o, ho, rfl⟩)
    exact std_pos hK hT (by linarith) hs
  have hmis : ∀ d : Fin 6 → ℝ, misfit m.exact (obs.map FlObs.exact) ({ m.exact with xo := xo.val, yo := yo.val, coef := d } : Aquifer ℝ).potential = (obs.map fun o => (∑ i, (R o).1 i * d i - (R o).2) ^ 2).sum := by
    intro d
    rw [misfit_coef, List.map_map, List.map_map]
    rfl
  have hrn : ‖vec obs r‖ = √(misfit m.exact (obs.map FlObs.exact) ({ m.exact with xo := xo.val, yo := yo.val, coef := c } : Aquifer ℝ).potential) := by
    rw [hmis, vec_norm]
    congr 2
    exact List.map_congr_left fun o _ => by simp only [hr_]; ring
  have horth : inner ℝ (vec obs u) (vec obs r) = 0 := by
    have h1 := hex c'
    rw [hmis, hmis, normal_quad, List.map_map, List.map_map, List.map_map] at h1
    have h2 : ‖vec obs u - vec obs r‖ ^ 2 = ‖vec obs r‖ ^ 2 + ‖vec obs u‖ ^ 2 := by
      rw [vec_sub, vec_norm_sq, vec_norm_sq, vec_norm_sq]
      have a1 : (obs.map fun o => (u o - r o) ^ 2) = obs.map fun o => (∑ i, (R o).1 i * c' i - (R o).2) ^ 2 := by
        refine List.map_congr_left fun o _ => ?_
        have : ∑ i, (R o).1 i * (c' - c) i = ∑ i, (R o).1 i * c' i - ∑ i, (R o).1 i * c i := by
          rw [← Finset.sum_sub_distrib]
          exact Finset.sum_congr rfl fun i _ => by simp only [Pi.sub_apply]; ring
        simp only [hu_, hr_, this]
        ring
      have a2 : (obs.map fun o => (r o) ^ 2) = obs.map fun o => (∑ i, (R o).1 i * c i - (R o).2) ^ 2 := List.map_congr_left fun o _ => by simp only [hr_]; ring
      rw [a1, a2, h1]
      rfl
    rw [norm_sub_sq_real] at h2
    linarith
  have hup : ‖vec obs u' - vec obs u‖ ≤ 16 * eps * κ * ‖vec obs u‖ := by
    rw [vec_sub]
    refine (vec_mono obs _ (fun o => 16 * eps * (conicTerms (c' - c) (o.exact.x - xo.val) (o.exact.y - yo.val) /
      potentialStd m.exact.conductivity m.exact.thickness (o.exact.z - m.exact.base) o.exact.std)) fun o ho => ?_).trans ?_
    · have hs := hS o ho
      rw [← row_terms m.exact xo.val yo.val o.exact hs, Finset.mul_sum]
      simp only [hu_, hu'_]
      rw [← Finset.sum_sub_distrib]
      refine (Finset.abs_sum_le_sum_abs _ _).trans (Finset.sum_le_sum fun i _ => ?_)
      rw [← sub_mul, abs_mul, ← mul_assoc]
      exact mul_le_mul_of_nonneg_right ((h2 o ho).1 i).1 (abs_nonneg _)
    · rw [vec_smul _ _ (by positivity)]
      have := hκ (c' - c)
      rw [List.map_map, List.map_map] at this
      have a1 : ‖vec obs fun o => conicTerms (c' - c) (o.exact.x - xo.val) (o.exact.y - yo.val) / potentialStd m.exact.conductivity m.exact.thickness (o.exact.z - m.exact.base) o.exact.std‖ ≤
          κ * ‖vec obs u‖ := by
        rw [vec_norm, vec_norm]
        refine this.trans (le_of_eq ?_)
        congr 3
        refine List.map_congr_left fun o _ => ?_
        simp only [hu_, hR, Function.comp, row_value]
      have := mul_le_mul_of_nonneg_left a1 (by positivity : 0 ≤ 16 * eps)
      linarith
  have hwn : ‖vec obs w‖ ≤ (44 + 3 * m.wells.length) * eps * m.exact.residualTerms (obs.map FlObs.exact) xo.val yo.val c := by
    have a1 : m.exact.residualTerms (obs.map FlObs.exact) xo.val yo.val c = ‖vec obs fun o => (conicTerms c (o.exact.x - xo.val) (o.exact.y - yo.val) +
        expectedPotential m.exact.conductivity m.exact.thickness (o.exact.z - m.exact.base) o.exact.std + m.exact.wellTerms o.exact.x o.exact.y) /
          potentialStd m.exact.conductivity m.exact.thickness (o.exact.z - m.exact.base) o.exact.std‖ := by
      unfold residualTerms
      rw [vec_norm, List.map_map]
      rfl
    rw [a1, ← vec_smul _ _ (by positivity)]
    refine vec_mono obs _ _ fun o ho => ?_
    have hs := hS o ho
    have b1 := (h2 o ho).2.1
    have b2 : |∑ i, (((row o).1 i).val - (R o).1 i) * c i| ≤ 16 * eps * (conicTerms c (o.exact.x - xo.val) (o.exact.y - yo.val) /
        potentialStd m.exact.conductivity m.exact.thickness (o.exact.z - m.exact.base) o.exact.std) := by
      rw [← row_terms m.exact xo.val yo.val o.exact hs, Finset.mul_sum]
      refine (Finset.abs_sum_le_sum_abs _ _).trans (Finset.sum_le_sum fun i _ => ?_)
      rw [abs_mul, ← mul_assoc]
      exact mul_le_mul_of_nonneg_right ((h2 o ho).1 i).1 (abs_nonneg _)
    have b3 : 0 ≤ conicTerms c (o.exact.x - xo.val) (o.exact.y - yo.val) / potentialStd m.exact.conductivity m.exact.thickness (o.exact.z - m.exact.base) o.exact.std :=
      div_nonneg (by unfold conicTerms; positivity) hs.le
    refine (abs_sub _ _).trans ((add_le_add b1 b2).trans ?_)
    rw [show conicTerms c (o.exact.x - xo.val) (o.exact.y - yo.val) + expectedPotential m.exact.conductivity m.exact.thickness (o.exact.z - m.exact.base) o.exact.std + m.exact.wellTerms o.exact.x o.exact.y =
      conicTerms c (o.exact.x - xo.val) (o.exact.y - yo.val) + (expectedPotential m.exact.conductivity m.exact.thickness (o.exact.z - m.exact.base) o.exact.std + m.exact.wellTerms o.exact.x o.exact.y)
      from add_assoc _ _ _, add_div _ (_ + _), mul_add]
    have n0 : (0:ℝ) ≤ m.wells.length := by positivity
    have := mul_le_mul_of_nonneg_right (mul_le_mul_of_nonneg_right (by linarith : (16:ℝ) ≤ 44 + 3 * m.wells.length) e.le) b3
    linarith
  have hmin : ‖vec obs u' - (vec obs r + vec obs w)‖ ^ 2 ≤ ‖vec obs r + vec obs w‖ ^ 2 + η ^ 2 := by
    rw [vec_add, vec_sub, vec_norm_sq, vec_norm_sq]
    rw [List.map_map, List.map_map] at hnear
    have s1 : ∀ o, r o + w o = (row o).2.val - ∑ i, ((row o).1 i).val * c i := by
      intro o
      have : ∑ i, (((row o).1 i).val - (R o).1 i) * c i = ∑ i, ((row o).1 i).val * c i - ∑ i, (R o).1 i * c i := by
        rw [← Finset.sum_sub_distrib]
        exact Finset.sum_congr rfl fun i _ => by ring
      simp only [hr_, hw_, this]
      ring
    have s2 : ∀ o, u' o = ∑ i, ((row o).1 i).val * c' i - ∑ i, ((row o).1 i).val * c i := by
      intro o
      simp only [hu'_]
      rw [← Finset.sum_sub_distrib]
      exact Finset.sum_congr rfl fun i _ => by simp only [Pi.sub_apply]; ring
    have a1 : (obs.map fun o => (u' o - (r o + w o)) ^ 2) = obs.map ((fun q : (Fin 6 → Fl) × Fl => (∑ i, (q.1 i).val * c' i - q.2.val) ^ 2) ∘ row) := by
      refine List.map_congr_left fun o _ => ?_
      simp only [s1, s2, Function.comp]
      ring
    have a2 : (obs.map fun o => (r o + w o) ^ 2) = obs.map ((fun q : (Fin 6 → Fl) × Fl => (∑ i, (q.1 i).val * c i - q.2.val) ^ 2) ∘ row) := by
      refine List.map_congr_left fun o _ => ?_
      simp only [s1, Function.comp]
      ring
    rw [a1, a2]
    exact hnear
  have hθ : 16 * eps * κ ≤ 1/8 := by
    unfold eps
    refine (mul_le_mul_of_nonneg_left hκ1 (by positivity)).trans ?_
    norm_num [_root_.zpow_neg]
  have := perturbed (by positivity) hθ hη horth hup hwn hmin
  rw [hrn] at this
  refine this.trans (le_of_eq ?_)
  change _ = 8/7 * η + eps * _
  ring

/-- the coefficients of the fit and of the exact fit -/
theorem flFit_quad (hlog : LogAccurate) (hl : LibObs.Accurate) {la : FlLinAlg} {η : List ((Fin 6 → Fl) × Fl) → ℝ} (hη : ∀ rows, 0 ≤ η rows) (hla : la.Within η) {la₀ : LinAlg} (hla₀ : la₀.Correct)
    {m : Aquifer Fl} (hK : 0 < m.conductivity.val) (hT : 0 < m.thickness.val) (hn : m.wells.length ≤ 2 ^ 40) {obs : List FlObs} {xo yo : Fl} (hu : m.exact.Usable (obs.map FlObs.exact))
    (hc : ∀ o ∈ obs, m.exact.LevelClear o.exact) {κ : ℝ} (hκ0 : 0 ≤ κ) (hκ : m.exact.Determined (obs.map FlObs.exact) xo.val yo.val κ) (hκ1 : κ ≤ 2 ^ 46)
    {rows : List ((Fin 6 → Fl) × Fl)} (hrows : m.flConstructFit xo yo obs = .ok rows) {m' : Aquifer Fl} {c' : Fin 6 → Fl} {V' : Matrix (Fin 6) (Fin 6) Fl}
    (hf : m.flFitRegionalFlow la obs xo yo = (m', .ok (c', V'))) {m₀ : Aquifer ℝ} {c : Fin 6 → ℝ} {V : Matrix (Fin 6) (Fin 6) ℝ}
    (hf₀ : m.exact.fitRegionalFlow la₀ (obs.map FlObs.exact) xo.val yo.val = (m₀, .ok (c, V))) :
    m' = { m with xo := xo, yo := yo, coef := c' } ∧ m₀ = { m.exact with xo := xo.val, yo := yo.val, coef := c } ∧
    gram (((obs.map FlObs.exact).map (m.exact.rowOf xo.val yo.val)).map Prod.fst) * V = 1 ∧
    0 ≤ 8/7 * η rows + 2 ^ (-53 : ℤ) * (48 * κ * √(misfit m.exact (obs.map FlObs.exact) m₀.potential) + (132 + 9 * m.wells.length) * m.exact.residualTerms (obs.map FlObs.exact) xo.val yo.val c) ∧
    ((fun i => (c' i).val) - c) ⬝ᵥ (gram (((obs.map FlObs.exact).map (m.exact.rowOf xo.val yo.val)).map Prod.fst) *ᵥ ((fun i => (c' i).val) - c)) ≤
      (8/7 * η rows + 2 ^ (-53 : ℤ) * (48 * κ * √(misfit m.exact (obs.map FlObs.exact) m₀.potential) + (132 + 9 * m.wells.length) * m.exact.residualTerms (obs.map FlObs.exact) xo.val yo.val c)) ^ 2 := by
  obtain ⟨row, h1, h2⟩ := flRows hlog hl m hK hT hn obs xo yo hu hc
  have hr := flConstruct_ok m xo yo row obs h1
  rw [hr, Except.ok.injEq] at hrows
  subst hrows
  obtain ⟨rfl, hnear⟩ := flFit_within hla hr hf
  obtain ⟨rfl, hg, hex⟩ := fit_excess hla₀ hK hT hu hf₀
  have h0 : 0 ≤ 2 ^ (-53 : ℤ) * (48 * κ * √(misfit m.exact (obs.map FlObs.exact) ({ m.exact with xo := xo.val, yo := yo.val, coef := c } : Aquifer ℝ).potential) +
      (132 + 9 * m.wells.length) * m.exact.residualTerms (obs.map FlObs.exact) xo.val yo.val c) := by
    have : 0 ≤ m.exact.residualTerms (obs.map FlObs.exact) xo.val yo.val c := Real.sqrt_nonneg _
    positivity
  refine ⟨rfl, rfl, hg, add_nonneg (mul_nonneg (by norm_num) (hη _)) h0, ?_⟩
  have key := flFit_close m hK hT obs xo yo hu κ hκ0 hκ hκ1 row h2 (hη _) (fun i => (c' i).val) c hex (hnear c)
  rw [normal_quad, List.map_map, List.map_map, List.map_map]
  refine (le_of_eq ?_).trans (pow_le_pow_left₀ (norm_nonneg _) key 2)
  rw [vec_norm_sq]
  rfl

end Aquifer
end Oneka
