import Verif.Spec.Estimator
import Verif.Lemmas.FitDetermined
import Verif.Lemmas.Head
import Verif.Props.Fit
import Verif.Props.Aquifer

/-!
# The fit as a linear function of the measured levels
-/

namespace Oneka
open MeasureTheory ProbabilityTheory Matrix
namespace Aquifer

variable {m : Aquifer ℝ} {n : ℕ} {site : Fin n → Site} {xo yo : ℝ}

theorem mem_observed {z : Fin n → ℝ} {o : Obs} : o ∈ observed site z ↔ ∃ i, o = ⟨(site i).x, (site i).y, z i, (site i).std⟩ := by
  unfold observed
  rw [List.mem_ofFn']
  exact ⟨fun ⟨i, h⟩ => ⟨i, h.symm⟩, fun ⟨i, h⟩ => ⟨i, h.symm⟩⟩

theorem observed_general (hs : m.Suitable site) (z : Fin n → ℝ) : ¬ OnOneConic (observed site z) := by
  rintro ⟨c, hc, h⟩
  exact hs.general ⟨c, hc, fun i => h _ (mem_observed.mpr ⟨i, rfl⟩)⟩

theorem observed_usable (hs : m.Suitable site) {z : Fin n → ℝ} (hz : ∀ i, m.base < z i) : m.Usable (observed site z) := by
  intro o ho
  obtain ⟨i, rfl⟩ := mem_observed.mp ho
  exact ⟨hz i, hs.std_pos i, hs.off i⟩

/-- the fit succeeds, and its result in closed form -/
theorem fit_closed {la : LinAlg} (hla : la.Correct) (hc : la.Converges) (hK : 0 < m.conductivity) (hT : 0 < m.thickness) (hs : m.Suitable site) {z : Fin n → ℝ} (hz : ∀ i, m.base < z i) :
    (gram (((observed site z).map (m.rowOf xo yo)).map Prod.fst)).det ≠ 0 ∧
    m.fitRegionalFlow la (observed site z) xo yo =
      ({ m with xo := xo, yo := yo, coef := (gram (((observed site z).map (m.rowOf xo yo)).map Prod.fst))⁻¹ *ᵥ rhs ((observed site z).map (m.rowOf xo yo)) },
        .ok ((gram (((observed site z).map (m.rowOf xo yo)).map Prod.fst))⁻¹ *ᵥ rhs ((observed site z).map (m.rowOf xo yo)),
          (gram (((observed site z).map (m.rowOf xo yo)).map Prod.fst))⁻¹)) := by
  have hu := observed_usable hs hz
  obtain ⟨⟨ev, cov⟩, hr⟩ := (C37_degenerate la hla hc m hK hT _ xo yo hu).2 (observed_general hs z)
  have hf : m.fitRegionalFlow la (observed site z) xo yo = ((m.fitRegionalFlow la (observed site z) xo yo).1, .ok (ev, cov)) := Prod.ext rfl hr
  obtain ⟨h1, h2, h3, h4⟩ := fit_ok hla hK hT hu hf
  have hd : (gram (((observed site z).map (m.rowOf xo yo)).map Prod.fst)).det ≠ 0 := by
    intro h0
    have := congrArg Matrix.det h3
    rw [Matrix.det_mul, h0, zero_mul, Matrix.det_one] at this
    exact zero_ne_one this
  refine ⟨hd, ?_⟩
  have hev : ev = (gram (((observed site z).map (m.rowOf xo yo)).map Prod.fst))⁻¹ *ᵥ rhs ((observed site z).map (m.rowOf xo yo)) := by
    refine minimiser_eq hd fun c' => ?_
    rw [sse_misfit, sse_misfit]
    exact h2 c'
  have hcov : cov = (gram (((observed site z).map (m.rowOf xo yo)).map Prod.fst))⁻¹ := (Matrix.inv_eq_right_inv h3).symm
  rw [hf, h1, ← hev, ← hcov]

/-! ### confined observations -/

/-- the weighted rows of the sites -/
noncomputable def design (m : Aquifer ℝ) (xo yo : ℝ) (site : Fin n → Site) : Matrix (Fin n) (Fin 6) ℝ :=
  fun i k => mono ((site i).x - xo) ((site i).y - yo) k / (m.conductivity * m.thickness * (site i).std)

/-- the constant part of the weighted right-hand sides -/
noncomputable def offset (m : Aquifer ℝ) (site : Fin n → Site) (i : Fin n) : ℝ :=
  (m.conductivity * m.thickness * (-m.base - m.thickness / 2) - m.potentialWells (site i).x (site i).y) / (m.conductivity * m.thickness * (site i).std)

theorem row_confined (hK : 0 < m.conductivity) (hT : 0 < m.thickness) (hs : m.Suitable site) {z : Fin n → ℝ} (hz : ∀ i, m.thickness ≤ z i - m.base) :
    (observed site z).map (m.rowOf xo yo) = List.ofFn fun i => ((m.design xo yo site i, z i / (site i).std + m.offset site i) : (Fin 6 → ℝ) × ℝ) := by
  unfold observed
  rw [List.map_ofFn]
  congr 1
  funext i
  have h0 := hs.std_pos i
  have h1 : ¬ z i - m.base < m.thickness := not_lt.mpr (hz i)
  unfold rowOf design offset expectedPotential potentialStd potentialOfHead
  simp only [Function.comp, if_neg h1, min_eq_right (hz i), add_zero]
  refine Prod.ext (by funext k; rfl) ?_
  dsimp only
  have hw : m.conductivity * m.thickness * (site i).std ≠ 0 := by positivity
  field_simp
  ring

theorem gram_confined (hK : 0 < m.conductivity) (hT : 0 < m.thickness) (hs : m.Suitable site) {z : Fin n → ℝ} (hz : ∀ i, m.thickness ≤ z i - m.base) :
    gram (((observed site z).map (m.rowOf xo yo)).map Prod.fst) = (m.design xo yo site)ᵀ * m.design xo yo site := by
  rw [row_confined hK hT hs hz, List.map_ofFn]
  ext j k
  unfold gram
  rw [List.map_ofFn, List.sum_ofFn]
  rfl

theorem rhs_confined (hK : 0 < m.conductivity) (hT : 0 < m.thickness) (hs : m.Suitable site) {z : Fin n → ℝ} (hz : ∀ i, m.thickness ≤ z i - m.base) :
    rhs ((observed site z).map (m.rowOf xo yo)) = (m.design xo yo site)ᵀ *ᵥ fun i => z i / (site i).std + m.offset site i := by
  rw [row_confined hK hT hs hz]
  funext j
  unfold rhs
  rw [List.map_ofFn, List.sum_ofFn]
  rfl

/-- the matrix that takes weighted levels to coefficients -/
noncomputable def smoother (m : Aquifer ℝ) (xo yo : ℝ) (site : Fin n → Site) : Matrix (Fin 6) (Fin n) ℝ :=
  ((m.design xo yo site)ᵀ * m.design xo yo site)⁻¹ * (m.design xo yo site)ᵀ

/-- the covariance matrix that is returned -/
noncomputable def fitCov (m : Aquifer ℝ) (xo yo : ℝ) (site : Fin n → Site) : Matrix (Fin 6) (Fin 6) ℝ := ((m.design xo yo site)ᵀ * m.design xo yo site)⁻¹

theorem fit_confined {la : LinAlg} (hla : la.Correct) (hc : la.Converges) (hK : 0 < m.conductivity) (hT : 0 < m.thickness) (hs : m.Suitable site) {z : Fin n → ℝ}
    (hz : ∀ i, m.thickness ≤ z i - m.base) :
    m.fitRegionalFlow la (observed site z) xo yo = ({ m with xo := xo, yo := yo, coef := m.smoother xo yo site *ᵥ fun i => z i / (site i).std + m.offset site i },
      .ok (m.smoother xo yo site *ᵥ fun i => z i / (site i).std + m.offset site i, m.fitCov xo yo site)) := by
  have := (fit_closed (xo := xo) (yo := yo) hla hc hK hT hs (fun i => by linarith [hz i] : ∀ i, m.base < z i)).2
  rw [gram_confined hK hT hs hz, rhs_confined hK hT hs hz, Matrix.mulVec_mulVec] at this
  exact this

theorem design_det (hK : 0 < m.conductivity) (hT : 0 < m.thickness) (hs : m.Suitable site) : ((m.design xo yo site)ᵀ * m.design xo yo site).det ≠ 0 := by
  have h := (fit_closed (xo := xo) (yo := yo) perfect_correct perfect_converges hK hT hs (z := fun _ => m.base + m.thickness) (fun i => by linarith)).1
  rwa [gram_confined hK hT hs (fun i => by simp)] at h

theorem smoother_design (hK : 0 < m.conductivity) (hT : 0 < m.thickness) (hs : m.Suitable site) : m.smoother xo yo site * m.design xo yo site = 1 := by
  unfold smoother
  rw [Matrix.mul_assoc]
  exact Matrix.nonsing_inv_mul _ (isUnit_iff_ne_zero.mpr (design_det hK hT hs))

theorem fitCov_symm : (m.fitCov xo yo site)ᵀ = m.fitCov xo yo site := by
  unfold fitCov
  rw [Matrix.transpose_nonsing_inv, Matrix.transpose_mul, Matrix.transpose_transpose]

theorem smoother_smoother (hK : 0 < m.conductivity) (hT : 0 < m.thickness) (hs : m.Suitable site) :
    m.smoother xo yo site * (m.smoother xo yo site)ᵀ = m.fitCov xo yo site := by
  have h : (m.smoother xo yo site)ᵀ = m.design xo yo site * m.fitCov xo yo site := by
    unfold smoother
    rw [Matrix.transpose_mul, Matrix.transpose_transpose]
    exact congrArg _ fitCov_symm
  rw [h, ← Matrix.mul_assoc, smoother_design hK hT hs, Matrix.one_mul]

/-- the weighted potentials of a flow with confined levels -/
theorem level_confined (hK : 0 < m.conductivity) (hT : 0 < m.thickness) (hs : m.Suitable site) {c : Fin 6 → ℝ} {level : Fin n → ℝ} (hl : m.HasLevels xo yo c site level)
    (hz : ∀ i, m.thickness ≤ level i - m.base) : (fun i => level i / (site i).std + m.offset site i) = m.design xo yo site *ᵥ c := by
  funext i
  have hp := hl i
  rw [head_eq] at hp
  split_ifs at hp with h0
  have e := potential_headOf hK hT (not_le.mp h0)
  rw [Except.ok.inj hp] at e
  unfold potentialOfHead at e
  rw [if_neg (not_lt.mpr (hz i)), potential_eq] at e
  dsimp only at e
  have hw := potentialWells_eq m (site i).x (site i).y
  have h0 := hs.std_pos i
  have hm := conic_mono c ((site i).x - xo) ((site i).y - yo)
  have hd : (m.design xo yo site *ᵥ c) i = conic c ((site i).x - xo) ((site i).y - yo) / (m.conductivity * m.thickness * (site i).std) := by
    rw [← hm, Finset.sum_div]
    unfold Matrix.mulVec dotProduct design
    exact Finset.sum_congr rfl fun k _ => by ring
  rw [hd]
  unfold offset
  rw [hw]
  have e2 : ∀ W : ℝ, level i / (site i).std + (m.conductivity * m.thickness * (-m.base - m.thickness / 2) - W) / (m.conductivity * m.thickness * (site i).std) =
      (m.conductivity * m.thickness * (level i - m.base - m.thickness / 2) - W) / (m.conductivity * m.thickness * (site i).std) := by
    intro W
    have : m.conductivity * m.thickness * (site i).std ≠ 0 := by positivity
    field_simp
    ring
  rw [e2, e]
  congr 1
  ring

/-- a flow with large potentials has confined levels -/
theorem levels_exist (hK : 0 < m.conductivity) (hT : 0 < m.thickness) (c : Fin 6 → ℝ)
    (h : ∀ i, m.conductivity * m.thickness ^ 2 / 2 ≤ conic c ((site i).x - xo) ((site i).y - yo) + m.potentialWells (site i).x (site i).y) :
    ∃ level : Fin n → ℝ, m.HasLevels xo yo c site level ∧ (∀ i, m.thickness ≤ level i - m.base) ∧
      ∀ i, level i = m.base + m.thickness / 2 + (conic c ((site i).x - xo) ((site i).y - yo) + m.potentialWells (site i).x (site i).y) / (m.conductivity * m.thickness) := by
  have hp : ∀ i, ({ m with xo := xo, yo := yo, coef := c } : Aquifer ℝ).potential (site i).x (site i).y =
      conic c ((site i).x - xo) ((site i).y - yo) + m.potentialWells (site i).x (site i).y := by
    intro i
    rw [potential_eq, potentialWells_eq]
  have hKT : 0 < m.conductivity * m.thickness := mul_pos hK hT
  have hl : ∀ i, m.thickness ≤ m.base + m.thickness / 2 +
      (conic c ((site i).x - xo) ((site i).y - yo) + m.potentialWells (site i).x (site i).y) / (m.conductivity * m.thickness) - m.base := by
    intro i
    have := div_le_div_of_nonneg_right (h i) hKT.le
    have e : m.conductivity * m.thickness ^ 2 / 2 / (m.conductivity * m.thickness) = m.thickness / 2 := by field_simp
    rw [e] at this
    linarith
  refine ⟨_, fun i => ?_, hl, fun i => rfl⟩
  have h0 : 0 < ({ m with xo := xo, yo := yo, coef := c } : Aquifer ℝ).potential (site i).x (site i).y := by
    rw [hp]
    exact lt_of_lt_of_le (by positivity) (h i)
  obtain ⟨x, hx, -, -, hu⟩ := C32_inverse ({ m with xo := xo, yo := yo, coef := c } : Aquifer ℝ) hK hT (site i).x (site i).y h0
  rw [hx, ← hu _ (lt_of_lt_of_le hT (hl i)) ?_]
  unfold potentialOfHead
  rw [if_neg (not_lt.mpr (hl i)), hp]
  dsimp only
  field_simp
  ring

/-- a linear function of the levels that is right for all confined flows -/
theorem unbiased_weights (hK : 0 < m.conductivity) (hT : 0 < m.thickness) (hs : m.Suitable site) {α : Fin n → ℝ} {b : ℝ} {φ : Fin 6 → ℝ}
    (h : ∀ c level, m.HasLevels xo yo c site level → (∀ i, m.thickness ≤ level i - m.base) → ∑ i, α i * level i + b = φ ⬝ᵥ c) :
    (fun i => α i * (site i).std) ᵥ* m.design xo yo site = φ := by
  let F : ℝ := ∑ i, (|m.conductivity * m.thickness ^ 2 / 2| + |m.potentialWells (site i).x (site i).y| + ∑ k, |mono ((site i).x - xo) ((site i).y - yo) k|)
  have hF : ∀ i, |m.conductivity * m.thickness ^ 2 / 2| + |m.potentialWells (site i).x (site i).y| + ∑ k, |mono ((site i).x - xo) ((site i).y - yo) k| ≤ F :=
    fun i => Finset.single_le_sum (f := fun i => |m.conductivity * m.thickness ^ 2 / 2| + |m.potentialWells (site i).x (site i).y| +
      ∑ k, |mono ((site i).x - xo) ((site i).y - yo) k|) (fun i _ => by positivity) (Finset.mem_univ i)
  let c0 : Fin 6 → ℝ := Pi.single 5 F
  have hc0 : ∀ u v, conic c0 u v = F := by
    intro u v
    simp [conic, c0, Pi.single_apply]
  have hadd : ∀ (c d : Fin 6 → ℝ) u v, conic (c + d) u v = conic c u v + conic d u v := by
    intro c d u v
    simp [conic]; ring
  have he : ∀ k u v, conic (Pi.single k 1) u v = mono u v k := by
    intro k u v
    rw [← conic_mono]
    simp [Pi.single_apply]
  have big : ∀ i, m.conductivity * m.thickness ^ 2 / 2 ≤ conic c0 ((site i).x - xo) ((site i).y - yo) + m.potentialWells (site i).x (site i).y := by
    intro i
    rw [hc0]
    have h1 := hF i
    have h2 := le_abs_self (m.conductivity * m.thickness ^ 2 / 2)
    have h3 := neg_abs_le (m.potentialWells (site i).x (site i).y)
    have h4 : 0 ≤ ∑ k, |mono ((site i).x - xo) ((site i).y - yo) k| := by positivity
    linarith
  obtain ⟨l0, a1, a2, a3⟩ := levels_exist hK hT c0 big
  have g0 := h c0 l0 a1 a2
  have hKT : m.conductivity * m.thickness ≠ 0 := (mul_pos hK hT).ne'
  funext k
  have big' : ∀ i, m.conductivity * m.thickness ^ 2 / 2 ≤ conic (c0 + Pi.single k 1) ((site i).x - xo) ((site i).y - yo) + m.potentialWells (site i).x (site i).y := by
    intro i
    rw [hadd, hc0, he]
    have h1 := hF i
    have h2 := le_abs_self (m.conductivity * m.thickness ^ 2 / 2)
    have h3 := neg_abs_le (m.potentialWells (site i).x (site i).y)
    have h4 := Finset.single_le_sum (f := fun k => |mono ((site i).x - xo) ((site i).y - yo) k|) (fun _ _ => abs_nonneg _) (Finset.mem_univ k)
    have h5 := neg_abs_le (mono ((site i).x - xo) ((site i).y - yo) k)
    linarith
  obtain ⟨l1, b1, b2, b3⟩ := levels_exist hK hT _ big'
  have g1 := h _ l1 b1 b2
  rw [dotProduct_add, ← g0] at g1
  have e1 : φ ⬝ᵥ Pi.single k 1 = φ k := by simp
  rw [e1] at g1
  have e2 : ∀ i, l1 i = l0 i + mono ((site i).x - xo) ((site i).y - yo) k / (m.conductivity * m.thickness) := by
    intro i
    rw [b3, a3, hadd, he]
    ring
  simp only [e2, mul_add, Finset.sum_add_distrib] at g1
  have e3 : ((fun i => α i * (site i).std) ᵥ* m.design xo yo site) k = ∑ i, α i * (mono ((site i).x - xo) ((site i).y - yo) k / (m.conductivity * m.thickness)) := by
    unfold Matrix.vecMul dotProduct design
    refine Finset.sum_congr rfl fun i _ => ?_
    have := (hs.std_pos i).ne'
    field_simp
  rw [e3]
  linarith

/-- least variance -/
theorem best_weights (hK : 0 < m.conductivity) (hT : 0 < m.thickness) (hs : m.Suitable site) {β : Fin n → ℝ} {φ : Fin 6 → ℝ} (h : β ᵥ* m.design xo yo site = φ) :
    φ ⬝ᵥ m.fitCov xo yo site *ᵥ φ ≤ ∑ i, β i ^ 2 := by
  set S := m.smoother xo yo site
  set A := m.design xo yo site
  have hSA : S * A = 1 := smoother_design hK hT hs
  have hV : S * Sᵀ = m.fitCov xo yo site := smoother_smoother hK hT hs
  let γ : Fin n → ℝ := φ ᵥ* S
  have q1 : γ ⬝ᵥ γ = φ ⬝ᵥ m.fitCov xo yo site *ᵥ φ := by
    rw [← hV, ← Matrix.mulVec_mulVec, Matrix.dotProduct_mulVec, Matrix.mulVec_transpose]
  have q2 : β ⬝ᵥ γ = φ ⬝ᵥ m.fitCov xo yo site *ᵥ φ := by
    have hg : γ = A *ᵥ (m.fitCov xo yo site *ᵥ φ) := by
      have hSt : Sᵀ = A * m.fitCov xo yo site := by
        change (m.fitCov xo yo site * Aᵀ)ᵀ = _
        rw [Matrix.transpose_mul, Matrix.transpose_transpose, fitCov_symm]
      rw [Matrix.mulVec_mulVec, ← hSt, Matrix.mulVec_transpose]
    rw [hg, Matrix.dotProduct_mulVec, h]
  have q3 : 0 ≤ ∑ i, (β i - γ i) ^ 2 := by positivity
  have q4 : ∑ i, (β i - γ i) ^ 2 = ∑ i, β i ^ 2 - 2 * (β ⬝ᵥ γ) + γ ⬝ᵥ γ := by
    unfold dotProduct
    rw [Finset.mul_sum, ← Finset.sum_sub_distrib, ← Finset.sum_add_distrib]
    exact Finset.sum_congr rfl fun i _ => by ring
  rw [q4, q1, q2] at q3
  linarith

/-- the diagonal of a projection with a non-zero row -/
theorem projection_diag {A : Matrix (Fin n) (Fin 6) ℝ} {S : Matrix (Fin 6) (Fin n) ℝ} (h1 : S * A = 1) (h2 : (A * S)ᵀ = A * S) (i : Fin n) (k : Fin 6) (hk : A i k ≠ 0) :
    0 < (A * S) i i := by
  have hP : (A * S) * (A * S) = A * S := by rw [Matrix.mul_assoc, ← Matrix.mul_assoc S, h1, Matrix.one_mul]
  have hA : (A * S) * A = A := by rw [Matrix.mul_assoc, h1, Matrix.mul_one]
  generalize A * S = P at *
  have hdiag : P i i = ∑ j, P i j ^ 2 := by
    have e := congrFun (congrFun hP i) i
    rw [Matrix.mul_apply] at e
    rw [← e]
    refine Finset.sum_congr rfl fun j _ => ?_
    have : P j i = P i j := congrFun (congrFun h2 i) j
    rw [this, pow_two]
  refine lt_of_le_of_ne (by rw [hdiag]; positivity) fun e => hk ?_
  have hrow : ∀ j, P i j = 0 := by
    intro j
    rw [hdiag] at e
    have := (Finset.sum_eq_zero_iff_of_nonneg (fun j _ => sq_nonneg (P i j))).mp e.symm j (Finset.mem_univ j)
    simpa using this
  have e5 := congrFun (congrFun hA i) k
  rw [Matrix.mul_apply, Finset.sum_eq_zero fun j _ => by rw [hrow, zero_mul]] at e5
  exact e5.symm

theorem leverage_pos (hK : 0 < m.conductivity) (hT : 0 < m.thickness) (hs : m.Suitable site) (i : Fin n) : 0 < (m.design xo yo site * m.smoother xo yo site) i i := by
  refine projection_diag (smoother_design hK hT hs) ?_ i 5 ?_
  · change (m.design xo yo site * (m.fitCov xo yo site * (m.design xo yo site)ᵀ))ᵀ = m.design xo yo site * (m.fitCov xo yo site * (m.design xo yo site)ᵀ)
    rw [Matrix.transpose_mul, Matrix.transpose_mul, Matrix.transpose_transpose, fitCov_symm, Matrix.mul_assoc]
  · have h0 := hs.std_pos i
    have e : m.design xo yo site i 5 = 1 / (m.conductivity * m.thickness * (site i).std) := rfl
    rw [e]
    positivity

/-! ### six sites: the fit interpolates -/

theorem interpolates {la : LinAlg} (hla : la.Correct) (hc : la.Converges) (hK : 0 < m.conductivity) (hT : 0 < m.thickness) {site : Fin 6 → Site} (hs : m.Suitable site) {z : Fin 6 → ℝ}
    (hz : ∀ i, m.base < z i) : ∃ (m' : Aquifer ℝ) (r : (Fin 6 → ℝ) × Matrix (Fin 6) (Fin 6) ℝ), m.fitRegionalFlow la (observed site z) xo yo = (m', .ok r) ∧
      ∀ i, m'.potential (site i).x (site i).y = expectedPotential m.conductivity m.thickness (z i - m.base) (site i).std := by
  have hu := observed_usable hs hz
  obtain ⟨⟨ev, cov⟩, hr⟩ := (C37_degenerate la hla hc m hK hT _ xo yo hu).2 (observed_general hs z)
  have hf : m.fitRegionalFlow la (observed site z) xo yo = ((m.fitRegionalFlow la (observed site z) xo yo).1, .ok (ev, cov)) := Prod.ext rfl hr
  refine ⟨_, _, hf, ?_⟩
  obtain ⟨h1, h2, -, -⟩ := fit_ok hla hK hT hu hf
  -- a flow through all points
  let L : (Fin 6 → ℝ) →ₗ[ℝ] (Fin 6 → ℝ) :=
    { toFun := fun c i => conic c ((site i).x - xo) ((site i).y - yo)
      map_add' := fun c d => by funext i; simp [conic]; ring
      map_smul' := fun s c => by funext i; simp [conic]; ring }
  have inj : Function.Injective L := by
    rw [injective_iff_map_eq_zero]
    intro c h0
    by_contra hne
    refine hs.general ⟨shift c (-xo) (-yo), ?_, fun i => ?_⟩
    · intro e
      apply hne
      refine conic_zero fun u v => ?_
      have := conic_shift c (-xo) (-yo) (u + xo) (v + yo)
      rw [e] at this
      simp only [add_neg_cancel_right] at this
      rw [← this]
      simp [conic]
    · rw [conic_shift]
      exact congrFun h0 i
  obtain ⟨c, hcL⟩ := (LinearMap.injective_iff_surjective.mp inj) fun i => expectedPotential m.conductivity m.thickness (z i - m.base) (site i).std - m.potentialWells (site i).x (site i).y
  have zero : misfit m (observed site z) (fun x y => conic c (x - xo) (y - yo) + m.potentialWells x y) = 0 := by
    unfold misfit
    rw [sum_sq_eq_zero]
    intro o ho
    obtain ⟨i, rfl⟩ := mem_observed.mp ho
    have := congrFun hcL i
    change conic c ((site i).x - xo) ((site i).y - yo) = _ at this
    dsimp only
    rw [this]
    simp
  have zero' : misfit m (observed site z) (fun x y => conic ev (x - xo) (y - yo) + m.potentialWells x y) = 0 := le_antisymm (zero ▸ h2 c) (misfit_nonneg _ _ _)
  intro i
  unfold misfit at zero'
  rw [sum_sq_eq_zero] at zero'
  have h3 := zero' _ (mem_observed.mpr ⟨i, rfl⟩)
  dsimp only at h3
  have hstd := potentialStd_ne m hK hT ⟨(site i).x, (site i).y, z i, (site i).std⟩ (hz i) (hs.std_pos i)
  rw [div_eq_zero_iff, or_iff_left hstd, sub_eq_zero] at h3
  rw [← h3, h1, potential_eq, potentialWells_eq]

/-! ### measured levels -/

variable {Ω : Type} [MeasurableSpace Ω] {μ : Measure Ω} [IsProbabilityMeasure μ] {level : Fin n → ℝ} {Z : Fin n → Ω → ℝ}

theorem linear_mean (hZ : Measures μ site level Z) (g : Fin n → ℝ) (e : ℝ) : ∫ ω, (∑ i, g i * Z i ω + e) ∂μ = ∑ i, g i * level i + e := by
  have hi : ∀ i, Integrable (fun ω => g i * Z i ω) μ := fun i => ((hZ.square i).integrable (by norm_num)).const_mul _
  rw [integral_add (integrable_finset_sum _ fun i _ => hi i) (integrable_const _), integral_finset_sum _ fun i _ => hi i, integral_const]
  simp [integral_const_mul, hZ.mean]

theorem linear_lp (hZ : Measures μ site level Z) (g : Fin n → ℝ) (e : ℝ) : MemLp (fun ω => ∑ i, g i * Z i ω + e) 2 μ :=
  (memLp_finset_sum _ fun i _ => (hZ.square i).const_mul (g i)).add (memLp_const e)

theorem linear_cov (hZ : Measures μ site level Z) (g g' : Fin n → ℝ) (e e' : ℝ) :
    cov[fun ω => ∑ i, g i * Z i ω + e, fun ω => ∑ i, g' i * Z i ω + e'; μ] = ∑ i, g i * g' i * (site i).std ^ 2 := by
  have hi : ∀ (g : Fin n → ℝ) i, MemLp (fun ω => g i * Z i ω) 2 μ := fun g i => (hZ.square i).const_mul _
  have hs : ∀ g : Fin n → ℝ, Integrable (fun ω => ∑ i, g i * Z i ω) μ := fun g => integrable_finset_sum _ fun i _ => (hi g i).integrable (by norm_num)
  rw [covariance_add_const_left (hs g), covariance_add_const_right (hs g'), covariance_fun_sum_fun_sum (hi g) (hi g')]
  refine Finset.sum_congr rfl fun i _ => ?_
  simp only [covariance_const_mul_left, covariance_const_mul_right, hZ.spread]
  simp
  ring

end Aquifer
end Oneka
