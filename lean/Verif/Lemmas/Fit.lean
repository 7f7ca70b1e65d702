import Mathlib.LinearAlgebra.Matrix.PosDef
import Mathlib.LinearAlgebra.Matrix.ToLinearEquiv
import Mathlib.LinearAlgebra.FiniteDimensional.Lemmas
import Mathlib.LinearAlgebra.Dimension.Constructions
import Mathlib.Analysis.InnerProductSpace.Projection.Minimal
import Mathlib.Analysis.InnerProductSpace.PiL2
import Verif.Lemmas.AquiferX

namespace Oneka
namespace Aquifer
open Matrix

theorem finRow_injective : Function.Injective finRow := by
  rintro ⟨a, b⟩ ⟨c, d⟩ h
  simp only [finRow, Prod.mk.injEq, XR.fin.injEq] at h
  refine Prod.ext (funext fun i => ?_) h.2
  exact XR.fin.inj (congrFun h.1 i)

theorem finMatrix_injective {A B : Matrix (Fin 6) (Fin 6) ℝ} (h : (fun i j => XR.fin (A i j)) = fun i j => XR.fin (B i j)) : A = B := by
  ext i j
  exact XR.fin.inj (congrFun (congrFun h i) j)

/-- The six monomials. -/
def mono (u v : ℝ) : Fin 6 → ℝ := ![u ^ 2, v ^ 2, u * v, u, v, 1]

theorem conic_mono (c : Fin 6 → ℝ) (u v : ℝ) : ∑ i, mono u v i * c i = conic c u v := by
  simp [Fin.sum_univ_six, mono, conic]
  ring

theorem conic_sub (c d : Fin 6 → ℝ) (u v : ℝ) : conic (c - d) u v = conic c u v - conic d u v := by
  simp [conic]; ring

/-- coefficients of a shifted quadratic -/
def shift (c : Fin 6 → ℝ) (a b : ℝ) : Fin 6 → ℝ :=
  ![c 0, c 1, c 2, 2 * c 0 * a + c 2 * b + c 3, 2 * c 1 * b + c 2 * a + c 4, conic c a b]

theorem conic_shift (c : Fin 6 → ℝ) (a b u v : ℝ) : conic (shift c a b) u v = conic c (u + a) (v + b) := by
  simp [conic, shift]; ring

theorem conic_zero {c : Fin 6 → ℝ} (h : ∀ u v, conic c u v = 0) : c = 0 := by
  have h0 := h 0 0
  have h1 := h 1 0
  have h2 := h (-1) 0
  have h3 := h 0 1
  have h4 := h 0 (-1)
  have h5 := h 1 1
  simp only [conic] at h0 h1 h2 h3 h4 h5
  funext i
  fin_cases i <;> simp <;> linarith

theorem conic_injective {c d : Fin 6 → ℝ} (h : ∀ u v, conic c u v = conic d u v) : c = d := by
  rw [← sub_eq_zero]
  apply conic_zero
  intro u v
  rw [conic_sub, h, sub_self]

/-- `WA.T @ WA` for finite rows -/
def gram (rows : List (Fin 6 → ℝ)) : Matrix (Fin 6) (Fin 6) ℝ :=
  fun i j => (rows.map fun r => r i * r j).sum

/-- The row that belongs to an observation. -/
noncomputable def rowOf (m : Aquifer ℝ) (xo yo : ℝ) (o : Obs) : (Fin 6 → ℝ) × ℝ :=
  (fun i => mono (o.x - xo) (o.y - yo) i / potentialStd m.conductivity m.thickness (o.z - m.base) o.std,
   (expectedPotential m.conductivity m.thickness (o.z - m.base) o.std - m.potentialWells o.x o.y) /
     potentialStd m.conductivity m.thickness (o.z - m.base) o.std)

theorem fosm_ok (m : Aquifer ℝ) (o : Obs) (ho : m.base < o.z) :
    m.fosm o = .ok (expectedPotential m.conductivity m.thickness (o.z - m.base) o.std,
      potentialStd m.conductivity m.thickness (o.z - m.base) o.std) := by
  unfold fosm expectedPotential potentialStd potentialOfHead
  by_cases h : m.thickness ≤ o.z - m.base
  · simp only [if_pos h, if_neg (not_lt.mpr h), min_eq_right h]
    congr 2; ring
  · push Not at h
    simp only [if_neg (not_le.mpr h), if_pos (sub_pos.mpr ho), if_pos h, min_eq_left h.le]
    congr 2; ring

theorem fosm_err (m : Aquifer ℝ) (hT : 0 < m.thickness) (o : Obs) (ho : o.z ≤ m.base) : m.fosm o = .error .rangeError := by
  unfold fosm
  simp only
  rw [if_neg (by linarith), if_neg (by linarith)]

theorem potentialStd_ne (m : Aquifer ℝ) (hK : 0 < m.conductivity) (hT : 0 < m.thickness) (o : Obs) (h : m.base < o.z) (hs : 0 < o.std) :
    potentialStd m.conductivity m.thickness (o.z - m.base) o.std ≠ 0 := by
  unfold potentialStd
  have : 0 < min (o.z - m.base) m.thickness := lt_min (by linarith) hT
  positivity

theorem fitRow_ok (m : Aquifer ℝ) (hK : 0 < m.conductivity) (hT : 0 < m.thickness) (xo yo : ℝ) (o : Obs) (ho : m.base < o.z) (hs : 0 < o.std)
    (hw : m.OffWells o.x o.y) : m.fitRow xo yo o = .ok (finRow (m.rowOf xo yo o)) := by
  have hne := potentialStd_ne m hK hT o ho hs
  unfold fitRow
  rw [fosm_ok m o ho]
  simp only [hne, decide_false, Bool.and_false, Bool.false_eq_true, if_false]
  rw [potentialWells_toX m hw, XR.fin_sub, XR.fin_div _ _ hne]
  congr 2
  funext i
  exact XR.fin_div _ _ hne

theorem constructFit_ok (m : Aquifer ℝ) (hK : 0 < m.conductivity) (hT : 0 < m.thickness) (xo yo : ℝ) (obs : List Obs) (h : m.Usable obs) :
    m.constructFit xo yo obs = .ok ((obs.map (m.rowOf xo yo)).map finRow) := by
  induction obs with
  | nil => rfl
  | cons o os ih =>
    obtain ⟨h1, h2, h3⟩ := h o (by simp)
    unfold constructFit
    rw [fitRow_ok m hK hT xo yo o h1 h2 h3, ih fun p hp => h p (by simp [hp])]
    rfl

theorem normalMatrix_fin (rows : List ((Fin 6 → ℝ) × ℝ)) :
    normalMatrix ((rows.map finRow).map Prod.fst) = fun i j => .fin (gram (rows.map Prod.fst) i j) := by
  funext i j
  unfold normalMatrix gram
  induction rows with
  | nil => simp
  | cons r rows ih =>
    simp only [List.map_cons, List.foldr_cons, List.sum_cons]
    rw [ih]
    rfl

/-- A row above the base is computed, unless a Python float is divided by zero. -/
theorem fitRow_returns (m : Aquifer ℝ) (xo yo : ℝ) (o : Obs) (ho : m.base < o.z)
    (h : m.wells ≠ [] ∨ potentialStd m.conductivity m.thickness (o.z - m.base) o.std ≠ 0) : ∃ r, m.fitRow xo yo o = .ok r := by
  unfold fitRow
  rw [fosm_ok m o ho]
  simp only
  rw [if_neg]
  · exact ⟨_, rfl⟩
  · rcases h with h | h <;> simp [h]

theorem constructFit_returns (m : Aquifer ℝ) (xo yo : ℝ) (obs : List Obs)
    (h : ∀ o ∈ obs, m.base < o.z ∧ (m.wells ≠ [] ∨ potentialStd m.conductivity m.thickness (o.z - m.base) o.std ≠ 0)) :
    ∃ rows, m.constructFit xo yo obs = .ok rows := by
  induction obs with
  | nil => exact ⟨_, rfl⟩
  | cons o os ih =>
    obtain ⟨h1, h2⟩ := h o (by simp)
    obtain ⟨r, hr⟩ := fitRow_returns m xo yo o h1 h2
    obtain ⟨rs, hrs⟩ := ih fun p hp => h p (by simp [hp])
    unfold constructFit
    rw [hr, hrs]
    exact ⟨_, rfl⟩

theorem constructFit_err (m : Aquifer ℝ) (hT : 0 < m.thickness) (xo yo : ℝ) (obs : List Obs) (hz : m.wells ≠ [] ∨ (0 < m.conductivity ∧ ∀ o ∈ obs, 0 < o.std))
    (h : ∃ o ∈ obs, o.z ≤ m.base) : m.constructFit xo yo obs = .error .rangeError := by
  induction obs with
  | nil => obtain ⟨o, ho, -⟩ := h; simp at ho
  | cons o os ih =>
    unfold constructFit
    by_cases ho : o.z ≤ m.base
    · unfold fitRow; rw [fosm_err m hT o ho]
    · obtain ⟨r, hr⟩ := fitRow_returns m xo yo o (not_le.mp ho) (hz.imp id fun h => potentialStd_ne m h.1 hT o (not_le.mp ho) (h.2 o (by simp)))
      rw [hr]
      obtain ⟨p, hp, hz'⟩ := h
      rw [ih (hz.imp id fun h => ⟨h.1, fun q hq => h.2 q (by simp [hq])⟩) ⟨p, by rcases List.mem_cons.mp hp with rfl | hp; exact absurd hz' ho; exact hp, hz'⟩]

theorem residual_row (m : Aquifer ℝ) (xo yo : ℝ) (o : Obs) (c : Fin 6 → ℝ) :
    ∑ i, (m.rowOf xo yo o).1 i * c i - (m.rowOf xo yo o).2 =
      (conic c (o.x - xo) (o.y - yo) + m.potentialWells o.x o.y - expectedPotential m.conductivity m.thickness (o.z - m.base) o.std) /
        potentialStd m.conductivity m.thickness (o.z - m.base) o.std := by
  rw [← conic_mono]
  unfold rowOf
  simp only
  have : ∑ i, mono (o.x - xo) (o.y - yo) i / potentialStd m.conductivity m.thickness (o.z - m.base) o.std * c i =
      (∑ i, mono (o.x - xo) (o.y - yo) i * c i) / potentialStd m.conductivity m.thickness (o.z - m.base) o.std := by
    rw [Finset.sum_div]
    refine Finset.sum_congr rfl fun i _ => ?_
    ring
  rw [this]
  ring

theorem sse_misfit (m : Aquifer ℝ) (xo yo : ℝ) (obs : List Obs) (c : Fin 6 → ℝ) :
    ((obs.map (m.rowOf xo yo)).map fun r => (∑ i, r.1 i * c i - r.2) ^ 2).sum =
      misfit m obs (fun x y => conic c (x - xo) (y - yo) + m.potentialWells x y) := by
  rw [List.map_map]
  unfold misfit
  congr 1
  refine List.map_congr_left fun o _ => ?_
  simp only [Function.comp, residual_row]

/-! ## The normal matrix -/

theorem normal_mulVec (rows : List (Fin 6 → ℝ)) (c : Fin 6 → ℝ) (i : Fin 6) :
    (gram rows *ᵥ c) i = (rows.map fun r => r i * ∑ j, r j * c j).sum := by
  unfold gram Matrix.mulVec dotProduct
  induction rows with
  | nil => simp
  | cons r rows ih =>
    simp only [List.map_cons, List.sum_cons, add_mul, Finset.sum_add_distrib]
    rw [ih, Finset.mul_sum]
    congr 1
    refine Finset.sum_congr rfl fun j _ => by ring

theorem normal_quad (rows : List (Fin 6 → ℝ)) (c : Fin 6 → ℝ) :
    c ⬝ᵥ (gram rows *ᵥ c) = (rows.map fun r => (∑ j, r j * c j) ^ 2).sum := by
  unfold dotProduct
  simp only [normal_mulVec]
  induction rows with
  | nil => simp
  | cons r rows ih =>
    simp only [List.map_cons, List.sum_cons, mul_add, Finset.sum_add_distrib]
    rw [ih]
    congr 1
    rw [pow_two, Finset.sum_mul]
    refine Finset.sum_congr rfl fun j _ => by ring

theorem sum_sq_eq_zero {α : Type} (l : List α) (f : α → ℝ) : (l.map fun a => f a ^ 2).sum = 0 ↔ ∀ a ∈ l, f a = 0 := by
  induction l with
  | nil => simp
  | cons a l ih =>
    simp only [List.map_cons, List.sum_cons, List.mem_cons, forall_eq_or_imp]
    have h1 : 0 ≤ f a ^ 2 := sq_nonneg _
    have h2 : 0 ≤ (l.map fun a => f a ^ 2).sum := List.sum_nonneg (by
      intro x hx; obtain ⟨b, -, rfl⟩ := List.mem_map.mp hx; positivity)
    constructor
    · intro h
      refine ⟨by nlinarith, ih.mp (by linarith)⟩
    · rintro ⟨h, h'⟩
      rw [h, ih.mpr h']; simp

theorem sum_sq_nonneg {α : Type} (l : List α) (f : α → ℝ) : 0 ≤ (l.map fun a => f a ^ 2).sum :=
  List.sum_nonneg (by intro x hx; obtain ⟨b, -, rfl⟩ := List.mem_map.mp hx; positivity)

theorem normal_kernel (rows : List (Fin 6 → ℝ)) (c : Fin 6 → ℝ) :
    gram rows *ᵥ c = 0 ↔ ∀ r ∈ rows, ∑ j, r j * c j = 0 := by
  constructor
  · intro h
    have := normal_quad rows c
    rw [h, dotProduct_zero] at this
    exact (sum_sq_eq_zero rows fun r => ∑ j, r j * c j).mp this.symm
  · intro h
    funext i
    rw [normal_mulVec]
    simp only [Pi.zero_apply]
    have : (rows.map fun r => r i * ∑ j, r j * c j) = rows.map fun _ => (0:ℝ) := by
      refine List.map_congr_left fun r hr => ?_
      rw [h r hr, mul_zero]
    rw [this]; simp

theorem normal_symm (rows : List (Fin 6 → ℝ)) : (gram rows).IsSymm := by
  ext i j
  simp only [Matrix.transpose_apply, gram]
  congr 1
  refine List.map_congr_left fun r _ => by ring

/-- Singular iff some non-zero vector is orthogonal to all rows. -/
theorem normal_singular (rows : List (Fin 6 → ℝ)) :
    (¬ ∃ B, gram rows * B = 1) ↔ ∃ c : Fin 6 → ℝ, c ≠ 0 ∧ ∀ r ∈ rows, ∑ j, r j * c j = 0 := by
  have h1 : (∃ B, gram rows * B = 1) ↔ (gram rows).det ≠ 0 := by
    constructor
    · rintro ⟨B, hB⟩ h0
      have := congrArg Matrix.det hB
      rw [Matrix.det_mul, h0, zero_mul, Matrix.det_one] at this
      exact zero_ne_one this
    · intro h
      exact ⟨(gram rows)⁻¹, Matrix.mul_nonsing_inv _ (isUnit_iff_ne_zero.mpr h)⟩
  rw [h1, not_not, ← Matrix.exists_mulVec_eq_zero_iff]
  constructor
  · rintro ⟨c, hc, h⟩; exact ⟨c, hc, (normal_kernel rows c).mp h⟩
  · rintro ⟨c, hc, h⟩; exact ⟨c, hc, (normal_kernel rows c).mpr h⟩

theorem row_orth (m : Aquifer ℝ) (hK : 0 < m.conductivity) (hT : 0 < m.thickness) (xo yo : ℝ) (o : Obs)
    (h : m.base < o.z) (h' : 0 < o.std) (c : Fin 6 → ℝ) :
    ∑ j, (m.rowOf xo yo o).1 j * c j = 0 ↔ conic c (o.x - xo) (o.y - yo) = 0 := by
  have hs := potentialStd_ne m hK hT o h h'
  have : ∑ j, (m.rowOf xo yo o).1 j * c j =
      conic c (o.x - xo) (o.y - yo) / potentialStd m.conductivity m.thickness (o.z - m.base) o.std := by
    rw [← conic_mono]
    unfold rowOf
    simp only
    rw [Finset.sum_div]
    refine Finset.sum_congr rfl fun i _ => by ring
  rw [this, div_eq_zero_iff]
  simp [hs]

/-- Orthogonality to all rows is vanishing at all observations. -/
theorem rows_degenerate (m : Aquifer ℝ) (hK : 0 < m.conductivity) (hT : 0 < m.thickness) (xo yo : ℝ) (obs : List Obs)
    (h : m.Usable obs) :
    (∃ c : Fin 6 → ℝ, c ≠ 0 ∧ ∀ r ∈ (obs.map (m.rowOf xo yo)).map Prod.fst, ∑ j, r j * c j = 0) ↔ OnOneConic obs := by
  have key : ∀ c : Fin 6 → ℝ, (∀ r ∈ (obs.map (m.rowOf xo yo)).map Prod.fst, ∑ j, r j * c j = 0) ↔
      ∀ o ∈ obs, conic c (o.x - xo) (o.y - yo) = 0 := by
    intro c
    simp only [List.map_map, List.mem_map, Function.comp, forall_exists_index, and_imp, forall_apply_eq_imp_iff₂]
    exact forall₂_congr fun o ho => row_orth m hK hT xo yo o (h o ho).1 (h o ho).2.1 c
  simp only [key]
  constructor
  · rintro ⟨c, hc, h0⟩
    refine ⟨shift c (-xo) (-yo), ?_, fun o ho => ?_⟩
    · intro hz
      apply hc
      apply conic_zero
      intro u v
      have := conic_shift c (-xo) (-yo) (u + xo) (v + yo)
      rw [hz] at this
      simp only [add_neg_cancel_right] at this
      rw [← this]; simp [conic]
    · rw [conic_shift, ← sub_eq_add_neg, ← sub_eq_add_neg]; exact h0 o ho
  · rintro ⟨c, hc, h0⟩
    refine ⟨shift c xo yo, ?_, fun o ho => ?_⟩
    · intro hz
      apply hc
      apply conic_zero
      intro u v
      have := conic_shift c xo yo (u - xo) (v - yo)
      rw [hz] at this
      simp only [sub_add_cancel] at this
      rw [← this]; simp [conic]
    · rw [conic_shift, sub_add_cancel, sub_add_cancel]; exact h0 o ho

/-! ## The fit -/

/-- The fit of usable observations, in terms of real numbers. -/
theorem fit_usable {la : LinAlg} {m : Aquifer ℝ} (hK : 0 < m.conductivity) (hT : 0 < m.thickness) {obs : List Obs} (xo yo : ℝ) (hu : m.Usable obs) :
    m.fitRegionalFlow la obs xo yo = match la.lstsq ((obs.map (m.rowOf xo yo)).map finRow) with
      | .error e => (m, .error e)
      | .ok ev =>
        match la.inv (fun i j => .fin (gram ((obs.map (m.rowOf xo yo)).map Prod.fst) i j)) with
        | .error e => (m, .error e)
        | .ok cov => ({ m with xo := xo, yo := yo, coef := ev }, .ok (ev, cov)) := by
  unfold fitRegionalFlow computeFit
  rw [constructFit_ok m hK hT xo yo obs hu]
  simp only [normalMatrix_fin]
  cases la.lstsq ((obs.map (m.rowOf xo yo)).map finRow) with
  | error e => rfl
  | ok ev =>
    simp only
    cases la.inv (fun i j => .fin (gram ((obs.map (m.rowOf xo yo)).map Prod.fst) i j)) <;> rfl

/-- What a successful fit of usable observations means. -/
theorem fit_ok {la : LinAlg} (hla : la.Correct) {m m' : Aquifer ℝ} (hK : 0 < m.conductivity) (hT : 0 < m.thickness) {obs : List Obs} {xo yo : ℝ} {ev : Fin 6 → ℝ}
    {cov : Matrix (Fin 6) (Fin 6) ℝ} (hu : m.Usable obs)
    (h : m.fitRegionalFlow la obs xo yo = (m', .ok (ev, cov))) :
    m' = { m with xo := xo, yo := yo, coef := ev } ∧
    (∀ c', misfit m obs (fun x y => conic ev (x - xo) (y - yo) + m.potentialWells x y) ≤
      misfit m obs (fun x y => conic c' (x - xo) (y - yo) + m.potentialWells x y)) ∧
    gram ((obs.map (m.rowOf xo yo)).map Prod.fst) * cov = 1 ∧
    cov * gram ((obs.map (m.rowOf xo yo)).map Prod.fst) = 1 := by
  rw [fit_usable hK hT xo yo hu] at h
  cases hl : la.lstsq ((obs.map (m.rowOf xo yo)).map finRow) with
  | error e => simp only [hl, Prod.mk.injEq, reduceCtorEq, and_false] at h
  | ok c =>
    cases hi : la.inv (fun i j => .fin (gram ((obs.map (m.rowOf xo yo)).map Prod.fst) i j)) with
    | error e => simp only [hl, hi, Prod.mk.injEq, reduceCtorEq, and_false] at h
    | ok B =>
      simp only [hl, hi, Prod.mk.injEq, Except.ok.injEq] at h
      obtain ⟨rfl, rfl, rfl⟩ := h
      refine ⟨rfl, fun c' => ?_, hla.inv_ok _ _ hi⟩
      rw [← sse_misfit, ← sse_misfit]
      exact hla.lstsq_min _ _ hl c'

/-- Every failing fit leaves the model alone. -/
theorem fit_error {la : LinAlg} {m m' : Aquifer ℝ} {obs : List Obs} {xo yo : ℝ} {e : PyErr}
    (h : m.fitRegionalFlow la obs xo yo = (m', .error e)) : m' = m := by
  unfold fitRegionalFlow at h
  split at h
  · exact (Prod.ext_iff.mp h).1.symm
  · split at h
    · exact (Prod.ext_iff.mp h).1.symm
    · simp at h

theorem misfit_nonneg (m : Aquifer ℝ) (obs : List Obs) (Φ : ℝ → ℝ → ℝ) : 0 ≤ misfit m obs Φ := sum_sq_nonneg _ _

/-- Two minimisers (over a family closed under averaging) agree at the observations. -/
theorem misfit_unique (m : Aquifer ℝ) (hK : 0 < m.conductivity) (hT : 0 < m.thickness) (obs : List Obs) (hu : m.Usable obs)
    (Φ Ψ : ℝ → ℝ → ℝ) (h : misfit m obs Φ ≤ misfit m obs (fun x y => (Φ x y + Ψ x y) / 2))
    (h' : misfit m obs Ψ ≤ misfit m obs (fun x y => (Φ x y + Ψ x y) / 2)) : ∀ o ∈ obs, Φ o.x o.y = Ψ o.x o.y := by
  have par : misfit m obs Φ + misfit m obs Ψ = 2 * misfit m obs (fun x y => (Φ x y + Ψ x y) / 2) +
      (obs.map fun o => ((Φ o.x o.y - Ψ o.x o.y) / potentialStd m.conductivity m.thickness (o.z - m.base) o.std) ^ 2).sum / 2 := by
    unfold misfit
    clear h h' hu
    induction obs with
    | nil => simp
    | cons o os ih =>
      simp only [List.map_cons, List.sum_cons]
      linear_combination ih
  have hz : (obs.map fun o => ((Φ o.x o.y - Ψ o.x o.y) / potentialStd m.conductivity m.thickness (o.z - m.base) o.std) ^ 2).sum = 0 := by
    apply le_antisymm
    · linarith
    · exact sum_sq_nonneg _ _
  intro o ho
  have := (sum_sq_eq_zero obs _).mp hz o ho
  rw [div_eq_zero_iff] at this
  rcases this with h | h
  · linarith
  · exact absurd h (potentialStd_ne m hK hT o (hu o ho).1 (hu o ho).2.1)

/-- A successful fit means the observations are not on one conic. -/
theorem fit_ok_nondegenerate {la : LinAlg} (hla : la.Correct) {m m' : Aquifer ℝ} {obs : List Obs} {xo yo : ℝ} {ev : Fin 6 → ℝ}
    {cov : Matrix (Fin 6) (Fin 6) ℝ} (hK : 0 < m.conductivity) (hT : 0 < m.thickness) (hu : m.Usable obs)
    (h : m.fitRegionalFlow la obs xo yo = (m', .ok (ev, cov))) : ¬ OnOneConic obs := by
  obtain ⟨-, -, h1, -⟩ := fit_ok hla hK hT hu h
  rw [← rows_degenerate m hK hT xo yo obs hu, ← normal_singular]
  exact fun hn => hn ⟨cov, h1⟩

/-- With observations not on one conic, two quadratics that agree at them are equal. -/
theorem conic_eq_of_agree {obs : List Obs} (hn : ¬ OnOneConic obs) {c d : Fin 6 → ℝ} {a b a' b' : ℝ}
    (h : ∀ o ∈ obs, conic c (o.x - a) (o.y - b) = conic d (o.x - a') (o.y - b')) :
    ∀ x y, conic c (x - a) (y - b) = conic d (x - a') (y - b') := by
  have e : shift c (-a) (-b) - shift d (-a') (-b') = 0 := by
    by_contra hne
    refine hn ⟨_, hne, fun o ho => ?_⟩
    rw [conic_sub, conic_shift, conic_shift]
    simp only [← sub_eq_add_neg]
    rw [h o ho, sub_self]
  intro x y
  have h1 := conic_shift c (-a) (-b) x y
  have h2 := conic_shift d (-a') (-b') x y
  simp only [← sub_eq_add_neg] at h1 h2
  rw [← h1, ← h2, sub_eq_zero.mp e]

/-- Averages of two quadratics about different origins are quadratics. -/
theorem conic_average (c d : Fin 6 → ℝ) (a b a' b' : ℝ) : ∃ e : Fin 6 → ℝ, ∀ x y,
    conic e (x - a) (y - b) = (conic c (x - a) (y - b) + conic d (x - a') (y - b')) / 2 := by
  refine ⟨fun i => (c i + shift d (a - a') (b - b') i) / 2, fun x y => ?_⟩
  have h := conic_shift d (a - a') (b - b') (x - a) (y - b)
  rw [show x - a + (a - a') = x - a' by ring, show y - b + (b - b') = y - b' by ring] at h
  rw [← h]
  simp only [conic]
  ring

/-- A least-squares solution always exists. -/
theorem lstsq_exists (rows : List ((Fin 6 → ℝ) × ℝ)) : ∃ c : Fin 6 → ℝ, ∀ c' : Fin 6 → ℝ,
    (rows.map fun r => (∑ i, r.1 i * c i - r.2) ^ 2).sum ≤ (rows.map fun r => (∑ i, r.1 i * c' i - r.2) ^ 2).sum := by
  let n := rows.length
  let L : (Fin 6 → ℝ) →ₗ[ℝ] EuclideanSpace ℝ (Fin n) :=
    { toFun := fun c => WithLp.toLp 2 fun k => ∑ i, (rows[k]).1 i * c i
      map_add' := fun c d => by
        ext k; simp [mul_add, Finset.sum_add_distrib]
      map_smul' := fun s c => by
        ext k; simp [Finset.mul_sum]; exact Finset.sum_congr rfl fun i _ => by ring }
  let b : EuclideanSpace ℝ (Fin n) := WithLp.toLp 2 fun k => (rows[k]).2
  have hsum : ∀ c, (rows.map fun r => (∑ i, r.1 i * c i - r.2) ^ 2).sum = ‖b - L c‖ ^ 2 := by
    intro c
    rw [EuclideanSpace.norm_eq, Real.sq_sqrt (Finset.sum_nonneg fun _ _ => by positivity)]
    rw [← Fin.sum_univ_fun_getElem rows (fun r => (∑ i, r.1 i * c i - r.2) ^ 2)]
    refine Finset.sum_congr rfl fun k _ => ?_
    simp only [L, b, LinearMap.coe_mk, AddHom.coe_mk, PiLp.sub_apply, Real.norm_eq_abs, sq_abs]
    exact sub_sq_comm _ _
  obtain ⟨v, hv, hmin⟩ := (LinearMap.range L).exists_norm_eq_iInf_of_complete_subspace
    (Submodule.complete_of_finiteDimensional _) b
  obtain ⟨c, rfl⟩ := hv
  refine ⟨c, fun c' => ?_⟩
  rw [hsum, hsum, hmin]
  have : (⨅ w : LinearMap.range L, ‖b - (w : EuclideanSpace ℝ (Fin n))‖) ≤ ‖b - L c'‖ :=
    ciInf_le (f := fun w : LinearMap.range L => ‖b - (w : EuclideanSpace ℝ (Fin n))‖)
      ⟨0, by rintro _ ⟨w, rfl⟩; exact norm_nonneg _⟩ ⟨L c', ⟨c', rfl⟩⟩
  exact pow_le_pow_left₀ (Real.iInf_nonneg fun _ => norm_nonneg _) this 2

end Aquifer

/-! ## Degenerate layouts -/

/-- Fewer than six distinct locations always lie on one conic. -/
theorem conic_of_few (obs : List Obs) (locs : Finset (ℝ × ℝ)) (hcard : locs.card < 6)
    (hloc : ∀ o ∈ obs, (o.x, o.y) ∈ locs) : OnOneConic obs := by
  classical
  let L : (Fin 6 → ℝ) →ₗ[ℝ] (locs → ℝ) :=
    { toFun := fun c p => conic c p.1.1 p.1.2
      map_add' := fun c d => by funext p; simp [conic]; ring
      map_smul' := fun s c => by funext p; simp [conic]; ring }
  have : LinearMap.ker L ≠ ⊥ := LinearMap.ker_ne_bot_of_finrank_lt (by simpa using hcard)
  obtain ⟨c, hc, hne⟩ := Submodule.exists_mem_ne_zero_of_ne_bot this
  refine ⟨c, hne, fun o ho => ?_⟩
  have := congrFun (LinearMap.mem_ker.mp hc) ⟨(o.x, o.y), hloc o ho⟩
  exact this

/-- Collinear locations always lie on one conic, however many there are. -/
theorem conic_of_collinear (obs : List Obs) (a b c : ℝ) (hab : a ≠ 0 ∨ b ≠ 0) (h : ∀ o ∈ obs, a * o.x + b * o.y + c = 0) :
    OnOneConic obs := by
  refine ⟨![0, 0, 0, a, b, c], ?_, fun o ho => ?_⟩
  · intro hz
    rcases hab with h | h
    · exact h (congrFun hz 3)
    · exact h (congrFun hz 4)
  · simp [conic]; exact h o ho

/-- Only the set of locations matters. -/
theorem conic_of_locations (obs obs' : List Obs) (h : ∀ p : ℝ × ℝ, (∃ o ∈ obs, (o.x, o.y) = p) ↔ ∃ o ∈ obs', (o.x, o.y) = p) :
    OnOneConic obs ↔ OnOneConic obs' := by
  constructor
  · rintro ⟨c, hc, h0⟩
    refine ⟨c, hc, fun o ho => ?_⟩
    obtain ⟨o', ho', e⟩ := (h (o.x, o.y)).mpr ⟨o, ho, rfl⟩
    have := h0 o' ho'
    rw [Prod.mk.injEq] at e
    rwa [e.1, e.2] at this
  · rintro ⟨c, hc, h0⟩
    refine ⟨c, hc, fun o ho => ?_⟩
    obtain ⟨o', ho', e⟩ := (h (o.x, o.y)).mp ⟨o, ho, rfl⟩
    have := h0 o' ho'
    rw [Prod.mk.injEq] at e
    rwa [e.1, e.2] at this

end Oneka
