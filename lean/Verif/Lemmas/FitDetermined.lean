import Mathlib.LinearAlgebra.Matrix.NonsingularInverse
import Verif.Lemmas.Fit
import Verif.Lemmas.PartMeas

/-! With correct linear algebra the result of a fit is a function of the weighted system alone. -/

namespace Oneka
namespace Aquifer
open Matrix

/-- `WA.T @ Wb` for finite rows -/
def rhs (rows : List ((Fin 6 → ℝ) × ℝ)) : Fin 6 → ℝ := fun i => (rows.map fun r => r.1 i * r.2).sum

theorem sse_shift (rows : List ((Fin 6 → ℝ) × ℝ)) (c e : Fin 6 → ℝ) :
    (rows.map fun r => (∑ i, r.1 i * (c + e) i - r.2) ^ 2).sum =
      (rows.map fun r => (∑ i, r.1 i * c i - r.2) ^ 2).sum + 2 * (e ⬝ᵥ (gram (rows.map Prod.fst) *ᵥ c - rhs rows)) +
        (rows.map fun r => (∑ i, r.1 i * e i) ^ 2).sum := by
  have h : e ⬝ᵥ (gram (rows.map Prod.fst) *ᵥ c - rhs rows) = (rows.map fun r => (∑ i, r.1 i * e i) * (∑ i, r.1 i * c i - r.2)).sum := by
    unfold dotProduct
    simp only [Pi.sub_apply, normal_mulVec, rhs, List.map_map, Function.comp_def]
    induction rows with
    | nil => simp
    | cons r rows ih =>
      simp only [List.map_cons, List.sum_cons]
      rw [← ih, Finset.sum_mul, ← Finset.sum_add_distrib]
      refine Finset.sum_congr rfl fun i _ => by ring
  rw [h]
  clear h
  induction rows with
  | nil => simp
  | cons r rows ih =>
    simp only [List.map_cons, List.sum_cons, ih]
    have : ∑ i, r.1 i * (c + e) i = ∑ i, r.1 i * c i + ∑ i, r.1 i * e i := by
      rw [← Finset.sum_add_distrib]
      exact Finset.sum_congr rfl fun i _ => by simp [mul_add]
    rw [this]
    ring

theorem minimiser_eq {rows : List ((Fin 6 → ℝ) × ℝ)} {c : Fin 6 → ℝ} (hd : (gram (rows.map Prod.fst)).det ≠ 0)
    (h : ∀ c' : Fin 6 → ℝ, (rows.map fun r => (∑ i, r.1 i * c i - r.2) ^ 2).sum ≤ (rows.map fun r => (∑ i, r.1 i * c' i - r.2) ^ 2).sum) :
    c = (gram (rows.map Prod.fst))⁻¹ *ᵥ rhs rows := by
  set G := gram (rows.map Prod.fst) with hG
  have hu : IsUnit G.det := isUnit_iff_ne_zero.mpr hd
  set b := G⁻¹ *ᵥ rhs rows with hb
  have hn : G *ᵥ b = rhs rows := by
    rw [hb, Matrix.mulVec_mulVec, Matrix.mul_nonsing_inv _ hu, Matrix.one_mulVec]
  have h1 := sse_shift rows b (c - b)
  rw [← hG, hn, sub_self, dotProduct_zero, mul_zero, add_zero] at h1
  have h2 := h b
  rw [show b + (c - b) = c by abel] at h1
  rw [h1] at h2
  have h3 : (rows.map fun r => (∑ i, r.1 i * (c - b) i) ^ 2).sum = 0 := le_antisymm (by linarith) (sum_sq_nonneg _ _)
  have h4 : G *ᵥ (c - b) = 0 := by
    rw [hG, normal_kernel]
    intro r hr
    obtain ⟨p, hp, rfl⟩ := List.mem_map.mp hr
    exact (sum_sq_eq_zero rows fun r => ∑ i, r.1 i * (c - b) i).mp h3 p hp
  have h5 : c - b = 0 := by
    have := congrArg (G⁻¹ *ᵥ ·) h4
    simpa [Matrix.mulVec_mulVec, Matrix.nonsing_inv_mul _ hu] using this
  exact sub_eq_zero.mp h5

open Classical in
/-- the real row that a row of floats stands for -/
noncomputable def finPart (r : (Fin 6 → XR) × XR) : Option ((Fin 6 → ℝ) × ℝ) :=
  if NonFinite r then none else some (fun i => (r.1 i).val, r.2.val)

theorem isFin_val {x : XR} (h : x.IsFin) : XR.fin x.val = x := by
  cases x <;> first | rfl | exact absurd h (by simp [XR.IsFin])

theorem finPart_some {r : (Fin 6 → XR) × XR} {p : (Fin 6 → ℝ) × ℝ} (h : finPart r = some p) : r = finRow p := by
  unfold finPart at h
  split at h
  · cases h
  · rename_i hn
    obtain rfl := Option.some.inj h
    unfold NonFinite at hn
    push Not at hn
    exact Prod.ext (funext fun i => (isFin_val (hn.1 i)).symm) (isFin_val hn.2).symm

/-- the normal equations -/
noncomputable def fitSys (m : Aquifer ℝ) (xo yo : ℝ) : List Obs → Option (Matrix (Fin 6) (Fin 6) ℝ × (Fin 6 → ℝ))
  | [] => some (0, 0)
  | o :: os => (m.fitRow xo yo o).toOption.bind fun r => (finPart r).bind fun p => (m.fitSys xo yo os).bind fun s =>
      some (fun i j => p.1 i * p.1 j + s.1 i j, fun i => p.1 i * p.2 + s.2 i)

theorem constructFit_sys (m : Aquifer ℝ) (xo yo : ℝ) (obs : List Obs) : match m.constructFit xo yo obs with
    | .error _ => m.fitSys xo yo obs = none
    | .ok rows => ((∃ r ∈ rows, NonFinite r) ∧ m.fitSys xo yo obs = none) ∨
        ∃ reals, rows = List.map finRow reals ∧ m.fitSys xo yo obs = some (gram (reals.map Prod.fst), rhs reals) := by
  induction obs with
  | nil =>
    simp only [constructFit, fitSys]
    refine .inr ⟨[], rfl, ?_⟩
    congr 1
  | cons o os ih =>
    unfold constructFit fitSys
    cases hr : m.fitRow xo yo o with
    | error e => simp [Except.toOption]
    | ok r =>
      simp only [Except.toOption, Option.bind_some]
      by_cases hn : NonFinite r
      · have hp : finPart r = none := by unfold finPart; rw [if_pos hn]
        rw [hp]
        cases hc : m.constructFit xo yo os with
        | error e => rfl
        | ok rows => exact .inl ⟨⟨r, by simp, hn⟩, rfl⟩
      · have hp : finPart r = some (fun i => (r.1 i).val, r.2.val) := by unfold finPart; rw [if_neg hn]
        have e := finPart_some hp
        rw [hp]
        simp only [Option.bind_some]
        cases hc : m.constructFit xo yo os with
        | error e =>
          rw [hc] at ih
          simp only at ih ⊢
          rw [ih]
          rfl
        | ok rows =>
          rw [hc] at ih
          simp only at ih ⊢
          rcases ih with ⟨⟨r', h1, h2⟩, h3⟩ | ⟨reals, rfl, h3⟩
          · exact .inl ⟨⟨r', by simp [h1], h2⟩, by rw [h3]; rfl⟩
          · refine .inr ⟨(fun i => (r.1 i).val, r.2.val) :: reals, by rw [List.map_cons, ← e], ?_⟩
            rw [h3]
            simp only [Option.bind_some, Option.some.injEq]
            refine Prod.ext ?_ ?_
            · funext i j; simp [gram]
            · funext i; simp [rhs]

open Classical in
/-- The result of the fit: the solution of the normal equations, and the inverse of the normal matrix. -/
theorem fit_determined {la : LinAlg} (hla : la.Correct) (hc : la.Converges) (hs : la.Strict) (m : Aquifer ℝ) (xo yo : ℝ) (obs : List Obs) :
    (m.fitRegionalFlow la obs xo yo).2.toOption = (m.fitSys xo yo obs).bind fun s => if s.1.det = 0 then none else some (s.1⁻¹ *ᵥ s.2, s.1⁻¹) := by
  have h := constructFit_sys m xo yo obs
  unfold fitRegionalFlow
  cases hcf : m.constructFit xo yo obs with
  | error e =>
    rw [hcf] at h
    simp only at h
    rw [h]
    rfl
  | ok rows =>
    rw [hcf] at h
    simp only at h ⊢
    unfold computeFit
    rcases h with ⟨h1, h2⟩ | ⟨reals, rfl, h2⟩
    · rw [hs _ h1, h2]
      rfl
    · rw [h2, normalMatrix_fin]
      simp only [Option.bind_some]
      obtain ⟨c, hcc⟩ := hc reals
      rw [hcc]
      simp only
      set G := gram (reals.map Prod.fst) with hG
      by_cases hd : G.det = 0
      · rw [if_pos hd]
        cases hi : la.inv (fun i j => .fin (G i j)) with
        | error e => rfl
        | ok B =>
          have := congrArg Matrix.det (hla.inv_ok _ _ hi).1
          rw [Matrix.det_mul, hd, zero_mul, Matrix.det_one] at this
          exact absurd this zero_ne_one
      · rw [if_neg hd]
        cases hi : la.inv (fun i j => .fin (G i j)) with
        | error e => exact absurd ⟨G⁻¹, Matrix.mul_nonsing_inv _ (isUnit_iff_ne_zero.mpr hd)⟩ (hla.inv_singular _ _ hi)
        | ok B =>
          simp only [Except.toOption]
          rw [minimiser_eq hd (hla.lstsq_min _ _ hcc), Matrix.inv_eq_right_inv (hla.inv_ok _ _ hi).1]

end Aquifer
end Oneka
