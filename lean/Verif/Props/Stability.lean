import Verif.Lemmas.Stability

/-!
# C110: the covariance matrix tells how far the fitted potential can be off

`spread V (x - xo) (y - yo)` is the standard deviation of the fitted potential at `(x, y)` according to the returned covariance matrix `V` (`Verif/Spec/Stability.lean`).  This file says what that number is
worth without any assumption about chance: it bounds the effect of an inexact solver (`C110_solver`), it is exactly the room left to flows that fit almost as well (`C110_range`), it is never more than the
standard deviation of a measurement at that place (`C110_site`), and it bounds the effect of changed levels.  The last is proved among confined levels (`C110_levels_partial`, `C110_damped_partial`); what is
missing are unconfined levels, where it is false (`C110_fails_unconfined`).
-/

namespace Oneka
open Matrix Aquifer

/-- C110: the potentials at `(x, y)` of the flows whose misfit exceeds the least one by at most `η ^ 2` are exactly those within `η` standard deviations of the fitted potential. -/
theorem C110_range (la : LinAlg) (hla : la.Correct) (m m' : Aquifer ℝ) (hK : 0 < m.conductivity) (hT : 0 < m.thickness) (obs : List Obs) (xo yo : ℝ) (ev : Fin 6 → ℝ)
    (cov : Matrix (Fin 6) (Fin 6) ℝ) (hu : m.Usable obs) (h : m.fitRegionalFlow la obs xo yo = (m', .ok (ev, cov))) (η : ℝ) (hη : 0 ≤ η) (x y v : ℝ) :
    (∃ c : Fin 6 → ℝ, misfit m obs ({ m with xo := xo, yo := yo, coef := c } : Aquifer ℝ).potential ≤ misfit m obs m'.potential + η ^ 2 ∧
      ({ m with xo := xo, yo := yo, coef := c } : Aquifer ℝ).potential x y = v) ↔
    |v - m'.potential x y| ≤ η * spread cov (x - xo) (y - yo) := by
  obtain ⟨rfl, h1, h2⟩ := fit_excess hla hK hT hu h
  rw [spread_eq]
  constructor
  · rintro ⟨c, hc, rfl⟩
    rw [potential_sub]
    rw [h2 c] at hc
    exact within_spread h1 hη (by linarith)
  · intro hv
    obtain ⟨d, hd1, hd2⟩ := inverse_attained h1 _ hη hv
    refine ⟨ev + d, ?_, ?_⟩
    · rw [h2 (ev + d), add_sub_cancel_left]
      linarith
    · have := potential_sub m xo yo (ev + d) ev x y
      rw [add_sub_cancel_left, hd1] at this
      linarith

/-- C110: a solver that comes within `η ^ 2` of the least misfit gives everywhere a potential within `η` standard deviations of the exact one. -/
theorem C110_solver (la la' : LinAlg) (hla : la.Correct) (η : ℝ) (hη : 0 ≤ η) (hla' : la'.Within η) (m m₁ m₂ : Aquifer ℝ) (hK : 0 < m.conductivity) (hT : 0 < m.thickness) (obs : List Obs)
    (xo yo : ℝ) (hu : m.Usable obs) (ev ev' : Fin 6 → ℝ) (cov cov' : Matrix (Fin 6) (Fin 6) ℝ) (h : m.fitRegionalFlow la obs xo yo = (m₁, .ok (ev, cov)))
    (h' : m.fitRegionalFlow la' obs xo yo = (m₂, .ok (ev', cov'))) (x y : ℝ) : |m₂.potential x y - m₁.potential x y| ≤ η * spread cov (x - xo) (y - yo) := by
  obtain ⟨rfl, h2⟩ := fit_within hla' hK hT hu h'
  have h1 := (fit_ok hla hK hT hu h).1
  refine (C110_range la hla m m₁ hK hT obs xo yo ev cov hu h η hη x y _).mp ⟨ev', ?_, rfl⟩
  rw [h1]
  exact h2 ev

/-- C110: at an observation the standard deviation of the fitted potential is at most that of the measured one. -/
theorem C110_site (la : LinAlg) (hla : la.Correct) (m m' : Aquifer ℝ) (hK : 0 < m.conductivity) (hT : 0 < m.thickness) (obs : List Obs) (xo yo : ℝ) (ev : Fin 6 → ℝ)
    (cov : Matrix (Fin 6) (Fin 6) ℝ) (hu : m.Usable obs) (h : m.fitRegionalFlow la obs xo yo = (m', .ok (ev, cov))) (o : Obs) (ho : o ∈ obs) :
    spread cov (o.x - xo) (o.y - yo) ≤ potentialStd m.conductivity m.thickness (o.z - m.base) o.std := by
  obtain ⟨-, h1, -⟩ := fit_excess hla hK hT hu h
  obtain ⟨hz, hs, -⟩ := hu o ho
  have hne := potentialStd_ne m hK hT o hz hs
  have hp : 0 ≤ potentialStd m.conductivity m.thickness (o.z - m.base) o.std := by
    unfold potentialStd
    have : 0 < min (o.z - m.base) m.thickness := lt_min (by linarith) hT
    positivity
  have hl := inverse_leverage h1 (r := (m.rowOf xo yo o).1) (List.mem_map.mpr ⟨_, List.mem_map.mpr ⟨o, ho, rfl⟩, rfl⟩)
  have e : (m.rowOf xo yo o).1 = (potentialStd m.conductivity m.thickness (o.z - m.base) o.std)⁻¹ • mono (o.x - xo) (o.y - yo) := by
    funext i
    simp only [rowOf, Pi.smul_apply, smul_eq_mul]
    ring
  rw [e, Matrix.mulVec_smul, smul_dotProduct, dotProduct_smul] at hl
  simp only [smul_eq_mul] at hl
  rw [spread_eq]
  refine Real.sqrt_le_iff.mpr ⟨hp, ?_⟩
  have h3 : 0 < potentialStd m.conductivity m.thickness (o.z - m.base) o.std := lt_of_le_of_ne hp hne.symm
  rw [inv_mul_le_iff₀ h3, inv_mul_le_iff₀ h3] at hl
  nlinarith

/-- C110, for confined levels: if they change by `levelChange site z z'` standard deviations, the fitted potential changes everywhere by at most as many of its own standard deviations, and the potentials at the
sites change together, in standard deviations of the measurements, by at most as much as the levels.  (Full claim: the same for all levels above the base.) -/
theorem C110_levels_partial {n : ℕ} (la : LinAlg) (hla : la.Correct) (hc : la.Converges) (m : Aquifer ℝ) (hK : 0 < m.conductivity) (hT : 0 < m.thickness) (xo yo : ℝ) (site : Fin n → Site)
    (hs : m.Suitable site) (z z' : Fin n → ℝ) (hz : ∀ i, m.thickness ≤ z i - m.base) (hz' : ∀ i, m.thickness ≤ z' i - m.base) :
    ∃ m₁ ev₁ m₂ ev₂ V, m.fitRegionalFlow la (observed site z) xo yo = (m₁, .ok (ev₁, V)) ∧ m.fitRegionalFlow la (observed site z') xo yo = (m₂, .ok (ev₂, V)) ∧
      (∀ x y, |m₂.potential x y - m₁.potential x y| ≤ levelChange site z z' * spread V (x - xo) (y - yo)) ∧
      √(∑ i, ((m₂.potential (site i).x (site i).y - m₁.potential (site i).x (site i).y) / (m.conductivity * m.thickness * (site i).std)) ^ 2) ≤ levelChange site z z' := by
  refine ⟨_, _, _, _, _, fit_confined hla hc hK hT hs hz, fit_confined hla hc hK hT hs hz', ?_⟩
  set A := m.design xo yo site with hA
  set S := m.smoother xo yo site with hS
  set e : Fin n → ℝ := fun i => (z' i - z i) / (site i).std with he
  have hdet : IsUnit (Aᵀ * A).det := isUnit_iff_ne_zero.mpr (design_det hK hT hs)
  have hdiff : (S *ᵥ fun i => z' i / (site i).std + m.offset site i) - (S *ᵥ fun i => z i / (site i).std + m.offset site i) = S *ᵥ e := by
    rw [← Matrix.mulVec_sub]
    congr 1
    funext i
    simp only [he, Pi.sub_apply]
    ring
  have hproj : Aᵀ * A * S = Aᵀ := Matrix.mul_nonsing_inv_cancel_left _ _ hdet
  have hshort := projection_short A S hproj e
  have hee : e ⬝ᵥ e = ∑ i, ((z' i - z i) / (site i).std) ^ 2 := Finset.sum_congr rfl fun i _ => by simp only [he]; ring
  have hsq : levelChange site z z' ^ 2 = e ⬝ᵥ e := by
    unfold levelChange
    rw [Real.sq_sqrt (Finset.sum_nonneg fun i _ => sq_nonneg _), hee]
  have h0 : 0 ≤ levelChange site z z' := Real.sqrt_nonneg _
  constructor
  · intro x y
    rw [potential_sub, hdiff, spread_eq]
    have hg := gram_confined (xo := xo) (yo := yo) hK hT hs hz
    refine within_spread (rows := ((observed site z).map (m.rowOf xo yo)).map Prod.fst) ?_ h0 ?_
    · rw [hg]
      exact Matrix.mul_nonsing_inv _ hdet
    · rw [hg, ← hA, hsq, ← Matrix.mulVec_mulVec, Matrix.dotProduct_mulVec, ← Matrix.mulVec_transpose, Matrix.transpose_transpose]
      exact hshort
  · refine (Real.sqrt_le_sqrt (y := e ⬝ᵥ e) ?_).trans (by rw [← hsq, Real.sqrt_sq h0])
    refine (le_of_eq ?_).trans hshort
    refine Finset.sum_congr rfl fun i _ => ?_
    rw [potential_sub, hdiff, hA, design_row]
    ring

/-- C110, for confined levels: if one level changes, the fitted potential at that place changes by at most `K T` times as much.  (Full claim: it changes by at most as much as the measured potential, for all levels
above the base.) -/
theorem C110_damped_partial {n : ℕ} (la : LinAlg) (hla : la.Correct) (hc : la.Converges) (m : Aquifer ℝ) (hK : 0 < m.conductivity) (hT : 0 < m.thickness) (xo yo : ℝ) (site : Fin n → Site)
    (hs : m.Suitable site) (z : Fin n → ℝ) (hz : ∀ i, m.thickness ≤ z i - m.base) (i : Fin n) (z' : ℝ) (hz' : m.thickness ≤ z' - m.base) :
    ∃ m₁ r₁ m₂ r₂, m.fitRegionalFlow la (observed site z) xo yo = (m₁, .ok r₁) ∧ m.fitRegionalFlow la (observed site (Function.update z i z')) xo yo = (m₂, .ok r₂) ∧
      |m₂.potential (site i).x (site i).y - m₁.potential (site i).x (site i).y| ≤ m.conductivity * m.thickness * |z' - z i| := by
  have hz2 : ∀ k, m.thickness ≤ Function.update z i z' k - m.base := by
    intro k
    rcases eq_or_ne k i with rfl | h
    · simpa using hz'
    · simpa [h] using hz k
  obtain ⟨m₁, ev₁, m₂, ev₂, V, h1, h2, h3, -⟩ := C110_levels_partial la hla hc m hK hT xo yo site hs z _ hz hz2
  refine ⟨m₁, _, m₂, _, h1, h2, (h3 _ _).trans ?_⟩
  have h4 := C110_site la hla m m₁ hK hT _ xo yo ev₁ V (observed_usable hs fun i => by linarith [hz i]) h1 _ (mem_observed.mpr ⟨i, rfl⟩)
  have h5 := hs.std_pos i
  unfold potentialStd at h4
  rw [min_eq_right (hz i)] at h4
  dsimp only at h4
  rw [levelChange_single, abs_div, abs_of_pos h5]
  calc |z' - z i| / (site i).std * spread V ((site i).x - xo) ((site i).y - yo) ≤ |z' - z i| / (site i).std * (m.conductivity * m.thickness * (site i).std) :=
        mul_le_mul_of_nonneg_left h4 (by positivity)
    _ = m.conductivity * m.thickness * |z' - z i| := by field_simp

/-- Among unconfined levels it is false: with six sites, raising one level changes the fitted potential there by more standard deviations than the level. -/
theorem C110_fails_unconfined (la : LinAlg) (hla : la.Correct) (hc : la.Converges) (m : Aquifer ℝ) (hK : 0 < m.conductivity) (hT : 0 < m.thickness) (xo yo : ℝ) (site : Fin 6 → Site)
    (hs : m.Suitable site) (z : Fin 6 → ℝ) (hz : ∀ i, m.base < z i) (i : Fin 6) (z' : ℝ) (hup : z i < z') (hlow : z' - m.base < m.thickness) :
    ∃ m₁ ev₁ V m₂ r₂, m.fitRegionalFlow la (observed site z) xo yo = (m₁, .ok (ev₁, V)) ∧ m.fitRegionalFlow la (observed site (Function.update z i z')) xo yo = (m₂, .ok r₂) ∧
      levelChange site z (Function.update z i z') * spread V ((site i).x - xo) ((site i).y - yo) < |m₂.potential (site i).x (site i).y - m₁.potential (site i).x (site i).y| := by
  have hz2 : ∀ k, m.base < Function.update z i z' k := by
    intro k
    rcases eq_or_ne k i with rfl | h
    · simp; linarith [hz k]
    · simpa [h] using hz k
  obtain ⟨m₁, ⟨ev₁, V⟩, a1, a2⟩ := interpolates (xo := xo) (yo := yo) hla hc hK hT hs hz
  obtain ⟨m₂, r₂, b1, b2⟩ := interpolates (xo := xo) (yo := yo) hla hc hK hT hs hz2
  refine ⟨m₁, ev₁, V, m₂, r₂, a1, b1, ?_⟩
  have h4 := C110_site la hla m m₁ hK hT _ xo yo ev₁ V (observed_usable hs hz) a1 _ (mem_observed.mpr ⟨i, rfl⟩)
  have h5 := hs.std_pos i
  have h6 : z i - m.base < m.thickness := by linarith
  have h7 := hz i
  unfold potentialStd at h4
  rw [min_eq_left h6.le] at h4
  dsimp only at h4
  rw [a2, b2, levelChange_single, abs_div, abs_of_pos h5, abs_of_pos (by linarith : 0 < z' - z i)]
  unfold expectedPotential potentialOfHead
  simp only [Function.update_self, if_pos h6, if_pos hlow]
  refine lt_of_lt_of_le (b := m.conductivity * ((z' - m.base) ^ 2 - (z i - m.base) ^ 2) / 2) ?_ ((le_of_eq (by ring)).trans (le_abs_self _))
  calc (z' - z i) / (site i).std * spread V ((site i).x - xo) ((site i).y - yo) ≤ (z' - z i) / (site i).std * (m.conductivity * (z i - m.base) * (site i).std) :=
        mul_le_mul_of_nonneg_left h4 (div_nonneg (by linarith) h5.le)
    _ = m.conductivity * ((z' - z i) * (z i - m.base)) := by field_simp
    _ < m.conductivity * (((z' - m.base) ^ 2 - (z i - m.base) ^ 2) / 2) := by
        refine mul_lt_mul_of_pos_left ?_ hK
        nlinarith
    _ = m.conductivity * ((z' - m.base) ^ 2 - (z i - m.base) ^ 2) / 2 := by ring

end Oneka
