import Verif.Lemmas.Field
import Mathlib.Order.Bounds.Basic

namespace Oneka
variable {K : Type} [Field K] [LinearOrder K] [IsStrictOrderedRing K]

theorem length2_pos (ax ay bx «by» : K) (h : (ax, ay) ≠ (bx, «by»)) :
    0 < (bx - ax) * (bx - ax) + («by» - ay) * («by» - ay) := by
  by_contra hc
  push Not at hc
  have h1 := mul_self_nonneg (bx - ax)
  have h2 := mul_self_nonneg («by» - ay)
  have e1 : (bx - ax) * (bx - ax) = 0 := by linarith
  have e2 : («by» - ay) * («by» - ay) = 0 := by linarith
  have e1 := mul_self_eq_zero.mp e1
  have e2 := mul_self_eq_zero.mp e2
  exact h (Prod.ext (by simpa using (sub_eq_zero.mp e1).symm) (by simpa using (sub_eq_zero.mp e2).symm))

theorem distancesquared_isLeast (np : Bool) (ax ay bx «by» cx cy : K) (h : (ax, ay) ≠ (bx, «by»)) :
    ∃ d2, distancesquared np ax ay bx «by» cx cy = .ok (some d2) ∧
      IsLeast (segDists ax ay bx «by» cx cy) d2 := by
  have hL := length2_pos ax ay bx «by» h
  unfold distancesquared
  simp only [if_neg hL.ne']
  set L := (bx - ax) * (bx - ax) + («by» - ay) * («by» - ay) with hLdef
  set D := (bx - ax) * (cx - ax) + («by» - ay) * (cy - ay) with hD
  set Q := (bx - ax) * (cy - ay) - («by» - ay) * (cx - ax) with hQ
  have key : Q * Q / L + D * D / L = (cx - ax) ^ 2 + (cy - ay) ^ 2 := by
    rw [← add_div, div_eq_iff hL.ne']; simp only [hQ, hD, hLdef]; ring
  have quad : ∀ t : K, (cx - (ax + t * (bx - ax))) ^ 2 + (cy - (ay + t * («by» - ay))) ^ 2
      = (Q * Q / L + D * D / L) - 2 * t * D + t ^ 2 * L := by
    intro t; rw [key]; simp only [hD, hLdef]; ring
  split_ifs with h1 h2
  · refine ⟨_, rfl, ⟨0, le_refl _, zero_le_one, ?_⟩, ?_⟩
    · rw [quad]; ring
    · rintro s ⟨t, t0, t1, rfl⟩
      rw [quad]
      have : 0 ≤ t * (-D) := mul_nonneg t0 (by linarith)
      have : 0 ≤ t ^ 2 * L := by positivity
      linarith
  · have hDL : L < D := by
      rw [lt_div_iff₀ hL] at h2
      by_contra hc; push Not at hc
      have : D * D ≤ L * L := mul_le_mul hc hc (by linarith) hL.le
      linarith
    refine ⟨_, rfl, ⟨1, zero_le_one, le_refl _, ?_⟩, ?_⟩
    · rw [quad]; ring
    · rintro s ⟨t, t0, t1, rfl⟩
      rw [quad]
      have : 0 ≤ (1 - t) * (2 * D - (1 + t) * L) := by
        apply mul_nonneg (by linarith)
        have : (1 + t) * L ≤ 2 * L := mul_le_mul_of_nonneg_right (by linarith) hL.le
        linarith
      have e : (1 - t) * (2 * D - (1 + t) * L) = (-(2 * t * D) + t ^ 2 * L) - (-(2 * D) + L) := by ring
      linarith
  · have hDL : D ≤ L := by
      push Not at h1 h2
      rw [div_le_iff₀ hL] at h2
      by_contra hc; push Not at hc
      have : L * L < D * D := mul_lt_mul'' hc hc hL.le hL.le
      linarith
    push Not at h1
    have e : ∀ t : K, D * D / L - 2 * t * D + t ^ 2 * L = L * (t - D / L) ^ 2 := by
      intro t; field_simp; ring
    refine ⟨_, rfl, ⟨D / L, by positivity, (div_le_one hL).mpr hDL, ?_⟩, ?_⟩
    · rw [quad]; linear_combination -(e (D / L))
    · rintro s ⟨t, t0, t1, rfl⟩
      rw [quad]
      have : 0 ≤ L * (t - D / L) ^ 2 := by positivity
      have := e t
      linarith

omit [IsStrictOrderedRing K] in
theorem near_iff_of_isLeast {ax ay bx «by» cx cy d2 u : K}
    (h : IsLeast (segDists ax ay bx «by» cx cy) d2) :
    d2 < u * u ↔ NearSegment ax ay bx «by» u cx cy := by
  constructor
  · intro hlt
    obtain ⟨t, t0, t1, e⟩ := h.1
    exact ⟨t, t0, t1, by rw [← e, pow_two]; exact hlt⟩
  · rintro ⟨t, t0, t1, e⟩
    have := h.2 ⟨t, t0, t1, rfl⟩
    calc d2 ≤ _ := this
      _ < u ^ 2 := e
      _ = u * u := pow_two u

end Oneka
