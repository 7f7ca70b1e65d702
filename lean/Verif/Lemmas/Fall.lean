import Verif.Lemmas.Clock

/-!
# Lemmas for Props/Fall.lean
-/

namespace Oneka

open Aquifer Set

/-- with the vector `w`, any multiple `n b` of `2 w·γ - |w|² t` grows more slowly than the potential falls -/
theorem fall_antitone {m : Aquifer ℝ} (hm : m.Physical) {confined : Bool} {γ : ℝ → ℝ × ℝ} {τ : ℝ} (h0 : 0 ≤ τ) (hγ : m.Carries confined γ τ) (w : ℝ × ℝ) {b : ℝ} (hb0 : 0 ≤ b)
    (hb : ∀ t ∈ Icc 0 τ, b ≤ thickAt m confined (γ t)) :
    m.potential (γ τ).1 (γ τ).2 + m.porosity * b * (2 * (w.1 * (γ τ).1 + w.2 * (γ τ).2) - (w.1 ^ 2 + w.2 ^ 2) * τ) ≤
      m.potential (γ 0).1 (γ 0).2 + m.porosity * b * (2 * (w.1 * (γ 0).1 + w.2 * (γ 0).2)) := by
  have hn := hm.porosity
  choose! v hv hd using hγ
  have hD : ∀ t ∈ Icc 0 τ, HasDerivAt (fun t => m.potential (γ t).1 (γ t).2 + m.porosity * b * (2 * (w.1 * (γ t).1 + w.2 * (γ t).2) - (w.1 ^ 2 + w.2 ^ 2) * t))
      (-((m.discharge (γ t).1 (γ t).2).1 * (v t).1 + (m.discharge (γ t).1 (γ t).2).2 * (v t).2) + m.porosity * b * (2 * (w.1 * (v t).1 + w.2 * (v t).2) - (w.1 ^ 2 + w.2 ^ 2) * 1)) t := by
    intro t ht
    have p1 := (potential_fderiv m (hv t ht.1 ht.2).1).comp_hasDerivAt t (hd t ht.1 ht.2)
    have g1 : HasDerivAt (fun s => (γ s).1) (v t).1 t := ((ContinuousLinearMap.fst ℝ ℝ ℝ).hasFDerivAt.comp_hasDerivAt t (hd t ht.1 ht.2)).congr_deriv (by simp)
    have g2 : HasDerivAt (fun s => (γ s).2) (v t).2 t := ((ContinuousLinearMap.snd ℝ ℝ ℝ).hasFDerivAt.comp_hasDerivAt t (hd t ht.1 ht.2)).congr_deriv (by simp)
    have p2 : HasDerivAt (fun t => m.potential (γ t).1 (γ t).2) (-((m.discharge (γ t).1 (γ t).2).1 * (v t).1 + (m.discharge (γ t).1 (γ t).2).2 * (v t).2)) t := p1.congr_deriv (by simp [form]; ring)
    exact p2.add (((((g1.const_mul w.1).add (g2.const_mul w.2)).const_mul 2).sub ((hasDerivAt_id t).const_mul (w.1 ^ 2 + w.2 ^ 2))).const_mul (m.porosity * b))
  have key := antitoneOn_of_deriv_nonpos (convex_Icc 0 τ) (fun t ht => (hD t ht).continuousAt.continuousWithinAt) (fun t ht => (hD t (interior_subset ht)).differentiableAt.differentiableWithinAt)
    (fun t ht => ?_) (left_mem_Icc.mpr h0) (right_mem_Icc.mpr h0) h0
  · simpa using key
  have ht' := interior_subset ht
  rw [(hD t ht').deriv]
  obtain ⟨hoff, b', hs, d1, d2⟩ := hv t ht'.1 ht'.2
  obtain ⟨e1, e2⟩ := C29_partials m _ _ hoff
  have q1 : (m.discharge (γ t).1 (γ t).2).1 = m.porosity * b' * (v t).1 := by linarith [d1.unique e1]
  have q2 : (m.discharge (γ t).1 (γ t).2).2 = m.porosity * b' * (v t).2 := by linarith [d2.unique e2]
  have hbb : b ≤ b' := by rw [saturated_thickAt hm hs]; exact hb t ht'
  rw [q1, q2]
  have s1 : 0 ≤ m.porosity * (b' - b) * ((v t).1 ^ 2 + (v t).2 ^ 2) := mul_nonneg (mul_nonneg hn.le (by linarith)) (by positivity)
  have s2 : 0 ≤ m.porosity * b * (((v t).1 - w.1) ^ 2 + ((v t).2 - w.2) ^ 2) := by positivity
  linarith

theorem fall_distance {m : Aquifer ℝ} (hm : m.Physical) {confined : Bool} {γ : ℝ → ℝ × ℝ} {τ b : ℝ} (h0 : 0 ≤ τ) (hγ : m.Carries confined γ τ) (hb : m.Saturated confined (γ τ).1 (γ τ).2 b) :
    m.porosity * b * euclid (γ 0) (γ τ) ^ 2 ≤ τ * (m.potential (γ 0).1 (γ 0).2 - m.potential (γ τ).1 (γ τ).2) := by
  have hb0 := saturated_pos hm hb
  have he : euclid (γ 0) (γ τ) ^ 2 = ((γ τ).1 - (γ 0).1) ^ 2 + ((γ τ).2 - (γ 0).2) ^ 2 := by
    unfold euclid
    rw [Real.sq_sqrt (by positivity)]
  rw [he]
  rcases h0.eq_or_lt with rfl | hpos
  · simp
  have key := fall_antitone hm h0 hγ (((γ τ).1 - (γ 0).1) / τ, ((γ τ).2 - (γ 0).2) / τ) hb0.le fun t ht => by rw [saturated_thickAt hm hb]; exact thickAt_upstream hm confined hγ ht.1 ht.2
  simp only at key
  generalize m.potential (γ τ).1 (γ τ).2 = A at *
  generalize m.potential (γ 0).1 (γ 0).2 = B at *
  generalize (γ τ).1 = x1 at *
  generalize (γ τ).2 = y1 at *
  generalize (γ 0).1 = x0 at *
  generalize (γ 0).2 = y0 at *
  have e : τ * (m.porosity * b * (2 * ((x1 - x0) / τ * x1 + (y1 - y0) / τ * y1) - (((x1 - x0) / τ) ^ 2 + ((y1 - y0) / τ) ^ 2) * τ) - m.porosity * b * (2 * ((x1 - x0) / τ * x0 + (y1 - y0) / τ * y0))) =
      m.porosity * b * ((x1 - x0) ^ 2 + (y1 - y0) ^ 2) := by
    field_simp
    ring
  rw [← e]
  exact mul_le_mul_of_nonneg_left (by linarith) h0

/-- a part of a path is a path -/
theorem carries_part {m : Aquifer ℝ} {confined : Bool} {γ : ℝ → ℝ × ℝ} {τ s t : ℝ} (h : m.Carries confined γ τ) (hs : 0 ≤ s) (ht : t ≤ τ) : m.Carries confined (fun r => γ (r + s)) (t - s) := by
  intro r r0 r1
  obtain ⟨v, hv, hd⟩ := h (r + s) (by linarith) (by linarith)
  exact ⟨v, hv, HasDerivAt.comp_add_const r s hd⟩

theorem euclid_zero_eq {p q : ℝ × ℝ} (h : euclid p q ^ 2 ≤ 0) : q = p := by
  unfold euclid at h
  rw [Real.sq_sqrt (by positivity)] at h
  have h1 : (q.1 - p.1) ^ 2 = 0 := le_antisymm (by linarith [sq_nonneg (q.2 - p.2)]) (sq_nonneg _)
  have h2 : (q.2 - p.2) ^ 2 = 0 := le_antisymm (by linarith [sq_nonneg (q.1 - p.1)]) (sq_nonneg _)
  exact Prod.ext (by linarith [pow_eq_zero_iff (two_ne_zero) |>.mp h1]) (by linarith [pow_eq_zero_iff (two_ne_zero) |>.mp h2])

end Oneka
