import Verif.Spec.Barrier
import Verif.Lemmas.Arrival
import Verif.Lemmas.Still

/-!
# Lemmas for Props/Barrier.lean
-/

namespace Oneka

open Aquifer Set

/-- where water flows, the discharge is a positive multiple of the velocity -/
theorem flows_discharge {m : Aquifer ℝ} (hm : m.Physical) {confined : Bool} {p v : ℝ × ℝ} (h : m.FlowsWith confined p v) : ∃ k, 0 < k ∧ (m.discharge p.1 p.2).1 = k * v.1 ∧ (m.discharge p.1 p.2).2 = k * v.2 := by
  obtain ⟨hoff, b, hb, d1, d2⟩ := h
  obtain ⟨e1, e2⟩ := C29_partials m _ _ hoff
  exact ⟨m.porosity * b, mul_pos hm.porosity (saturated_pos hm hb), by linarith [d1.unique e1], by linarith [d2.unique e2]⟩

/-- water that is inside at the end was always inside -/
theorem barrier_keeps {m : Aquifer ℝ} (hm : m.Physical) {g gx gy : ℝ × ℝ → ℝ} (hg : m.CrossedOutward g gx gy) {confined : Bool} {γ : ℝ → ℝ × ℝ} {τ : ℝ} (hγ : m.Carries confined γ τ) (hend : g (γ τ) ≤ 0) {s : ℝ}
    (h0 : 0 ≤ s) (h1 : s ≤ τ) : g (γ s) ≤ 0 := by
  choose! v hv hd using hγ
  have hD : ∀ t ∈ Icc 0 τ, HasDerivAt (fun t => g (γ (τ - t))) (-(gx (γ (τ - t)) * (v (τ - t)).1 + gy (γ (τ - t)) * (v (τ - t)).2)) t := by
    intro t ht
    have e := HasDerivAt.scomp t (hd (τ - t) (by linarith [ht.2]) (by linarith [ht.1])) ((hasDerivAt_id t).const_sub τ)
    have := (hg.gradient (γ (τ - t))).comp_hasDerivAt t e
    exact this.congr_deriv (by simp; ring)
  have key := image_le_of_deriv_right_lt_deriv_boundary' (a := 0) (b := τ) (f := fun t => g (γ (τ - t))) (f' := fun t => -(gx (γ (τ - t)) * (v (τ - t)).1 + gy (γ (τ - t)) * (v (τ - t)).2))
    (B := fun _ => 0) (B' := fun _ => 0) (fun t ht => (hD t ht).continuousAt.continuousWithinAt) (fun t ht => (hD t ⟨ht.1, ht.2.le⟩).hasDerivWithinAt) (by simpa using hend)
    continuousOn_const (fun t _ => hasDerivWithinAt_const _ _ _) (fun t ht he => ?_) (x := τ - s) ⟨by linarith, by linarith⟩
  · simpa using key
  · have hf := hv (τ - t) (by linarith [ht.2]) (by linarith [ht.1])
    obtain ⟨k, hk, q1, q2⟩ := flows_discharge hm hf
    have := hg.outward _ he hf.1
    rw [q1, q2] at this
    have h2 : 0 < k * (gx (γ (τ - t)) * (v (τ - t)).1 + gy (γ (τ - t)) * (v (τ - t)).2) := by linarith
    have := (pos_iff_pos_of_mul_pos h2).mp hk
    show -(gx (γ (τ - t)) * (v (τ - t)).1 + gy (γ (τ - t)) * (v (τ - t)).2) < 0
    linarith

theorem line_gradient (x y nx ny : ℝ) (p : ℝ × ℝ) :
    HasFDerivAt (fun p : ℝ × ℝ => (p.1 - x) * nx + (p.2 - y) * ny) (nx • ContinuousLinearMap.fst ℝ ℝ ℝ + ny • ContinuousLinearMap.snd ℝ ℝ ℝ) p := by
  have h1 := (ContinuousLinearMap.fst ℝ ℝ ℝ).hasFDerivAt (x := p)
  have h2 := (ContinuousLinearMap.snd ℝ ℝ ℝ).hasFDerivAt (x := p)
  have := ((h1.sub_const x).mul_const nx).add ((h2.sub_const y).mul_const ny)
  exact this

theorem circle_gradient (x y R : ℝ) (p : ℝ × ℝ) :
    HasFDerivAt (fun p : ℝ × ℝ => (p.1 - x) ^ 2 + (p.2 - y) ^ 2 - R ^ 2) ((2 * (p.1 - x)) • ContinuousLinearMap.fst ℝ ℝ ℝ + (2 * (p.2 - y)) • ContinuousLinearMap.snd ℝ ℝ ℝ) p := by
  have h1 := (ContinuousLinearMap.fst ℝ ℝ ℝ).hasFDerivAt (x := p)
  have h2 := (ContinuousLinearMap.snd ℝ ℝ ℝ).hasFDerivAt (x := p)
  have := (((h1.sub_const x).pow 2).add ((h2.sub_const y).pow 2)).sub_const (R ^ 2)
  refine this.congr_fderiv ?_
  ext <;> simp

theorem euclid_le_iff {p : ℝ × ℝ} {x y R : ℝ} (hR : 0 ≤ R) : euclid p (x, y) ≤ R ↔ (p.1 - x) ^ 2 + (p.2 - y) ^ 2 - R ^ 2 ≤ 0 := by
  unfold euclid
  rw [Real.sqrt_le_left hR]
  constructor <;> intro h <;> nlinarith

/-- a place within `d` of a half plane -/
theorem half_plane_near {x y nx ny X Y d : ℝ} {q : ℝ × ℝ} (hq : (q.1 - x) * nx + (q.2 - y) * ny ≤ 0) (hd : euclid q (X, Y) < d) : (X - x) * nx + (Y - y) * ny ≤ d * Real.sqrt (nx ^ 2 + ny ^ 2) := by
  have h1 : (X - q.1) * nx + (Y - q.2) * ny ≤ Real.sqrt ((X - q.1) ^ 2 + (Y - q.2) ^ 2) * Real.sqrt (nx ^ 2 + ny ^ 2) := by
    rw [← Real.sqrt_mul (by positivity)]
    refine Real.le_sqrt_of_sq_le ?_
    nlinarith [sq_nonneg ((X - q.1) * ny - (Y - q.2) * nx)]
  have h2 : Real.sqrt ((X - q.1) ^ 2 + (Y - q.2) ^ 2) * Real.sqrt (nx ^ 2 + ny ^ 2) ≤ d * Real.sqrt (nx ^ 2 + ny ^ 2) := mul_le_mul_of_nonneg_right hd.le (Real.sqrt_nonneg _)
  linarith

end Oneka
