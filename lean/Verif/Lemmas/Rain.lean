import Verif.Spec.Rain
import Verif.Lemmas.Still
import Verif.Lemmas.Rivals

/-!
# Lemmas for Props/Rain.lean
-/

namespace Oneka

open Aquifer

section
variable {m : Aquifer ℝ} {w : Well ℝ} {N : ℝ} (h : m.Raining w N)
include h

theorem rain_discharge (x y : ℝ) :
    m.discharge x y = ((N / 2 - w.qw * (twoPiInv : ℝ) / w.r2 x y) * (x - w.xw), (N / 2 - w.qw * (twoPiInv : ℝ) / w.r2 x y) * (y - w.yw)) := by
  rw [discharge_eq, h.wells, h.origin.1, h.origin.2, h.recharge.1, h.recharge.2, h.even.1, h.even.2.1, h.even.2.2]
  simp
  constructor <;> ring

theorem rain_off {p : ℝ × ℝ} : m.OffWells p.1 p.2 ↔ 0 < w.r2 p.1 p.2 := by
  constructor
  · intro hoff
    exact r2_pos_of_ne (p := p) (hoff w (by rw [h.wells]; exact List.mem_singleton.mpr rfl))
  · intro hr w' hw' e
    rw [h.wells, List.mem_singleton] at hw'
    subst hw'
    obtain ⟨e1, e2⟩ := Prod.mk.inj e
    simp [Well.r2, e1, e2] at hr

theorem rain_flows {confined : Bool} {p V : ℝ × ℝ} (hm : m.Physical) : m.FlowsWith confined p V ↔ 0 < w.r2 p.1 p.2 ∧ ∃ b, m.Saturated confined p.1 p.2 b ∧
    V = (1 / (m.porosity * b) * (N / 2 - w.qw * twoPiInv / w.r2 p.1 p.2) * (p.1 - w.xw), 1 / (m.porosity * b) * (N / 2 - w.qw * twoPiInv / w.r2 p.1 p.2) * (p.2 - w.yw)) := by
  constructor
  · rintro ⟨hoff, b, hb, d1, d2⟩
    have hnb : 0 < m.porosity * b := mul_pos hm.porosity (saturated_pos hm hb)
    obtain ⟨e1, e2⟩ := C29_partials m _ _ hoff
    have u1 := d1.unique e1
    have u2 := d2.unique e2
    rw [rain_discharge h] at u1 u2
    refine ⟨(rain_off h).mp hoff, b, hb, Prod.ext ?_ ?_⟩
    · simp only at u1 ⊢
      rw [mul_assoc, one_div, eq_inv_mul_iff_mul_eq₀ hnb.ne']
      linarith
    · simp only at u2 ⊢
      rw [mul_assoc, one_div, eq_inv_mul_iff_mul_eq₀ hnb.ne']
      linarith
  · rintro ⟨hr, b, hb, rfl⟩
    have hnb : 0 < m.porosity * b := mul_pos hm.porosity (saturated_pos hm hb)
    have hoff := (rain_off h).mpr hr
    obtain ⟨e1, e2⟩ := C29_partials m _ _ hoff
    rw [rain_discharge h] at e1 e2
    have cancel : ∀ z : ℝ, m.porosity * b * (1 / (m.porosity * b) * z) = z := fun z => by
      rw [← mul_assoc, mul_one_div_cancel hnb.ne', one_mul]
    refine ⟨hoff, b, hb, e1.congr_deriv ?_, e2.congr_deriv ?_⟩
    · simp only
      rw [mul_assoc (1 / _), cancel]
    · simp only
      rw [mul_assoc (1 / _), cancel]

/-- the rates of change along the path of a water particle -/
theorem rain_rates (hm : m.Physical) {confined : Bool} {γ : ℝ → ℝ × ℝ} {τ : ℝ} (hγ : m.Carries confined γ τ) {s : ℝ} (h0 : 0 ≤ s) (h1 : s ≤ τ) :
    0 < w.r2 (γ s).1 (γ s).2 ∧ ∃ b, m.Saturated confined (γ s).1 (γ s).2 b ∧
      HasDerivAt (fun t => (γ t).1 - w.xw) (1 / (m.porosity * b) * (N / 2 - w.qw * twoPiInv / w.r2 (γ s).1 (γ s).2) * ((γ s).1 - w.xw)) s ∧
      HasDerivAt (fun t => (γ t).2 - w.yw) (1 / (m.porosity * b) * (N / 2 - w.qw * twoPiInv / w.r2 (γ s).1 (γ s).2) * ((γ s).2 - w.yw)) s ∧
      HasDerivAt (fun t => w.r2 (γ t).1 (γ t).2) (1 / (m.porosity * b) * (N * w.r2 (γ s).1 (γ s).2 - 2 * (w.qw * twoPiInv))) s := by
  obtain ⟨V, hV, hd⟩ := hγ s h0 h1
  obtain ⟨hr, b, hb, rfl⟩ := (rain_flows h hm).mp hV
  have hd1 : HasDerivAt (fun t => (γ t).1) _ s := (ContinuousLinearMap.fst ℝ ℝ ℝ).hasFDerivAt.comp_hasDerivAt s hd
  have hd2 : HasDerivAt (fun t => (γ t).2) _ s := (ContinuousLinearMap.snd ℝ ℝ ℝ).hasFDerivAt.comp_hasDerivAt s hd
  have k1 := hd1.sub_const w.xw
  have k2 := hd2.sub_const w.yw
  refine ⟨hr, b, hb, k1, k2, ((k1.pow 2).add (k2.pow 2)).congr_deriv ?_⟩
  have e : ((γ s).1 - w.xw) ^ 2 + ((γ s).2 - w.yw) ^ 2 = w.r2 (γ s).1 (γ s).2 := rfl
  have e2 : w.qw * twoPiInv / w.r2 (γ s).1 (γ s).2 * w.r2 (γ s).1 (γ s).2 = w.qw * twoPiInv := div_mul_cancel₀ _ hr.ne'
  simp only [ContinuousLinearMap.coe_fst', ContinuousLinearMap.coe_snd', Nat.cast_ofNat]
  set k := w.qw * (twoPiInv : ℝ) / w.r2 (γ s).1 (γ s).2
  linear_combination (2 * (1 / (m.porosity * b)) * (N / 2 - k)) * e - 2 * (1 / (m.porosity * b)) * e2

/-- inside the circle of balance water moves towards the well, outside it moves away -/
theorem rain_monotone (hm : m.Physical) {confined : Bool} {γ : ℝ → ℝ × ℝ} {τ : ℝ} (hγ : m.Carries confined γ τ) {a b : ℝ} (h0 : 0 ≤ a) (hab : a ≤ b) (hb : b ≤ τ) :
    (N * w.r2 (γ a).1 (γ a).2 < 2 * (w.qw * twoPiInv) → w.r2 (γ b).1 (γ b).2 ≤ w.r2 (γ a).1 (γ a).2) ∧
    (2 * (w.qw * twoPiInv) < N * w.r2 (γ a).1 (γ a).2 → w.r2 (γ a).1 (γ a).2 ≤ w.r2 (γ b).1 (γ b).2) := by
  have rates := fun s (hs : s ∈ Set.Icc a b) => rain_rates h hm hγ (h0.trans hs.1) (hs.2.trans hb)
  choose! hr B hB d1 d2 d using rates
  have cont : ContinuousOn (fun t => w.r2 (γ t).1 (γ t).2) (Set.Icc a b) := fun s hs => (d s hs).continuousAt.continuousWithinAt
  have pos : ∀ s ∈ Set.Icc a b, 0 < 1 / (m.porosity * B s) := fun s hs => one_div_pos.mpr (mul_pos hm.porosity (saturated_pos hm (hB s hs)))
  constructor
  · intro hlt
    refine image_le_of_deriv_right_lt_deriv_boundary (f := fun t => w.r2 (γ t).1 (γ t).2) (B := fun _ => w.r2 (γ a).1 (γ a).2) (B' := fun _ => 0) cont
      (fun s hs => (d s (Set.Ico_subset_Icc_self hs)).hasDerivWithinAt) le_rfl (fun s => hasDerivAt_const s _) (fun s hs e => ?_) ⟨hab, le_rfl⟩
    beta_reduce at e
    rw [e]
    exact mul_neg_of_pos_of_neg (pos s (Set.Ico_subset_Icc_self hs)) (by linarith)
  · intro hlt
    have := image_le_of_deriv_right_lt_deriv_boundary (f := fun t => -w.r2 (γ t).1 (γ t).2) (B := fun _ => -w.r2 (γ a).1 (γ a).2) (B' := fun _ => 0) cont.neg
      (fun s hs => (d s (Set.Ico_subset_Icc_self hs)).neg.hasDerivWithinAt) le_rfl (fun s => hasDerivAt_const s _) (fun s hs e => ?_) (x := b) ⟨hab, le_rfl⟩
    · exact neg_le_neg_iff.mp this
    · have e' : w.r2 (γ s).1 (γ s).2 = w.r2 (γ a).1 (γ a).2 := neg_inj.mp e
      rw [e', neg_lt_zero]
      exact mul_pos (pos s (Set.Ico_subset_Icc_self hs)) (by linarith)

/-- the exact paths in a confined aquifer -/
theorem rain_path (hm : m.Physical) (hN : N ≠ 0) {γ : ℝ → ℝ × ℝ} {τ : ℝ} (h0 : 0 ≤ τ) (hγ : m.Carries true γ τ) :
    γ 0 = rainSpoke w (2 * (w.qw * twoPiInv) / N) (N / (m.porosity * m.thickness)) (γ τ) τ := by
  set α := N / (m.porosity * m.thickness) with hα
  set R2 := 2 * (w.qw * twoPiInv) / N with hR2
  have hRN : N * R2 = 2 * (w.qw * twoPiInv) := by rw [hR2]; field_simp
  have rates : ∀ s ∈ Set.Icc 0 τ, 0 < w.r2 (γ s).1 (γ s).2 ∧ ∃ k, HasDerivAt (fun t => (γ t).1 - w.xw) (k * ((γ s).1 - w.xw)) s ∧
      HasDerivAt (fun t => (γ t).2 - w.yw) (k * ((γ s).2 - w.yw)) s ∧ HasDerivAt (fun t => w.r2 (γ t).1 (γ t).2) (2 * k * w.r2 (γ s).1 (γ s).2) s ∧
      HasDerivAt (fun t => w.r2 (γ t).1 (γ t).2) (α * (w.r2 (γ s).1 (γ s).2 - R2)) s := by
    intro s hs
    obtain ⟨hr, b, hb, d1, d2, d⟩ := rain_rates h hm hγ hs.1 hs.2
    simp only [Saturated, if_true] at hb
    subst hb
    have e2 : w.qw * twoPiInv / w.r2 (γ s).1 (γ s).2 * w.r2 (γ s).1 (γ s).2 = w.qw * twoPiInv := div_mul_cancel₀ _ hr.ne'
    refine ⟨hr, _, d1, d2, d.congr_deriv ?_, d.congr_deriv ?_⟩
    · linear_combination (2 * (1 / (m.porosity * m.thickness))) * e2
    · rw [hα]
      linear_combination (1 / (m.porosity * m.thickness)) * hRN
  have const : ∀ (f : ℝ → ℝ), (∀ s ∈ Set.Icc 0 τ, HasDerivAt f 0 s) → f τ = f 0 := by
    intro f hf
    exact constant_of_has_deriv_right_zero (fun s hs => (hf s hs).continuousAt.continuousWithinAt) (fun s hs => (hf s (Set.Ico_subset_Icc_self hs)).hasDerivWithinAt) τ ⟨h0, le_rfl⟩
  have hr0 := (rates 0 ⟨le_rfl, h0⟩).1
  have hrτ := (rates τ ⟨h0, le_rfl⟩).1
  have c0 := const (fun t => (w.r2 (γ t).1 (γ t).2 - R2) * Real.exp (-(α * t))) (fun s hs => by
    obtain ⟨-, k, -, -, -, d⟩ := rates s hs
    have de : HasDerivAt (fun t => Real.exp (-(α * t))) (Real.exp (-(α * s)) * (-α)) s := by
      have := (((hasDerivAt_id s).const_mul α).neg).exp
      exact this.congr_deriv (by simp)
    exact ((d.sub_const R2).mul de).congr_deriv (by ring))
  beta_reduce at c0
  simp only [mul_zero, neg_zero, Real.exp_zero, mul_one] at c0
  have e0 : w.r2 (γ 0).1 (γ 0).2 = R2 + (w.r2 (γ τ).1 (γ τ).2 - R2) * Real.exp (-(α * τ)) := by linarith
  have fin : ∀ A : ℝ → ℝ, (∀ s ∈ Set.Icc 0 τ, ∃ k, HasDerivAt A (k * A s) s ∧ HasDerivAt (fun t => w.r2 (γ t).1 (γ t).2) (2 * k * w.r2 (γ s).1 (γ s).2) s) →
      A 0 = Real.sqrt (w.r2 (γ 0).1 (γ 0).2 / w.r2 (γ τ).1 (γ τ).2) * A τ := by
    intro A hA
    have dir := const (fun t => A t / Real.sqrt (w.r2 (γ t).1 (γ t).2)) fun s hs => by
      obtain ⟨k, dA, d⟩ := hA s hs
      have hr := (rates s hs).1
      have hs0 := Real.sqrt_pos.mpr hr
      refine (dA.div (d.sqrt hr.ne') hs0.ne').congr_deriv ?_
      have e := Real.sq_sqrt hr.le
      rw [div_eq_zero_iff]
      left
      have hs' := hs0.ne'
      field_simp
      rw [e]
      ring
    beta_reduce at dir
    have s0 := (Real.sqrt_pos.mpr hr0).ne'
    have sτ := (Real.sqrt_pos.mpr hrτ).ne'
    rw [Real.sqrt_div hr0.le]
    rw [div_eq_div_iff sτ s0] at dir
    field_simp
    linarith
  rw [e0] at fin
  refine Prod.ext ?_ ?_
  · have := fin (fun t => (γ t).1 - w.xw) fun s hs => by
      obtain ⟨-, k, d1, -, d, -⟩ := rates s hs
      exact ⟨k, d1, d⟩
    simp only [rainSpoke]
    linarith
  · have := fin (fun t => (γ t).2 - w.yw) fun s hs => by
      obtain ⟨-, k, -, d2, d, -⟩ := rates s hs
      exact ⟨k, d2, d⟩
    simp only [rainSpoke]
    linarith

end

theorem rainSpoke_zero (w : Well ℝ) (R2 α : ℝ) {p : ℝ × ℝ} (hp : 0 < w.r2 p.1 p.2) : rainSpoke w R2 α p 0 = p := by
  simp [rainSpoke, hp.ne']

theorem rain_positive {R2 α r s : ℝ} (hR : 0 ≤ R2) (hα : 0 ≤ α) (hr : 0 < r) (hs : 0 ≤ s) : 0 < R2 + (r - R2) * Real.exp (-(α * s)) := by
  have h1 : Real.exp (-(α * s)) ≤ 1 := Real.exp_le_one_iff.mpr (neg_nonpos.mpr (mul_nonneg hα hs))
  have h2 := Real.exp_pos (-(α * s))
  nlinarith [mul_nonneg hR (sub_nonneg.mpr h1), mul_pos hr h2]

theorem rainSpoke_r2 (w : Well ℝ) (R2 α : ℝ) {p : ℝ × ℝ} (hp : 0 < w.r2 p.1 p.2) {s : ℝ} (hs : 0 ≤ R2 + (w.r2 p.1 p.2 - R2) * Real.exp (-(α * s))) :
    w.r2 (rainSpoke w R2 α p s).1 (rainSpoke w R2 α p s).2 = R2 + (w.r2 p.1 p.2 - R2) * Real.exp (-(α * s)) := by
  have e := Real.sq_sqrt (div_nonneg hs hp.le)
  have e2 : w.r2 (rainSpoke w R2 α p s).1 (rainSpoke w R2 α p s).2 = Real.sqrt ((R2 + (w.r2 p.1 p.2 - R2) * Real.exp (-(α * s))) / w.r2 p.1 p.2) ^ 2 * w.r2 p.1 p.2 := by
    simp only [rainSpoke, Well.r2]
    ring
  rw [e2, e, div_mul_cancel₀ _ hp.ne']

/-- the way upstream -/
theorem rainSpoke_deriv (w : Well ℝ) (R2 α : ℝ) {p : ℝ × ℝ} (hp : 0 < w.r2 p.1 p.2) {s : ℝ} (hs : 0 < R2 + (w.r2 p.1 p.2 - R2) * Real.exp (-(α * s))) :
    HasDerivAt (rainSpoke w R2 α p) (-(α / 2) * (1 - R2 / w.r2 (rainSpoke w R2 α p s).1 (rainSpoke w R2 α p s).2) * ((rainSpoke w R2 α p s).1 - w.xw),
      -(α / 2) * (1 - R2 / w.r2 (rainSpoke w R2 α p s).1 (rainSpoke w R2 α p s).2) * ((rainSpoke w R2 α p s).2 - w.yw)) s := by
  have de : HasDerivAt (fun t => Real.exp (-(α * t))) (Real.exp (-(α * s)) * (-α)) s := by
    have := (((hasDerivAt_id s).const_mul α).neg).exp
    exact this.congr_deriv (by simp)
  have d := ((de.const_mul (w.r2 p.1 p.2 - R2)).const_add R2).div_const (w.r2 p.1 p.2)
  have hq := div_pos hs hp
  have d' := d.sqrt hq.ne'
  rw [rainSpoke_r2 w R2 α hp hs.le]
  have hs0 := (Real.sqrt_pos.mpr hq).ne'
  have e := Real.sq_sqrt hq.le
  have hp' := hp.ne'
  have key : ((w.r2 p.1 p.2 - R2) * (Real.exp (-(α * s)) * -α) / w.r2 p.1 p.2) / (2 * Real.sqrt ((R2 + (w.r2 p.1 p.2 - R2) * Real.exp (-(α * s))) / w.r2 p.1 p.2)) =
      -(α / 2) * (1 - R2 / (R2 + (w.r2 p.1 p.2 - R2) * Real.exp (-(α * s)))) * Real.sqrt ((R2 + (w.r2 p.1 p.2 - R2) * Real.exp (-(α * s))) / w.r2 p.1 p.2) := by
    rw [div_eq_iff (by simpa using hs0)]
    have hs' := hs.ne'
    generalize Real.sqrt ((R2 + (w.r2 p.1 p.2 - R2) * Real.exp (-(α * s))) / w.r2 p.1 p.2) = S at e
    have e5 : -(α / 2) * (1 - R2 / (R2 + (w.r2 p.1 p.2 - R2) * Real.exp (-(α * s)))) * S * (2 * S) = -α * (1 - R2 / (R2 + (w.r2 p.1 p.2 - R2) * Real.exp (-(α * s)))) * S ^ 2 := by ring
    rw [e5, e]
    field_simp
    ring
  refine (((d'.mul_const (p.1 - w.xw)).const_add w.xw).prodMk ((d'.mul_const (p.2 - w.yw)).const_add w.yw)).congr_deriv (Prod.ext ?_ ?_)
  · simp only
    rw [key]
    simp only [rainSpoke]
    ring
  · simp only
    rw [key]
    simp only [rainSpoke]
    ring

theorem rain_carries {m : Aquifer ℝ} {w : Well ℝ} {N : ℝ} (h : m.Raining w N) (hm : m.Physical) (hN : 0 < N) (hq : 0 ≤ w.qw) {p : ℝ × ℝ} (hp : 0 < w.r2 p.1 p.2) (τ : ℝ) :
    m.Carries true (fun s => rainSpoke w (2 * (w.qw * twoPiInv) / N) (N / (m.porosity * m.thickness)) p (τ - s)) τ := by
  intro s s0 s1
  have hnb : 0 < m.porosity * m.thickness := mul_pos hm.porosity hm.thickness
  have hc := close_pos twoPiInv_close
  have hpos := rain_positive (R2 := 2 * (w.qw * twoPiInv) / N) (α := N / (m.porosity * m.thickness)) (s := τ - s) (by positivity) (by positivity) hp (sub_nonneg.mpr s1)
  have hr : 0 < w.r2 (rainSpoke w (2 * (w.qw * twoPiInv) / N) (N / (m.porosity * m.thickness)) p (τ - s)).1 (rainSpoke w (2 * (w.qw * twoPiInv) / N) (N / (m.porosity * m.thickness)) p (τ - s)).2 := by
    rw [rainSpoke_r2 w _ _ hp hpos.le]
    exact hpos
  refine ⟨_, (rain_flows h hm).mpr ⟨hr, m.thickness, by simp [Saturated], rfl⟩, ?_⟩
  have := (rainSpoke_deriv w (2 * (w.qw * twoPiInv) / N) (N / (m.porosity * m.thickness)) hp hpos).scomp s ((hasDerivAt_id s).const_sub τ)
  have hr' := hr.ne'
  refine this.congr_deriv (Prod.ext ?_ ?_)
  · simp only [Prod.smul_mk, smul_eq_mul]
    field_simp
  · simp only [Prod.smul_mk, smul_eq_mul]
    field_simp

/-- the radius of the circle that gets as much recharge as the well pumps -/
theorem rain_radius {w : Well ℝ} {N : ℝ} (hN : 0 < N) (hq : 0 < w.qw) : 0 < Real.sqrt (2 * (w.qw * twoPiInv) / N) ∧
    Real.sqrt (2 * (w.qw * twoPiInv) / N) ^ 2 = 2 * (w.qw * twoPiInv) / N ∧ |N * (Real.pi * Real.sqrt (2 * (w.qw * twoPiInv) / N) ^ 2) - w.qw| ≤ w.qw / 10 ^ 16 := by
  have hc := close_pos twoPiInv_close
  have hpos : 0 < 2 * (w.qw * (twoPiInv : ℝ)) / N := by positivity
  refine ⟨Real.sqrt_pos.mpr hpos, Real.sq_sqrt hpos.le, ?_⟩
  rw [Real.sq_sqrt hpos.le]
  have e : N * (Real.pi * (2 * (w.qw * (twoPiInv : ℝ)) / N)) - w.qw = w.qw * (2 * Real.pi * twoPiInv - 1) := by
    field_simp
  rw [e, abs_mul, abs_of_pos hq]
  have := mul_le_mul_of_nonneg_left twoPiInv_close.le hq.le
  linarith

theorem rain_below {w : Well ℝ} {p : ℝ × ℝ} {x : ℝ} (hx : 0 ≤ x) : euclid p (w.xw, w.yw) < x ↔ w.r2 p.1 p.2 < x ^ 2 := by
  rw [← euclid_sq_r2]
  exact (sq_lt_sq₀ (Real.sqrt_nonneg _) hx).symm

theorem rain_above {w : Well ℝ} {p : ℝ × ℝ} {x : ℝ} (hx : 0 ≤ x) : x < euclid p (w.xw, w.yw) ↔ x ^ 2 < w.r2 p.1 p.2 := by
  rw [← euclid_sq_r2]
  exact (sq_lt_sq₀ hx (Real.sqrt_nonneg _)).symm

theorem rain_nearer {w : Well ℝ} {p q : ℝ × ℝ} : euclid p (w.xw, w.yw) ≤ euclid q (w.xw, w.yw) ↔ w.r2 p.1 p.2 ≤ w.r2 q.1 q.2 := by
  rw [← euclid_sq_r2, ← euclid_sq_r2]
  exact (sq_le_sq₀ (Real.sqrt_nonneg _) (Real.sqrt_nonneg _)).symm

end Oneka
