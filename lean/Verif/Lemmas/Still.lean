import Verif.Spec.Still
import Verif.Lemmas.Width

/-!
# Lemmas for Props/Still.lean
-/

namespace Oneka

open Aquifer

section
variable {m : Aquifer ℝ} {w : Well ℝ} (h : m.AtRest w)
include h

theorem AtRest.uniform : m.UniformFlow w 0 0 :=
  ⟨h.wells, ⟨h.coef 0 (by decide), h.coef 1 (by decide), h.coef 2 (by decide)⟩, by rw [h.coef 3 (by decide), neg_zero], by rw [h.coef 4 (by decide), neg_zero]⟩

theorem still_off {p : ℝ × ℝ} : m.OffWells p.1 p.2 ↔ 0 < w.r2 p.1 p.2 := by
  constructor
  · intro hoff
    have hne := hoff w (by rw [h.wells]; exact List.mem_singleton.mpr rfl)
    by_contra hle
    unfold Well.r2 at hle
    have a1 : (p.1 - w.xw) ^ 2 = 0 := by nlinarith [sq_nonneg (p.1 - w.xw), sq_nonneg (p.2 - w.yw)]
    have a2 : (p.2 - w.yw) ^ 2 = 0 := by nlinarith [sq_nonneg (p.1 - w.xw), sq_nonneg (p.2 - w.yw)]
    exact hne (Prod.ext (sub_eq_zero.mp (pow_eq_zero_iff two_ne_zero |>.mp a1)) (sub_eq_zero.mp (pow_eq_zero_iff two_ne_zero |>.mp a2)))
  · intro hr w' hw' e
    rw [h.wells, List.mem_singleton] at hw'
    subst hw'
    obtain ⟨e1, e2⟩ := Prod.mk.inj e
    simp [Well.r2, e1, e2] at hr

theorem still_flows (hm : m.Physical) {p V : ℝ × ℝ} : m.FlowsWith true p V ↔ 0 < w.r2 p.1 p.2 ∧
    V = (-(w.qw * twoPiInv / (m.porosity * m.thickness) * ((p.1 - w.xw) / w.r2 p.1 p.2)), -(w.qw * twoPiInv / (m.porosity * m.thickness) * ((p.2 - w.yw) / w.r2 p.1 p.2))) := by
  have hnb : m.porosity * m.thickness ≠ 0 := (mul_pos hm.porosity hm.thickness).ne'
  have hn0 := hm.porosity.ne'
  have ht0 := hm.thickness.ne'
  constructor
  · rintro ⟨hoff, b, hb, d1, d2⟩
    simp only [Saturated, if_true] at hb
    subst hb
    obtain ⟨e1, e2⟩ := C29_partials m _ _ hoff
    have u1 := d1.unique e1
    have u2 := d2.unique e2
    rw [uniform_discharge (AtRest.uniform h)] at u1 u2
    simp only at u1 u2
    refine ⟨(still_off h).mp hoff, Prod.ext ?_ ?_⟩
    · simp only
      rw [div_mul_eq_mul_div, ← neg_div, eq_div_iff hnb]
      linarith
    · simp only
      rw [div_mul_eq_mul_div, ← neg_div, eq_div_iff hnb]
      linarith
  · rintro ⟨hr, rfl⟩
    have hoff := (still_off h).mpr hr
    obtain ⟨e1, e2⟩ := C29_partials m _ _ hoff
    rw [uniform_discharge (AtRest.uniform h)] at e1 e2
    refine ⟨hoff, m.thickness, by simp [Saturated], e1.congr_deriv ?_, e2.congr_deriv ?_⟩
    · simp only
      field_simp
      ring
    · simp only
      field_simp
      ring

/-- the squared distance from the well shrinks evenly, and the direction stays -/
theorem still_path (hm : m.Physical) {γ : ℝ → ℝ × ℝ} {τ : ℝ} (h0 : 0 ≤ τ) (hγ : m.Carries true γ τ) :
    0 < w.r2 (γ τ).1 (γ τ).2 ∧ 0 < 1 + 2 * (w.qw * twoPiInv / (m.porosity * m.thickness)) * τ / w.r2 (γ τ).1 (γ τ).2 ∧ γ 0 = spoke w (w.qw * twoPiInv / (m.porosity * m.thickness)) (γ τ) τ := by
  set κ := w.qw * twoPiInv / (m.porosity * m.thickness) with hκ
  have rates : ∀ s ∈ Set.Icc 0 τ, 0 < w.r2 (γ s).1 (γ s).2 ∧ HasDerivAt (fun t => (γ t).1 - w.xw) (-(κ * (((γ s).1 - w.xw) / w.r2 (γ s).1 (γ s).2))) s ∧
      HasDerivAt (fun t => (γ t).2 - w.yw) (-(κ * (((γ s).2 - w.yw) / w.r2 (γ s).1 (γ s).2))) s ∧ HasDerivAt (fun t => w.r2 (γ t).1 (γ t).2) (-(2 * κ)) s := by
    intro s hs
    obtain ⟨V, hV, hd⟩ := hγ s hs.1 hs.2
    obtain ⟨hr, rfl⟩ := (still_flows h hm).mp hV
    have hd1 : HasDerivAt (fun t => (γ t).1) _ s := (ContinuousLinearMap.fst ℝ ℝ ℝ).hasFDerivAt.comp_hasDerivAt s hd
    have hd2 : HasDerivAt (fun t => (γ t).2) _ s := (ContinuousLinearMap.snd ℝ ℝ ℝ).hasFDerivAt.comp_hasDerivAt s hd
    have k1 := hd1.sub_const w.xw
    have k2 := hd2.sub_const w.yw
    refine ⟨hr, k1, k2, ((k1.pow 2).add (k2.pow 2)).congr_deriv ?_⟩
    have hr' := hr.ne'
    have e : ((γ s).1 - w.xw) ^ 2 + ((γ s).2 - w.yw) ^ 2 = w.r2 (γ s).1 (γ s).2 := rfl
    simp only [ContinuousLinearMap.coe_fst', ContinuousLinearMap.coe_snd', ← hκ]
    field_simp
    simp only [Nat.cast_ofNat]
    linear_combination (-(2 * κ)) * e
  have const : ∀ (f : ℝ → ℝ), (∀ s ∈ Set.Icc 0 τ, HasDerivAt f 0 s) → f τ = f 0 := by
    intro f hf
    exact constant_of_has_deriv_right_zero (fun s hs => (hf s hs).continuousAt.continuousWithinAt) (fun s hs => (hf s (Set.Ico_subset_Icc_self hs)).hasDerivWithinAt) τ ⟨h0, le_rfl⟩
  have hr0 := (rates 0 ⟨le_rfl, h0⟩).1
  have hrτ := (rates τ ⟨h0, le_rfl⟩).1
  have c0 := const (fun t => w.r2 (γ t).1 (γ t).2 + 2 * κ * t) (fun s hs => ((rates s hs).2.2.2.add ((hasDerivAt_id s).const_mul (2 * κ))).congr_deriv (by ring))
  have dir : ∀ (A : ℝ → ℝ), (∀ s ∈ Set.Icc 0 τ, HasDerivAt A (-(κ * (A s / w.r2 (γ s).1 (γ s).2))) s) → A τ / Real.sqrt (w.r2 (γ τ).1 (γ τ).2) = A 0 / Real.sqrt (w.r2 (γ 0).1 (γ 0).2) := by
    intro A hA
    refine const (fun t => A t / Real.sqrt (w.r2 (γ t).1 (γ t).2)) fun s hs => ?_
    obtain ⟨hr, -, -, hd⟩ := rates s hs
    have hs0 := Real.sqrt_pos.mpr hr
    refine ((hA s hs).div (hd.sqrt hr.ne') hs0.ne').congr_deriv ?_
    have e := Real.sq_sqrt hr.le
    rw [div_eq_zero_iff]
    left
    have hr' := hr.ne'
    have hs' := hs0.ne'
    field_simp
    rw [e]
    ring
  have e0 : w.r2 (γ 0).1 (γ 0).2 = w.r2 (γ τ).1 (γ τ).2 * (1 + 2 * κ * τ / w.r2 (γ τ).1 (γ τ).2) := by
    have := hrτ.ne'
    beta_reduce at c0
    field_simp
    linarith
  have hpos : 0 < 1 + 2 * κ * τ / w.r2 (γ τ).1 (γ τ).2 := by
    rw [e0] at hr0
    exact (mul_pos_iff_of_pos_left hrτ).mp hr0
  have hsτ := Real.sqrt_pos.mpr hrτ
  have fin : ∀ A : ℝ → ℝ, (∀ s ∈ Set.Icc 0 τ, HasDerivAt A (-(κ * (A s / w.r2 (γ s).1 (γ s).2))) s) → A 0 = Real.sqrt (1 + 2 * κ * τ / w.r2 (γ τ).1 (γ τ).2) * A τ := by
    intro A hA
    have := dir A hA
    have hs0 := Real.sqrt_pos.mpr hr0
    rw [div_eq_div_iff hsτ.ne' hs0.ne'] at this
    rw [e0, Real.sqrt_mul hrτ.le] at this
    have h2 : Real.sqrt (w.r2 (γ τ).1 (γ τ).2) * (A 0 - Real.sqrt (1 + 2 * κ * τ / w.r2 (γ τ).1 (γ τ).2) * A τ) = 0 := by linear_combination -this
    rcases mul_eq_zero.mp h2 with h3 | h3
    · exact absurd h3 hsτ.ne'
    · linarith
  refine ⟨hrτ, hpos, Prod.ext ?_ ?_⟩
  · have := fin (fun t => (γ t).1 - w.xw) fun s hs => (rates s hs).2.1
    simp only [spoke]
    linarith
  · have := fin (fun t => (γ t).2 - w.yw) fun s hs => (rates s hs).2.2.1
    simp only [spoke]
    linarith

end

theorem spoke_r2 (w : Well ℝ) (κ : ℝ) {p : ℝ × ℝ} (hp : 0 < w.r2 p.1 p.2) {s : ℝ} (hs : 0 ≤ 1 + 2 * κ * s / w.r2 p.1 p.2) : w.r2 (spoke w κ p s).1 (spoke w κ p s).2 = w.r2 p.1 p.2 + 2 * κ * s := by
  have e := Real.sq_sqrt hs
  have e2 : w.r2 (spoke w κ p s).1 (spoke w κ p s).2 = Real.sqrt (1 + 2 * κ * s / w.r2 p.1 p.2) ^ 2 * w.r2 p.1 p.2 := by
    simp only [spoke, Well.r2]
    ring
  rw [e2, e]
  field_simp

theorem spoke_zero (w : Well ℝ) (κ : ℝ) (p : ℝ × ℝ) : spoke w κ p 0 = p := by
  simp [spoke]

/-- the way upstream -/
theorem spoke_deriv (w : Well ℝ) (κ : ℝ) {p : ℝ × ℝ} (hp : 0 < w.r2 p.1 p.2) {s : ℝ} (hs : 0 < 1 + 2 * κ * s / w.r2 p.1 p.2) :
    HasDerivAt (spoke w κ p) (κ * (((spoke w κ p s).1 - w.xw) / w.r2 (spoke w κ p s).1 (spoke w κ p s).2), κ * (((spoke w κ p s).2 - w.yw) / w.r2 (spoke w κ p s).1 (spoke w κ p s).2)) s := by
  have d : HasDerivAt (fun s => 1 + 2 * κ * s / w.r2 p.1 p.2) (2 * κ / w.r2 p.1 p.2) s := by
    have := (((hasDerivAt_id s).const_mul (2 * κ)).div_const (w.r2 p.1 p.2)).const_add 1
    exact this.congr_deriv (by simp)
  have d' := d.sqrt hs.ne'
  rw [spoke_r2 w κ hp hs.le]
  have hs0 := (Real.sqrt_pos.mpr hs).ne'
  have e := Real.sq_sqrt hs.le
  have hp' := hp.ne'
  have e3 : w.r2 p.1 p.2 + 2 * κ * s = Real.sqrt (1 + 2 * κ * s / w.r2 p.1 p.2) ^ 2 * w.r2 p.1 p.2 := by
    rw [e]
    field_simp
  refine (((d'.mul_const (p.1 - w.xw)).const_add w.xw).prodMk ((d'.mul_const (p.2 - w.yw)).const_add w.yw)).congr_deriv (Prod.ext ?_ ?_)
  · rw [e3]
    simp only [spoke]
    generalize Real.sqrt (1 + 2 * κ * s / w.r2 p.1 p.2) = S at hs0
    field_simp
    ring
  · rw [e3]
    simp only [spoke]
    generalize Real.sqrt (1 + 2 * κ * s / w.r2 p.1 p.2) = S at hs0
    field_simp
    ring

theorem still_carries {m : Aquifer ℝ} {w : Well ℝ} (h : m.AtRest w) (hm : m.Physical) {p : ℝ × ℝ} (hp : 0 < w.r2 p.1 p.2) {τ : ℝ}
    (hτ : 0 < 1 + 2 * (w.qw * twoPiInv / (m.porosity * m.thickness)) * τ / w.r2 p.1 p.2) :
    m.Carries true (fun s => spoke w (w.qw * twoPiInv / (m.porosity * m.thickness)) p (τ - s)) τ := by
  intro s s0 s1
  set κ := w.qw * twoPiInv / (m.porosity * m.thickness) with hκ
  have hs : 0 < 1 + 2 * κ * (τ - s) / w.r2 p.1 p.2 := by
    rw [← mul_pos_iff_of_pos_right hp] at hτ ⊢
    have e1 : (1 + 2 * κ * τ / w.r2 p.1 p.2) * w.r2 p.1 p.2 = w.r2 p.1 p.2 + 2 * κ * τ := by field_simp
    have e2 : (1 + 2 * κ * (τ - s) / w.r2 p.1 p.2) * w.r2 p.1 p.2 = w.r2 p.1 p.2 + 2 * κ * (τ - s) := by field_simp
    rw [e1] at hτ
    rw [e2]
    rcases le_total 0 κ with hk | hk
    · nlinarith [mul_nonneg hk (sub_nonneg.mpr s1)]
    · nlinarith [mul_nonneg (neg_nonneg.mpr hk) s0]
  have hr : 0 < w.r2 (spoke w κ p (τ - s)).1 (spoke w κ p (τ - s)).2 := by
    rw [spoke_r2 w κ hp hs.le]
    have : w.r2 p.1 p.2 + 2 * κ * (τ - s) = (1 + 2 * κ * (τ - s) / w.r2 p.1 p.2) * w.r2 p.1 p.2 := by field_simp
    rw [this]
    positivity
  refine ⟨_, (still_flows h hm).mpr ⟨hr, rfl⟩, ?_⟩
  have := (spoke_deriv w κ hp hs).scomp s ((hasDerivAt_id s).const_sub τ)
  refine this.congr_deriv (Prod.ext ?_ ?_) <;> simp [hκ]

theorem close_pos {c : ℝ} (hc : |2 * Real.pi * c - 1| < 1 / 10 ^ 16) : 0 < c := by
  have h1 := (abs_lt.mp hc).1
  have : 0 < 2 * Real.pi * c := lt_trans (by norm_num : (0:ℝ) < 1 - 1 / 10 ^ 16) (by linarith)
  exact (mul_pos_iff_of_pos_left Real.two_pi_pos).mp this

theorem r2_pos_of_ne {w : Well ℝ} {p : ℝ × ℝ} (hp : p ≠ (w.xw, w.yw)) : 0 < w.r2 p.1 p.2 := by
  by_contra hle
  unfold Well.r2 at hle
  have a1 : (p.1 - w.xw) ^ 2 = 0 := by nlinarith [sq_nonneg (p.1 - w.xw), sq_nonneg (p.2 - w.yw)]
  have a2 : (p.2 - w.yw) ^ 2 = 0 := by nlinarith [sq_nonneg (p.1 - w.xw), sq_nonneg (p.2 - w.yw)]
  exact hp (Prod.ext (sub_eq_zero.mp (pow_eq_zero_iff two_ne_zero |>.mp a1)) (sub_eq_zero.mp (pow_eq_zero_iff two_ne_zero |>.mp a2)))

theorem euclid_sq_r2 (w : Well ℝ) (p : ℝ × ℝ) : euclid p (w.xw, w.yw) ^ 2 = w.r2 p.1 p.2 := by
  unfold euclid Well.r2
  rw [Real.sq_sqrt (by positivity)]
  ring

theorem start_ne (t : SWell) (hr : 0 ≤ t.rw) (n : ℤ) (k : ℕ) : t.start n k ≠ (t.xw, t.yw) := by
  intro e
  have h := Real.sin_sq_add_cos_sq (2 * Real.pi * k / n)
  obtain ⟨e1, e2⟩ := Prod.mk.inj e
  have h1 : (t.rw + 1) * Real.cos (2 * Real.pi * k / n) = 0 := by linarith
  have h2 : (t.rw + 1) * Real.sin (2 * Real.pi * k / n) = 0 := by linarith
  have h3 : t.rw + 1 ≠ 0 := by linarith
  rw [(mul_eq_zero.mp h1).resolve_left h3, (mul_eq_zero.mp h2).resolve_left h3] at h
  norm_num at h

end Oneka
