import Verif.Lemmas.Rain
import Verif.Props.Still

/-!
# C151: a well that is fed by recharge

Vocabulary: Spec/Rain.lean, Spec/Arrival.lean. Examples: Props/RainExamples.lean.
-/

namespace Oneka

open Aquifer

/-- **C151.** Whether or not the aquifer is confined: inside the circle around the well that gets as much recharge as the well pumps, all water comes nearer and nearer to the well; outside it gets farther and farther away. So the well gets no water
from outside the circle, however long one waits, provided its starting points are inside; and no water from inside is ever carried to a place outside. -/
theorem C151_catchment {m : Aquifer ℝ} (hm : m.Physical) {w : Well ℝ} {N : ℝ} (h : m.Raining w N) (hN : 0 < N) (hq : 0 < w.qw) :
    ∃ R, 0 < R ∧ |N * (Real.pi * R ^ 2) - w.qw| ≤ w.qw / 10 ^ 16 ∧
      (∀ (confined : Bool) (γ : ℝ → ℝ × ℝ) (τ a b : ℝ), m.Carries confined γ τ → 0 ≤ a → a ≤ b → b ≤ τ →
        (euclid (γ a) (w.xw, w.yw) < R → euclid (γ b) (w.xw, w.yw) ≤ euclid (γ a) (w.xw, w.yw)) ∧ (R < euclid (γ a) (w.xw, w.yw) → euclid (γ a) (w.xw, w.yw) ≤ euclid (γ b) (w.xw, w.yw))) ∧
      ∀ (confined : Bool) (D d X Y : ℝ) (p : ℝ × ℝ), m.Delivers confined D d X Y p →
        (euclid p (w.xw, w.yw) < R → euclid (X, Y) (w.xw, w.yw) < R + d) ∧ (R ≤ euclid p (w.xw, w.yw) → R - d < euclid (X, Y) (w.xw, w.yw)) := by
  obtain ⟨r0, r1, r2⟩ := rain_radius hN hq
  set R := Real.sqrt (2 * (w.qw * twoPiInv) / N)
  have hRN : N * R ^ 2 = 2 * (w.qw * twoPiInv) := by rw [r1]; field_simp
  have mono : ∀ (confined : Bool) (γ : ℝ → ℝ × ℝ) (τ a b : ℝ), m.Carries confined γ τ → 0 ≤ a → a ≤ b → b ≤ τ →
        (euclid (γ a) (w.xw, w.yw) < R → euclid (γ b) (w.xw, w.yw) ≤ euclid (γ a) (w.xw, w.yw)) ∧ (R < euclid (γ a) (w.xw, w.yw) → euclid (γ a) (w.xw, w.yw) ≤ euclid (γ b) (w.xw, w.yw)) := by
    intro confined γ τ a b hγ h0 hab hb
    obtain ⟨k1, k2⟩ := rain_monotone h hm hγ h0 hab hb
    rw [rain_below r0.le, rain_above r0.le, rain_nearer, rain_nearer]
    refine ⟨fun hl => k1 ?_, fun hl => k2 ?_⟩
    · rw [← hRN]; exact mul_lt_mul_of_pos_left hl hN
    · rw [← hRN]; exact mul_lt_mul_of_pos_left hl hN
  refine ⟨R, r0, r2, mono, ?_⟩
  rintro confined D d X Y p ⟨γ, τ, h0, h1, hγ, hd, rfl⟩
  obtain ⟨k1, k2⟩ := mono confined γ τ 0 τ hγ le_rfl h0 le_rfl
  have t1 := euclid_triangle (X, Y) (γ 0) (w.xw, w.yw)
  have t2 := euclid_triangle (γ 0) (X, Y) (w.xw, w.yw)
  have t3 := euclid_comm (X, Y) (γ 0)
  constructor
  · intro hl
    have : euclid (γ 0) (w.xw, w.yw) ≤ R := by
      by_contra hc
      push Not at hc
      linarith [k2 hc]
    linarith
  · intro hl
    have : R ≤ euclid (γ 0) (w.xw, w.yw) := by
      by_contra hc
      push Not at hc
      linarith [k1 hc]
    linarith

/-- **C151.** In a confined aquifer the difference between the squared distance from the well and that of the circle grows exponentially, at the rate at which the recharge would fill the pores: so where the water was `τ` days ago is known exactly, and
a place `p` gets the water within `d` of a position exactly if the position is within `d` of this piece of the ray. -/
theorem C151_paths {m : Aquifer ℝ} (hm : m.Physical) {w : Well ℝ} {N : ℝ} (h : m.Raining w N) (hN : 0 < N) (hq : 0 < w.qw) :
    ∃ R, 0 < R ∧ |N * (Real.pi * R ^ 2) - w.qw| ≤ w.qw / 10 ^ 16 ∧
      (∀ (γ : ℝ → ℝ × ℝ) (τ : ℝ), 0 ≤ τ → m.Carries true γ τ → γ 0 = rainSpoke w (R ^ 2) (N / (m.porosity * m.thickness)) (γ τ) τ) ∧
      ∀ (D d X Y : ℝ) (p : ℝ × ℝ), p ≠ (w.xw, w.yw) →
        (m.Delivers true D d X Y p ↔ ∃ s, 0 ≤ s ∧ s ≤ D ∧ euclid (rainSpoke w (R ^ 2) (N / (m.porosity * m.thickness)) p s) (X, Y) < d) := by
  obtain ⟨r0, r1, r2⟩ := rain_radius hN hq
  refine ⟨_, r0, r2, fun γ τ h0 hγ => ?_, fun D d X Y p hp => ⟨?_, ?_⟩⟩
  · rw [r1]
    exact rain_path h hm hN.ne' h0 hγ
  · rintro ⟨γ, τ, h0, h1, hγ, hd, rfl⟩
    refine ⟨τ, h0, h1, ?_⟩
    rw [r1, ← rain_path h hm hN.ne' h0 hγ]
    exact hd
  · rintro ⟨s, h0, h1, hd⟩
    have hr := r2_pos_of_ne hp
    rw [r1] at hd
    refine ⟨_, s, h0, h1, rain_carries h hm hN hq.le hr s, ?_, ?_⟩
    · simpa using hd
    · simp only [sub_self]
      exact rainSpoke_zero w _ _ hr

/-- **C151.** Everything inside the circle is captured in the end: water at any place farther from the well than `p`, in the same direction, but nearer than the circle, gets to `p` after the stated time. -/
theorem C151_everything {m : Aquifer ℝ} (hm : m.Physical) {w : Well ℝ} {N : ℝ} (h : m.Raining w N) (hN : 0 < N) (hq : 0 < w.qw) :
    ∃ R, 0 < R ∧ |N * (Real.pi * R ^ 2) - w.qw| ≤ w.qw / 10 ^ 16 ∧
      ∀ (p : ℝ × ℝ) (l : ℝ), p ≠ (w.xw, w.yw) → 1 ≤ l → l * euclid p (w.xw, w.yw) < R → ∀ d, 0 < d → ∀ D,
        m.porosity * m.thickness / N * Real.log ((R ^ 2 - euclid p (w.xw, w.yw) ^ 2) / (R ^ 2 - (l * euclid p (w.xw, w.yw)) ^ 2)) ≤ D →
        m.Delivers true D d (w.xw + l * (p.1 - w.xw)) (w.yw + l * (p.2 - w.yw)) p := by
  obtain ⟨R, r0, r2, -, hall⟩ := C151_paths hm h hN hq
  refine ⟨R, r0, r2, fun p l hp hl hlR d hd D hD => (hall D d _ _ p hp).mpr ⟨_, ?_, hD, ?_⟩⟩
  all_goals
    have hnb : 0 < m.porosity * m.thickness := mul_pos hm.porosity hm.thickness
    have hr := r2_pos_of_ne hp
    set ρ := euclid p (w.xw, w.yw) with hρ
    have hρ0 : 0 ≤ ρ := Real.sqrt_nonneg _
    have hρ2 : ρ ^ 2 = w.r2 p.1 p.2 := euclid_sq_r2 w p
    have hlρ : ρ ≤ l * ρ := le_mul_of_one_le_left hρ0 hl
    have hB : 0 < R ^ 2 - (l * ρ) ^ 2 := by nlinarith
    have hA : R ^ 2 - (l * ρ) ^ 2 ≤ R ^ 2 - ρ ^ 2 := by nlinarith
    have hA0 : 0 < R ^ 2 - ρ ^ 2 := lt_of_lt_of_le hB hA
  · exact mul_nonneg (by positivity) (Real.log_nonneg ((one_le_div hB).mpr hA))
  · have e1 : -(N / (m.porosity * m.thickness) * (m.porosity * m.thickness / N * Real.log ((R ^ 2 - ρ ^ 2) / (R ^ 2 - (l * ρ) ^ 2)))) = Real.log ((R ^ 2 - (l * ρ) ^ 2) / (R ^ 2 - ρ ^ 2)) := by
      rw [← mul_assoc, div_mul_div_comm, mul_comm N, div_self (by positivity), one_mul, ← Real.log_inv, inv_div]
    have e2 : (R ^ 2 + (w.r2 p.1 p.2 - R ^ 2) * ((R ^ 2 - (l * ρ) ^ 2) / (R ^ 2 - ρ ^ 2))) / w.r2 p.1 p.2 = l ^ 2 := by
      rw [← hρ2]
      have := hA0.ne'
      have hρne : ρ ≠ 0 := by
        intro e
        rw [e] at hρ2
        norm_num at hρ2
        linarith
      field_simp
      ring
    simp only [rainSpoke]
    rw [e1, Real.exp_log (by positivity), e2, Real.sqrt_sq (by linarith)]
    simpa [euclid] using hd

/-- **C151.** Recharge only makes the capture zone smaller: what the well gets, it would get at least as far away in an aquifer at rest. -/
theorem C151_smaller {m : Aquifer ℝ} (hm : m.Physical) {w : Well ℝ} {N : ℝ} (h : m.Raining w N) (hN : 0 < N) (hq : 0 < w.qw) :
    ∃ c : ℝ, |2 * Real.pi * c - 1| < 1 / 10 ^ 16 ∧ ∀ (γ : ℝ → ℝ × ℝ) (τ : ℝ), 0 ≤ τ → m.Carries true γ τ →
      euclid (γ 0) (w.xw, w.yw) ≤ euclid (spoke w (w.qw * c / (m.porosity * m.thickness)) (γ τ) τ) (w.xw, w.yw) := by
  refine ⟨_, twoPiInv_close, fun γ τ h0 hγ => ?_⟩
  have hnb : 0 < m.porosity * m.thickness := mul_pos hm.porosity hm.thickness
  have hc := close_pos twoPiInv_close
  have hr := (rain_rates h hm hγ h0 le_rfl).1
  rw [rain_path h hm hN.ne' h0 hγ, rain_nearer, spoke_r2 w _ hr (by positivity), rainSpoke_r2 w _ _ hr (rain_positive (by positivity) (by positivity) hr h0).le]
  set α := N / (m.porosity * m.thickness) with hα
  have hα0 : 0 < α := by positivity
  have hR : 0 < 2 * (w.qw * (twoPiInv : ℝ)) / N := by positivity
  have e : 2 * (w.qw * twoPiInv / (m.porosity * m.thickness)) * τ = 2 * (w.qw * twoPiInv) / N * (α * τ) := by
    rw [hα]
    field_simp
  rw [e]
  have h1 := Real.add_one_le_exp (-(α * τ))
  have h2 : Real.exp (-(α * τ)) ≤ 1 := Real.exp_le_one_iff.mpr (neg_nonpos.mpr (by positivity))
  nlinarith [mul_le_mul_of_nonneg_left h1 hR.le, mul_le_mul_of_nonneg_left h2 hr.le]

/-- **C151.** What `compute_velocity_confined` and, wherever there is a head, `compute_velocity` answer: the water moves straight from or to the well, at the speed that the recharge within its distance and the discharge of the well make up; so
inside the circle it moves towards the well, on it it stands still and outside it moves away. -/
theorem C151_velocity {m : Aquifer ℝ} (hm : m.Physical) {w : Well ℝ} {N : ℝ} (h : m.Raining w N) (hN : 0 < N) (hq : 0 < w.qw) :
    ∃ R, 0 < R ∧ |N * (Real.pi * R ^ 2) - w.qw| ≤ w.qw / 10 ^ 16 ∧ ∀ x y : ℝ, (x, y) ≠ (w.xw, w.yw) →
      m.velocityConfined x y = (N / 2 * (1 - R ^ 2 / euclid (x, y) (w.xw, w.yw) ^ 2) / (m.porosity * m.thickness)) • (x - w.xw, y - w.yw) ∧
      ∀ H, m.head x y = .ok H → m.velocity x y = .ok ((N / 2 * (1 - R ^ 2 / euclid (x, y) (w.xw, w.yw) ^ 2) / (m.porosity * min H m.thickness)) • (x - w.xw, y - w.yw)) := by
  obtain ⟨r0, r1, r2⟩ := rain_radius hN hq
  set R := Real.sqrt (2 * (w.qw * twoPiInv) / N)
  have hRN : N * R ^ 2 = 2 * (w.qw * twoPiInv) := by rw [r1]; field_simp
  refine ⟨R, r0, r2, fun x y _ => ?_⟩
  have he : euclid (x, y) (w.xw, w.yw) ^ 2 = w.r2 x y := by
    simp only [euclid, Well.r2]
    rw [Real.sq_sqrt (by positivity)]
    ring
  have hQ : m.discharge x y = (N / 2 * (1 - R ^ 2 / w.r2 x y)) • (x - w.xw, y - w.yw) := by
    have e2 : N / 2 * (1 - R ^ 2 / w.r2 x y) = N / 2 - w.qw * twoPiInv / w.r2 x y := by
      have : N / 2 * (1 - R ^ 2 / w.r2 x y) = N / 2 - (N * R ^ 2) / 2 / w.r2 x y := by ring
      rw [this, hRN]
      ring
    rw [rain_discharge h, e2]
    ext <;> simp
  have hn := hm.porosity
  have hT := hm.thickness
  rw [he]
  constructor
  · unfold Aquifer.velocityConfined
    rw [hQ]
    ext <;> simp <;> field_simp
  · intro H hH
    rw [C34_velocity m hm x y H hH, hQ]
    congr 1
    ext <;> simp <;> ring

end Oneka
