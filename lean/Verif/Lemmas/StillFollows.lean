import Verif.Lemmas.Still
import Verif.Spec.CaptureExact

/-!
# Traces in an aquifer at rest
-/

namespace Oneka

open Aquifer

theorem inversion_sq {p q r s : ℝ} (n1 : p ^ 2 + q ^ 2 ≠ 0) (n2 : r ^ 2 + s ^ 2 ≠ 0) :
    (p / (p ^ 2 + q ^ 2) - r / (r ^ 2 + s ^ 2)) ^ 2 + (q / (p ^ 2 + q ^ 2) - s / (r ^ 2 + s ^ 2)) ^ 2 = ((p - r) ^ 2 + (q - s) ^ 2) / ((p ^ 2 + q ^ 2) * (r ^ 2 + s ^ 2)) := by
  field_simp
  ring

/-- moving by less than 1/4 in both directions -/
theorem near_bounds {a b e f R : ℝ} (h1 : 1 ≤ a ^ 2 + b ^ 2) (hR : a ^ 2 + b ^ 2 ≤ R ^ 2) (hR0 : 0 ≤ R) (he : |e| ≤ 1/4) (hf : |f| ≤ 1/4) : 5/12 ≤ (a + e) ^ 2 + (b + f) ^ 2 ∧ (a + e) ^ 2 + (b + f) ^ 2 ≤ (R + 3/8) ^ 2 := by
  obtain ⟨e1, e2⟩ := abs_le.mp he
  obtain ⟨f1, f2⟩ := abs_le.mp hf
  set A := Real.sqrt (a ^ 2 + b ^ 2) with hA
  have hA2 : A ^ 2 = a ^ 2 + b ^ 2 := Real.sq_sqrt (by positivity)
  have hA0 : 0 ≤ A := Real.sqrt_nonneg _
  have hA1 : 1 ≤ A := by nlinarith
  have hAR : A ≤ R := by
    rw [hA]
    exact (Real.sqrt_le_sqrt hR).trans (by rw [Real.sqrt_sq hR0])
  have hef : e ^ 2 + f ^ 2 ≤ 1/8 := by nlinarith
  have hcs : (a * e + b * f) ^ 2 ≤ (A * Real.sqrt (e ^ 2 + f ^ 2)) ^ 2 := by
    rw [mul_pow, hA2, Real.sq_sqrt (by positivity)]
    nlinarith [sq_nonneg (a * f - b * e)]
  set E := Real.sqrt (e ^ 2 + f ^ 2) with hE
  have hE0 : 0 ≤ E := Real.sqrt_nonneg _
  have hE2 : E ^ 2 = e ^ 2 + f ^ 2 := Real.sq_sqrt (by positivity)
  have hE1 : E ≤ 177/500 := by
    by_contra hn
    push Not at hn
    nlinarith
  have habs := abs_le.mp (abs_le_of_sq_le_sq hcs (mul_nonneg hA0 hE0))
  have e3 : (a + e) ^ 2 + (b + f) ^ 2 = A ^ 2 + 2 * (a * e + b * f) + E ^ 2 := by
    rw [hA2, hE2]
    ring
  rw [e3]
  constructor
  · have h1 : (A - E) ^ 2 ≤ A ^ 2 + 2 * (a * e + b * f) + E ^ 2 := by linarith [habs.1, show (A - E) ^ 2 = A ^ 2 - 2 * (A * E) + E ^ 2 by ring]
    have h2 : (323/500 : ℝ) ^ 2 ≤ (A - E) ^ 2 := pow_le_pow_left₀ (by norm_num) (by linarith) 2
    norm_num at h2
    linarith
  · have h1 : A ^ 2 + 2 * (a * e + b * f) + E ^ 2 ≤ (A + E) ^ 2 := by linarith [habs.2, show (A + E) ^ 2 = A ^ 2 + 2 * (A * E) + E ^ 2 by ring]
    exact h1.trans (pow_le_pow_left₀ (by linarith) (by linarith) 2)

theorem still_follows {m : Aquifer ℝ} (hm : m.Physical) {w : Well ℝ} (h : m.AtRest w) {κ : ℝ} (hκ : κ = w.qw * twoPiInv / (m.porosity * m.thickness)) (k0 : 0 < κ) (k1 : κ ≤ 1/40) {p : ℝ × ℝ} {D maxstep δ R : ℝ}
    (hp : 1 ≤ w.r2 p.1 p.2) (hR0 : 0 ≤ R) (hR : w.r2 p.1 p.2 + 2 * κ * D ≤ R ^ 2) (hms : 0 < maxstep) (hfast : 16 * maxstep * (R + 1) ≤ κ)
    (hwide : 22 * maxstep * (Real.exp (4 * κ * D) - 1) ≤ 1/8) (hδ : 3/2 * (22 * maxstep * (Real.exp (4 * κ * D) - 1) + κ / 5) ≤ δ) : Follows m true p D maxstep δ (spoke w κ p) := by
  have hp0 : 0 < w.r2 p.1 p.2 := by linarith
  have hpos : ∀ t, 0 ≤ t → 0 < 1 + 2 * κ * t / w.r2 p.1 p.2 := fun t ht => by positivity
  have htube : ∀ q ∈ Tube (spoke w κ p) D (1/4), 5/12 ≤ (q.1 - w.xw) ^ 2 + (q.2 - w.yw) ^ 2 ∧ (q.1 - w.xw) ^ 2 + (q.2 - w.yw) ^ 2 ≤ (R + 3/8) ^ 2 := by
    rintro q ⟨t, t0, t1, hq⟩
    have e := spoke_r2 w κ hp0 (hpos t t0).le
    unfold Well.r2 at e
    have n1 := (norm_fst_le _).trans hq
    have n2 := (norm_snd_le _).trans hq
    rw [Real.norm_eq_abs] at n1 n2
    have hkt : 0 ≤ κ * t := by positivity
    have hkD : κ * t ≤ κ * D := mul_le_mul_of_nonneg_left t1 k0.le
    have := near_bounds (a := (spoke w κ p t).1 - w.xw) (b := (spoke w κ p t).2 - w.yw) (R := R) (by rw [e]; unfold Well.r2 at hp; linarith) (by rw [e]; unfold Well.r2 at hR; linarith) hR0 n1 n2
    simp only [Prod.fst_sub, Prod.snd_sub] at this
    rwa [show (spoke w κ p t).1 - w.xw + (q.1 - (spoke w κ p t).1) = q.1 - w.xw by ring, show (spoke w κ p t).2 - w.yw + (q.2 - (spoke w κ p t).2) = q.2 - w.yw by ring] at this
  have hnb : m.porosity * m.thickness ≠ 0 := (mul_pos hm.porosity hm.thickness).ne'
  refine ⟨fun q => (κ * ((q.1 - w.xw) / w.r2 q.1 q.2), κ * ((q.2 - w.yw) / w.r2 q.1 q.2)), 4 * κ, 2 * κ, 1/10, 1/4, hm, ?_, ⟨spoke_zero w κ p, fun t t0 _ => spoke_deriv w κ hp0 (hpos t t0)⟩,
    fun q hq => ⟨(still_off h).mpr ?_, m.thickness, by simp [Saturated]⟩, fun a ha b hb => ?_, fun a ha => ?_, by linarith, by linarith, le_rfl, by linarith, by linarith, fun q hq => ?_, by linarith⟩
  · intro x y b hoff hs
    obtain ⟨d1, d2⟩ := C29_partials m x y hoff
    simp only [Saturated, if_true] at hs
    subst hs
    rw [uniform_discharge (AtRest.uniform h)] at d1 d2
    have e : m.porosity * m.thickness * κ = w.qw * twoPiInv := by
      rw [hκ]
      field_simp [hm.porosity.ne', hm.thickness.ne']
    constructor
    · refine d1.congr_deriv ?_
      simp only
      linear_combination (-((x - w.xw) / w.r2 x y)) * e
    · refine d2.congr_deriv ?_
      simp only
      linear_combination (-((y - w.yw) / w.r2 x y)) * e
  · have := (htube q hq).1
    unfold Well.r2
    linarith
  · have ra := (htube a ha).1
    have rb := (htube b hb).1
    set N := ‖a - b‖ with hN
    have hN0 : 0 ≤ N := norm_nonneg _
    have n1 := norm_fst_le (a - b)
    have n2 := norm_snd_le (a - b)
    rw [Real.norm_eq_abs, ← hN] at n1 n2
    have key := inversion_sq (p := a.1 - w.xw) (q := a.2 - w.yw) (r := b.1 - w.xw) (s := b.2 - w.yw) (by linarith) (by linarith)
    have hle : ((a.1 - w.xw - (b.1 - w.xw)) ^ 2 + (a.2 - w.yw - (b.2 - w.yw)) ^ 2) / (((a.1 - w.xw) ^ 2 + (a.2 - w.yw) ^ 2) * ((b.1 - w.xw) ^ 2 + (b.2 - w.yw) ^ 2)) ≤ (4 * N) ^ 2 := by
      have s1 : (a.1 - w.xw - (b.1 - w.xw)) ^ 2 ≤ N ^ 2 := by
        rw [show a.1 - w.xw - (b.1 - w.xw) = (a - b).1 by simp]
        exact sq_le_sq' (by linarith [(abs_le.mp n1).1]) (abs_le.mp n1).2
      have s2 : (a.2 - w.yw - (b.2 - w.yw)) ^ 2 ≤ N ^ 2 := by
        rw [show a.2 - w.yw - (b.2 - w.yw) = (a - b).2 by simp]
        exact sq_le_sq' (by linarith [(abs_le.mp n2).1]) (abs_le.mp n2).2
      have hprod : (5/12) * (5/12) ≤ ((a.1 - w.xw) ^ 2 + (a.2 - w.yw) ^ 2) * ((b.1 - w.xw) ^ 2 + (b.2 - w.yw) ^ 2) := mul_le_mul ra rb (by norm_num) (by linarith)
      rw [div_le_iff₀ (by linarith)]
      have := mul_le_mul_of_nonneg_left hprod (sq_nonneg (4 * N))
      have hN2 := sq_nonneg N
      linarith [show (4 * N) ^ 2 * (5 / 12 * (5 / 12)) = 25/9 * N ^ 2 by ring]
    rw [Prod.norm_def, max_le_iff, Real.norm_eq_abs, Real.norm_eq_abs]
    have h4 : 0 ≤ 4 * N := by positivity
    constructor
    · have e : |(a.1 - w.xw) / w.r2 a.1 a.2 - (b.1 - w.xw) / w.r2 b.1 b.2| ≤ 4 * N := by
        refine abs_le_of_sq_le_sq ?_ h4
        unfold Well.r2
        linarith [sq_nonneg ((a.2 - w.yw) / ((a.1 - w.xw) ^ 2 + (a.2 - w.yw) ^ 2) - (b.2 - w.yw) / ((b.1 - w.xw) ^ 2 + (b.2 - w.yw) ^ 2))]
      simp only [Prod.fst_sub]
      rw [← mul_sub, abs_mul, abs_of_pos k0]
      linarith [mul_le_mul_of_nonneg_left e k0.le]
    · have e : |(a.2 - w.yw) / w.r2 a.1 a.2 - (b.2 - w.yw) / w.r2 b.1 b.2| ≤ 4 * N := by
        refine abs_le_of_sq_le_sq ?_ h4
        unfold Well.r2
        linarith [sq_nonneg ((a.1 - w.xw) / ((a.1 - w.xw) ^ 2 + (a.2 - w.yw) ^ 2) - (b.1 - w.xw) / ((b.1 - w.xw) ^ 2 + (b.2 - w.yw) ^ 2))]
      simp only [Prod.snd_sub]
      rw [← mul_sub, abs_mul, abs_of_pos k0]
      linarith [mul_le_mul_of_nonneg_left e k0.le]
  · have ra := (htube a ha).1
    have hr0 : 0 < (a.1 - w.xw) ^ 2 + (a.2 - w.yw) ^ 2 := by linarith
    have sq : ∀ z : ℝ, z ^ 2 ≤ (a.1 - w.xw) ^ 2 + (a.2 - w.yw) ^ 2 → |κ * (z / ((a.1 - w.xw) ^ 2 + (a.2 - w.yw) ^ 2))| ≤ 2 * κ := by
      intro z hz
      rw [abs_mul, abs_of_pos k0, mul_comm]
      refine mul_le_mul_of_nonneg_right (abs_le_of_sq_le_sq ?_ (by norm_num)) k0.le
      rw [div_pow, div_le_iff₀ (by positivity)]
      nlinarith
    rw [Prod.norm_def, max_le_iff, Real.norm_eq_abs, Real.norm_eq_abs]
    exact ⟨sq _ (by nlinarith [sq_nonneg (a.2 - w.yw)]), sq _ (by nlinarith [sq_nonneg (a.1 - w.xw)])⟩
  · obtain ⟨ra, rb⟩ := htube q hq
    set N := ‖(κ * ((q.1 - w.xw) / w.r2 q.1 q.2), κ * ((q.2 - w.yw) / w.r2 q.1 q.2))‖ with hN
    have hN0 : 0 ≤ N := norm_nonneg _
    have n1 := norm_fst_le (κ * ((q.1 - w.xw) / w.r2 q.1 q.2), κ * ((q.2 - w.yw) / w.r2 q.1 q.2))
    have n2 := norm_snd_le (κ * ((q.1 - w.xw) / w.r2 q.1 q.2), κ * ((q.2 - w.yw) / w.r2 q.1 q.2))
    rw [Real.norm_eq_abs, ← hN] at n1 n2
    have s1 := sq_le_sq' (by linarith [(abs_le.mp n1).1]) (abs_le.mp n1).2
    have s2 := sq_le_sq' (by linarith [(abs_le.mp n2).1]) (abs_le.mp n2).2
    have hr0 : 0 < (q.1 - w.xw) ^ 2 + (q.2 - w.yw) ^ 2 := by linarith
    have e : (κ * ((q.1 - w.xw) / w.r2 q.1 q.2)) ^ 2 + (κ * ((q.2 - w.yw) / w.r2 q.1 q.2)) ^ 2 = κ ^ 2 / ((q.1 - w.xw) ^ 2 + (q.2 - w.yw) ^ 2) := by
      unfold Well.r2
      field_simp
    have e2 : κ ^ 2 / (R + 3/8) ^ 2 ≤ κ ^ 2 / ((q.1 - w.xw) ^ 2 + (q.2 - w.yw) ^ 2) := div_le_div_of_nonneg_left (by positivity) hr0 rb
    have e3 : (16 * maxstep) ^ 2 ≤ κ ^ 2 / (R + 3/8) ^ 2 := by
      rw [le_div_iff₀ (by positivity), ← mul_pow]
      refine pow_le_pow_left₀ (by positivity) ?_ 2
      nlinarith
    have e4 : 11 * maxstep ≤ N := by
      by_contra hn
      push Not at hn
      have : N ^ 2 ≤ (11 * maxstep) ^ 2 := pow_le_pow_left₀ hN0 hn.le 2
      have hm2 : 0 < maxstep ^ 2 := by positivity
      linarith [show (11 * maxstep) ^ 2 = 121 * maxstep ^ 2 by ring, show (16 * maxstep) ^ 2 = 256 * maxstep ^ 2 by ring]
    linarith

end Oneka
