import Verif.Spec.Rivals
import Verif.Spec.RK
import Verif.Spec.RoundingAquifer
import Verif.Lemmas.FlVelocity
import Verif.Lemmas.Stability
import Verif.Lemmas.Upstream
import Mathlib.Analysis.ODE.Gronwall

namespace Oneka
open Matrix

/-- two curves whose velocities are almost the same -/
theorem pathlines_near {f g : ℝ × ℝ → ℝ × ℝ} {X Y : ℝ → ℝ × ℝ} {p p' : ℝ × ℝ} {D L ν ρ : ℝ} (hX : Pathline f p D X) (hY : Pathline g p' D Y) (hL : 0 < L) (hν : 0 ≤ ν) (hD : 0 ≤ D)
    (hlip : ∀ a ∈ Tube X D ρ, ∀ b ∈ Tube X D ρ, ‖f a - f b‖ ≤ L * ‖a - b‖) (hnear : ∀ q ∈ Tube X D ρ, ‖g q - f q‖ ≤ ν) (hρ : (‖p' - p‖ + ν * D) * Real.exp (L * D) < ρ) :
    ∀ t, 0 ≤ t → t ≤ D → ‖Y t - X t‖ ≤ (‖p' - p‖ + ν * t) * Real.exp (L * t) := by
  have hd := norm_nonneg (p' - p)
  have cX : ContinuousOn X (Set.Icc 0 D) := fun t ht => (hX.2 t ht.1 ht.2).continuousAt.continuousWithinAt
  have cY : ContinuousOn Y (Set.Icc 0 D) := fun t ht => (hY.2 t ht.1 ht.2).continuousAt.continuousWithinAt
  have hρ0 : 0 ≤ ρ := le_trans (by positivity) hρ.le
  -- as long as `Y` stays in the tube
  have step : ∀ τ, 0 ≤ τ → τ ≤ D → (∀ t, 0 ≤ t → t < τ → ‖Y t - X t‖ ≤ ρ) → ‖Y τ - X τ‖ ≤ (‖p' - p‖ + ν * τ) * Real.exp (L * τ) := by
    intro τ h0 h1 hin
    have key := dist_le_of_approx_trajectories_ODE_of_mem (v := fun _ => f) (s := fun _ => Tube X D ρ) (K := ⟨L, hL.le⟩) (a := 0) (b := τ)
      (f := Y) (f' := fun t => g (Y t)) (g := X) (g' := fun t => f (X t)) (εf := ν) (εg := 0) (δ := ‖p' - p‖)
      (fun t _ => LipschitzOnWith.of_dist_le_mul fun x hx y hy => by rw [dist_eq_norm, dist_eq_norm]; exact hlip x hx y hy)
      (cY.mono (Set.Icc_subset_Icc_right h1))
      (fun t ht => (hY.2 t ht.1 (ht.2.le.trans h1)).hasDerivWithinAt)
      (fun t ht => by
        rw [dist_eq_norm]
        exact hnear _ ⟨t, ht.1, ht.2.le.trans h1, hin t ht.1 ht.2⟩)
      (fun t ht => ⟨t, ht.1, ht.2.le.trans h1, hin t ht.1 ht.2⟩)
      (cX.mono (Set.Icc_subset_Icc_right h1))
      (fun t ht => (hX.2 t ht.1 (ht.2.le.trans h1)).hasDerivWithinAt)
      (fun t _ => by simp)
      (fun t ht => ⟨t, ht.1, ht.2.le.trans h1, by rw [sub_self, norm_zero]; exact hρ0⟩)
      (by rw [dist_eq_norm, hX.1, hY.1]) τ ⟨h0, le_rfl⟩
    rw [dist_eq_norm, gronwallBound_of_K_ne_0 (by exact hL.ne'), add_zero, sub_zero] at key
    change _ ≤ ‖p' - p‖ * Real.exp (L * τ) + ν / L * (Real.exp (L * τ) - 1) at key
    have e1 : Real.exp (L * τ) - 1 ≤ L * τ * Real.exp (L * τ) := by
      have h2 := Real.add_one_le_exp (-(L * τ))
      have h3 : Real.exp (-(L * τ)) * Real.exp (L * τ) = 1 := by rw [← Real.exp_add]; simp
      have h4 := mul_le_mul_of_nonneg_right h2 (Real.exp_pos (L * τ)).le
      rw [h3] at h4
      linarith
    have e2 : ν / L * (Real.exp (L * τ) - 1) ≤ ν / L * (L * τ * Real.exp (L * τ)) := mul_le_mul_of_nonneg_left e1 (by positivity)
    have e3 : ν / L * (L * τ * Real.exp (L * τ)) = ν * τ * Real.exp (L * τ) := by field_simp
    linarith
  have grow : ∀ τ, 0 ≤ τ → τ ≤ D → (‖p' - p‖ + ν * τ) * Real.exp (L * τ) < ρ := by
    intro τ h0 h1
    refine lt_of_le_of_lt ?_ hρ
    have h2 : ν * τ ≤ ν * D := mul_le_mul_of_nonneg_left h1 hν
    exact mul_le_mul (by linarith) (Real.exp_le_exp.mpr (mul_le_mul_of_nonneg_left h1 hL.le)) (Real.exp_pos _).le (by positivity)
  -- it never leaves
  have stay : ∀ t, 0 ≤ t → t ≤ D → ‖Y t - X t‖ < ρ := by
    by_contra hcon
    push Not at hcon
    obtain ⟨t₁, a1, a2, a3⟩ := hcon
    set s := Set.Icc 0 D ∩ (fun t => ‖Y t - X t‖) ⁻¹' Set.Ici ρ with hs
    have hc : IsCompact s := isCompact_Icc.of_isClosed_subset (((cY.sub cX).norm).preimage_isClosed_of_isClosed isClosed_Icc isClosed_Ici) Set.inter_subset_left
    obtain ⟨τ, hτ, hmin⟩ := hc.exists_isLeast ⟨t₁, ⟨a1, a2⟩, a3⟩
    have h1 := step τ hτ.1.1 hτ.1.2 (fun t h0 ht => by
      by_contra hlt
      have := hmin ⟨⟨h0, ht.le.trans hτ.1.2⟩, (not_le.mp hlt).le⟩
      linarith)
    have h2 := grow τ hτ.1.1 hτ.1.2
    have h3 : ρ ≤ ‖Y τ - X τ‖ := hτ.2
    linarith
  intro t h0 h1
  exact step t h0 h1 fun u hu0 hu => (stay u hu0 (hu.le.trans h1)).le

namespace Aquifer

/-- what the coefficients contribute to the slope in the direction `(a, b)` -/
def slopes (u v a b : ℝ) : Fin 6 → ℝ := ![2 * a * u, 2 * b * v, a * v + b * u, a, b, 0]

theorem slopeSpread_eq (V : Matrix (Fin 6) (Fin 6) ℝ) (u v a b : ℝ) : slopeSpread V u v a b = √(slopes u v a b ⬝ᵥ (V *ᵥ slopes u v a b)) := rfl

theorem discharge_diff (m : Aquifer ℝ) (xo yo : ℝ) (c d : Fin 6 → ℝ) (x y a b : ℝ) :
    (a * (({ m with xo := xo, yo := yo, coef := c } : Aquifer ℝ).discharge x y).1 + b * (({ m with xo := xo, yo := yo, coef := c } : Aquifer ℝ).discharge x y).2) -
    (a * (({ m with xo := xo, yo := yo, coef := d } : Aquifer ℝ).discharge x y).1 + b * (({ m with xo := xo, yo := yo, coef := d } : Aquifer ℝ).discharge x y).2) =
      -(slopes (x - xo) (y - yo) a b ⬝ᵥ (c - d)) := by
  rw [discharge_eq, discharge_eq]
  change _ = -∑ i, slopes (x - xo) (y - yo) a b i * (c - d) i
  rw [Fin.sum_univ_six]
  have e0 : slopes (x - xo) (y - yo) a b 0 = 2 * a * (x - xo) := rfl
  have e1 : slopes (x - xo) (y - yo) a b 1 = 2 * b * (y - yo) := rfl
  have e2 : slopes (x - xo) (y - yo) a b 2 = a * (y - yo) + b * (x - xo) := rfl
  have e3 : slopes (x - xo) (y - yo) a b 3 = a := rfl
  have e4 : slopes (x - xo) (y - yo) a b 4 = b := rfl
  have e5 : slopes (x - xo) (y - yo) a b 5 = 0 := rfl
  rw [e0, e1, e2, e3, e4, e5]
  simp only [Pi.sub_apply]
  ring

/-- the discharge of two flows -/
theorem discharge_near {m : Aquifer ℝ} {rows : List (Fin 6 → ℝ)} {V : Matrix (Fin 6) (Fin 6) ℝ} (hg : gram rows * V = 1) (xo yo : ℝ) {c d : Fin 6 → ℝ} {η : ℝ} (hη : 0 ≤ η)
    (hq : (c - d) ⬝ᵥ (gram rows *ᵥ (c - d)) ≤ η ^ 2) (x y : ℝ) :
    ‖({ m with xo := xo, yo := yo, coef := c } : Aquifer ℝ).discharge x y - ({ m with xo := xo, yo := yo, coef := d } : Aquifer ℝ).discharge x y‖ ≤ η * gradientSpread V (x - xo) (y - yo) := by
  have h : ∀ a b, |(a * (({ m with xo := xo, yo := yo, coef := c } : Aquifer ℝ).discharge x y).1 + b * (({ m with xo := xo, yo := yo, coef := c } : Aquifer ℝ).discharge x y).2) -
      (a * (({ m with xo := xo, yo := yo, coef := d } : Aquifer ℝ).discharge x y).1 + b * (({ m with xo := xo, yo := yo, coef := d } : Aquifer ℝ).discharge x y).2)| ≤
        η * slopeSpread V (x - xo) (y - yo) a b := by
    intro a b
    rw [discharge_diff, abs_neg, slopeSpread_eq]
    exact within_spread hg hη hq
  have h1 := h 1 0
  have h2 := h 0 1
  simp only [one_mul, zero_mul, add_zero, zero_add] at h1 h2
  unfold gradientSpread
  rw [Prod.norm_def]
  exact max_le (h1.trans (mul_le_mul_of_nonneg_left (le_max_left _ _) hη)) (h2.trans (mul_le_mul_of_nonneg_left (le_max_right _ _) hη))

theorem saturated_root {m : Aquifer ℝ} (hm : m.Physical) {x y b : ℝ} (h : m.Saturated false x y b) : 0 < m.potential x y ∧ b = min √(2 * m.potential x y / m.conductivity) m.thickness := by
  have hK := hm.conductivity
  have hT := hm.thickness
  simp only [Saturated, Bool.false_eq_true, if_false] at h
  obtain ⟨h, h0, hp, rfl⟩ := h
  rw [← hp]
  unfold potentialOfHead
  split_ifs with hlt
  · refine ⟨by positivity, ?_⟩
    rw [show 2 * (m.conductivity * h ^ 2 / 2) / m.conductivity = h ^ 2 by field_simp, Real.sqrt_sq h0.le]
  · have h1 : 0 < h - m.thickness / 2 := by linarith
    refine ⟨by positivity, ?_⟩
    rw [min_eq_right (not_lt.mp hlt), min_eq_right]
    refine Real.le_sqrt_of_sq_le ?_
    rw [le_div_iff₀ hK]
    nlinarith [mul_pos hK hT]

theorem saturated_pos {m : Aquifer ℝ} (hm : m.Physical) {confined : Bool} {x y b : ℝ} (h : m.Saturated confined x y b) : 0 < b := by
  have hT := hm.thickness
  cases confined with
  | true =>
    simp only [Saturated, if_true] at h
    rw [h]; exact hT
  | false =>
    simp only [Saturated, Bool.false_eq_true, if_false] at h
    obtain ⟨h, h0, -, rfl⟩ := h
    exact lt_min h0 hT

/-- the saturated thickness of two flows -/
theorem saturated_near {m m' : Aquifer ℝ} (hm : m.Physical) (hK : m'.conductivity = m.conductivity) (hT : m'.thickness = m.thickness) {confined : Bool} {x y b ε : ℝ} (hε0 : 0 ≤ ε) (hε : ε ≤ 1/2)
    (h : m.Saturated confined x y b) (hp : confined = false → |m'.potential x y - m.potential x y| ≤ ε * m.potential x y) :
    ∃ b', m'.Saturated confined x y b' ∧ (1 - ε) * b ≤ b' ∧ b' ≤ (1 + ε) * b := by
  have hb := saturated_pos hm h
  cases confined with
  | true =>
    refine ⟨b, ?_, by nlinarith, by nlinarith⟩
    simp only [Saturated, if_true] at h ⊢
    rw [h, hT]
  | false =>
    have hm' : 0 < m'.conductivity := hK ▸ hm.conductivity
    have hT' : 0 < m'.thickness := hT ▸ hm.thickness
    obtain ⟨h0, hb'⟩ := saturated_root hm h
    have hd := abs_le.mp (hp rfl)
    have hφ : 0 < m'.potential x y := by nlinarith
    have hs : m'.Saturated false x y (min (headOf m'.conductivity m'.thickness (m'.potential x y)) m'.thickness) := by
      simp only [Saturated, Bool.false_eq_true, if_false]
      exact ⟨_, headOf_pos hm' hT' hφ, potential_headOf hm' hT' hφ, rfl⟩
    have hroot : min (headOf m'.conductivity m'.thickness (m'.potential x y)) m'.thickness = min √(2 * m'.potential x y / m'.conductivity) m'.thickness := by
      unfold headOf
      split_ifs with hlt
      · rfl
      · have e1 : m'.thickness ≤ (m'.potential x y + m'.conductivity * m'.thickness ^ 2 / 2) / (m'.conductivity * m'.thickness) := by
          rw [le_div_iff₀ (by positivity)]
          nlinarith
        have e2 : m'.thickness ≤ √(2 * m'.potential x y / m'.conductivity) := by
          refine Real.le_sqrt_of_sq_le ?_
          rw [le_div_iff₀ hm']
          nlinarith
        rw [min_eq_right e1, min_eq_right e2]
    rw [hroot, hK, hT] at hs
    refine ⟨_, hs, ?_, ?_⟩
    · rw [hb', mul_min_of_nonneg _ _ (by linarith : 0 ≤ 1 - ε)]
      refine min_le_min ?_ (by nlinarith [hm.thickness])
      rw [← Real.sqrt_sq (by linarith : 0 ≤ 1 - ε), ← Real.sqrt_mul (sq_nonneg _)]
      refine Real.sqrt_le_sqrt ?_
      rw [← mul_div_assoc]
      refine div_le_div_of_nonneg_right ?_ hm.conductivity.le
      nlinarith [mul_nonneg hε0 (by linarith : 0 ≤ 1 - ε), mul_nonneg (mul_nonneg hε0 (by linarith : 0 ≤ 1 - ε)) h0.le]
    · rw [hb', mul_min_of_nonneg _ _ (by linarith : 0 ≤ 1 + ε)]
      refine min_le_min ?_ (by nlinarith [hm.thickness])
      rw [← Real.sqrt_sq (by linarith : 0 ≤ 1 + ε), ← Real.sqrt_mul (sq_nonneg _)]
      refine Real.sqrt_le_sqrt ?_
      rw [← mul_div_assoc]
      refine div_le_div_of_nonneg_right ?_ hm.conductivity.le
      nlinarith [mul_nonneg hε0 h0.le, mul_nonneg (mul_nonneg hε0 hε0) h0.le]

theorem upstream_discharge {m : Aquifer ℝ} {confined : Bool} {f : ℝ × ℝ → ℝ × ℝ} (hf : m.Upstream confined f) {x y b : ℝ} (hoff : m.OffWells x y) (hs : m.Saturated confined x y b)
    (hb : 0 < m.porosity * b) : f (x, y) = (-((m.discharge x y).1 / (m.porosity * b)), -((m.discharge x y).2 / (m.porosity * b))) := by
  obtain ⟨d1, d2⟩ := C29_partials m x y hoff
  obtain ⟨e1, e2⟩ := hf x y b hoff hs
  refine Prod.ext ?_ ?_
  · change _ = -((m.discharge x y).1 / (m.porosity * b))
    rw [← neg_div, d1.unique e1, mul_div_cancel_left₀ _ hb.ne']
  · change _ = -((m.discharge x y).2 / (m.porosity * b))
    rw [← neg_div, d2.unique e2, mul_div_cancel_left₀ _ hb.ne']

theorem quotient_near {Q Q' n b b' q ε S : ℝ} (hn : 0 < n) (hb : 0 < b) (hε0 : 0 ≤ ε) (hε : ε ≤ 1/2) (h1 : (1 - ε) * b ≤ b') (h2 : b' ≤ (1 + ε) * b) (hq : |Q' - Q| ≤ q) (hS : |Q| ≤ S) :
    |-(Q' / (n * b')) - -(Q / (n * b))| ≤ (q + ε * S) / ((1 - ε) * (n * b)) := by
  have hb' : 0 < b' := lt_of_lt_of_le (by nlinarith) h1
  have e : -(Q' / (n * b')) - -(Q / (n * b)) = (Q * (b' - b) - (Q' - Q) * b) / (n * b * b') := by
    field_simp
    ring
  have h3 : |b' - b| ≤ ε * b := abs_le.mpr ⟨by linarith, by linarith⟩
  have h4 : |Q * (b' - b) - (Q' - Q) * b| ≤ (q + ε * S) * b := by
    refine (abs_sub _ _).trans ?_
    rw [abs_mul, abs_mul, abs_of_pos hb]
    have a1 := mul_le_mul hS h3 (abs_nonneg _) ((abs_nonneg _).trans hS)
    have a2 := mul_le_mul_of_nonneg_right hq hb.le
    linarith
  have hqS : 0 ≤ q + ε * S := add_nonneg ((abs_nonneg _).trans hq) (mul_nonneg hε0 ((abs_nonneg _).trans hS))
  rw [e, abs_div, abs_of_pos (by positivity : 0 < n * b * b')]
  refine (div_le_div_of_nonneg_right h4 (by positivity)).trans ?_
  rw [div_le_div_iff₀ (by positivity) (mul_pos (by linarith) (by positivity))]
  have a3 := mul_le_mul_of_nonneg_left h1 (by positivity : 0 ≤ (q + ε * S) * (n * b))
  nlinarith

/-- the velocities of two flows -/
theorem velocity_near {m m' : Aquifer ℝ} (hm : m.Physical) (hK : m'.conductivity = m.conductivity) (hT : m'.thickness = m.thickness) (hn : m'.porosity = m.porosity) {confined : Bool}
    {f g : ℝ × ℝ → ℝ × ℝ} (hf : m.Upstream confined f) (hg : m'.Upstream confined g) {x y b ε q : ℝ} (hε0 : 0 ≤ ε) (hε : ε ≤ 1/2) (hoff : m.OffWells x y) (hoff' : m'.OffWells x y)
    (hs : m.Saturated confined x y b) (hp : confined = false → |m'.potential x y - m.potential x y| ≤ ε * m.potential x y) (hq : ‖m'.discharge x y - m.discharge x y‖ ≤ q) :
    ∃ b', m'.Saturated confined x y b' ∧ (1 - ε) * b ≤ b' ∧ ‖g (x, y) - f (x, y)‖ ≤ (q + ε * ‖m.discharge x y‖) / ((1 - ε) * (m.porosity * b)) := by
  have hb := saturated_pos hm hs
  obtain ⟨b', hs', h1, h2⟩ := saturated_near hm hK hT hε0 hε hs hp
  refine ⟨b', hs', h1, ?_⟩
  have hφ := hm.porosity
  have hb' : 0 < b' := lt_of_lt_of_le (by nlinarith) h1
  rw [upstream_discharge hf hoff hs (by positivity), upstream_discharge hg hoff' hs' (by rw [hn]; positivity), hn]
  rw [Prod.norm_def] at hq ⊢
  have q1 : |(m'.discharge x y).1 - (m.discharge x y).1| ≤ q := (le_max_left _ _).trans hq
  have q2 : |(m'.discharge x y).2 - (m.discharge x y).2| ≤ q := (le_max_right _ _).trans hq
  exact max_le (quotient_near hφ hb hε0 hε h1 h2 q1 (norm_fst_le (m.discharge x y))) (quotient_near hφ hb hε0 hε h1 h2 q2 (norm_snd_le (m.discharge x y)))

theorem dischargeTerms_nonneg (m : Aquifer ℝ) (x y : ℝ) : 0 ≤ m.dischargeTerms x y := by
  refine le_max_of_le_left (add_nonneg (by positivity) (List.sum_nonneg fun t ht => ?_))
  obtain ⟨w, -, rfl⟩ := List.mem_map.mp ht
  exact abs_nonneg _

theorem condition_nonneg {m : Aquifer ℝ} (hm : m.Physical) {confined : Bool} {x y b : ℝ} (h : m.Saturated confined x y b) : 0 ≤ m.condition confined x y := by
  cases confined with
  | true => simp [condition]
  | false =>
    have hp := (saturated_root hm h).1
    simp only [condition, Bool.false_eq_true, if_false]
    exact div_nonneg (hp.le.trans (potential_le_terms _ _ _)) hp.le

end Aquifer
end Oneka
