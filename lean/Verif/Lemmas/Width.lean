import Verif.Spec.Width
import Verif.Lemmas.Arrival
import Verif.Lemmas.Flux
import Verif.Props.Aquifer
import Mathlib.Analysis.SpecialFunctions.Complex.LogDeriv

/-!
# Lemmas for Props/Width.lean
-/

namespace Oneka

open Aquifer

theorem uniform_discharge {m : Aquifer ℝ} {w : Well ℝ} {u v : ℝ} (h : m.UniformFlow w u v) (x y : ℝ) :
    m.discharge x y = (u - w.qw * (twoPiInv : ℝ) * ((x - w.xw) / w.r2 x y), v - w.qw * (twoPiInv : ℝ) * ((y - w.yw) / w.r2 x y)) := by
  rw [discharge_eq, h.wells, h.noRecharge.1, h.noRecharge.2.1, h.noRecharge.2.2, h.discharge.1, h.discharge.2]
  simp
  constructor <;> ring

/-- the rates of change along the path of a water particle -/
theorem uniform_rates {m : Aquifer ℝ} (hm : m.Physical) {w : Well ℝ} {u v : ℝ} (h : m.UniformFlow w u v) {confined : Bool} {γ : ℝ → ℝ × ℝ} {τ : ℝ} (hγ : m.Carries confined γ τ) {s : ℝ} (h0 : 0 ≤ s) (h1 : s ≤ τ) :
    ∃ c, 0 < c ∧ 0 < w.r2 (γ s).1 (γ s).2 ∧
      HasDerivAt (fun t => leftOf w u v (γ t)) (-(c * (w.qw * (twoPiInv : ℝ)) * (leftOf w u v (γ s) / w.r2 (γ s).1 (γ s).2))) s ∧
      HasDerivAt (fun t => downstream w u v (γ t)) (c * (u ^ 2 + v ^ 2 - w.qw * (twoPiInv : ℝ) * (downstream w u v (γ s) / w.r2 (γ s).1 (γ s).2))) s := by
  obtain ⟨V, ⟨hoff, b, hb, d1, d2⟩, hd⟩ := hγ s h0 h1
  obtain ⟨e1, e2⟩ := C29_partials m _ _ hoff
  have u1 := d1.unique e1
  have u2 := d2.unique e2
  rw [uniform_discharge h] at u1 u2
  simp only at u1 u2
  have hb0 : 0 < b := by
    unfold Saturated at hb
    split_ifs at hb
    · rw [hb]
      exact hm.thickness
    · obtain ⟨H, hH, -, rfl⟩ := hb
      exact lt_min hH hm.thickness
  have hnb : 0 < m.porosity * b := mul_pos hm.porosity hb0
  have hr : 0 < w.r2 (γ s).1 (γ s).2 := by
    have hne := hoff w (by rw [h.wells]; exact List.mem_singleton.mpr rfl)
    by_contra hle
    unfold Well.r2 at hle
    have a1 : ((γ s).1 - w.xw) ^ 2 = 0 := by nlinarith [sq_nonneg ((γ s).1 - w.xw), sq_nonneg ((γ s).2 - w.yw)]
    have a2 : ((γ s).2 - w.yw) ^ 2 = 0 := by nlinarith [sq_nonneg ((γ s).1 - w.xw), sq_nonneg ((γ s).2 - w.yw)]
    exact hne (Prod.ext (sub_eq_zero.mp (pow_eq_zero_iff two_ne_zero |>.mp a1)) (sub_eq_zero.mp (pow_eq_zero_iff two_ne_zero |>.mp a2)))
  have hd1 : HasDerivAt (fun t => (γ t).1) V.1 s := by
    have := (ContinuousLinearMap.fst ℝ ℝ ℝ).hasFDerivAt.comp_hasDerivAt s hd
    exact this
  have hd2 : HasDerivAt (fun t => (γ t).2) V.2 s := by
    have := (ContinuousLinearMap.snd ℝ ℝ ℝ).hasFDerivAt.comp_hasDerivAt s hd
    exact this
  have v1 : V.1 = 1 / (m.porosity * b) * (u - w.qw * (twoPiInv : ℝ) * (((γ s).1 - w.xw) / w.r2 (γ s).1 (γ s).2)) := by
    rw [one_div, eq_inv_mul_iff_mul_eq₀ hnb.ne']
    linarith
  have v2 : V.2 = 1 / (m.porosity * b) * (v - w.qw * (twoPiInv : ℝ) * (((γ s).2 - w.yw) / w.r2 (γ s).1 (γ s).2)) := by
    rw [one_div, eq_inv_mul_iff_mul_eq₀ hnb.ne']
    linarith
  refine ⟨1 / (m.porosity * b), by positivity, hr, ?_, ?_⟩
  · refine (((hd2.sub_const w.yw).const_mul u).sub ((hd1.sub_const w.xw).const_mul v)).congr_deriv ?_
    rw [v1, v2]
    unfold leftOf
    ring
  · refine (((hd1.sub_const w.xw).const_mul u).add ((hd2.sub_const w.yw).const_mul v)).congr_deriv ?_
    rw [v1, v2]
    unfold downstream
    ring

theorem squares (w : Well ℝ) (u v : ℝ) (p : ℝ × ℝ) : downstream w u v p ^ 2 + leftOf w u v p ^ 2 = (u ^ 2 + v ^ 2) * w.r2 p.1 p.2 := by
  unfold downstream leftOf Well.r2
  ring

section
variable {m : Aquifer ℝ} (hm : m.Physical) {w : Well ℝ} {u v : ℝ} (h : m.UniformFlow w u v) (hq : 0 ≤ w.qw) {confined : Bool} {γ : ℝ → ℝ × ℝ} {τ : ℝ} (hγ : m.Carries confined γ τ)
include hm h hγ

theorem leftOf_continuous : ContinuousOn (fun t => leftOf w u v (γ t)) (Set.Icc 0 τ) := fun _ hs => by
  obtain ⟨c, -, -, hd, -⟩ := uniform_rates hm h hγ hs.1 hs.2
  exact hd.continuousAt.continuousWithinAt

include hq

/-- water gets nearer to the axis -/
theorem leftOf_antitone : AntitoneOn (fun t => leftOf w u v (γ t) ^ 2) (Set.Icc 0 τ) := by
  refine antitoneOn_of_deriv_nonpos (convex_Icc 0 τ) ((leftOf_continuous hm h hγ).pow 2) ?_ ?_
  · intro s hs
    rw [interior_Icc] at hs
    obtain ⟨c, -, -, hd, -⟩ := uniform_rates hm h hγ hs.1.le hs.2.le
    exact (hd.pow 2).differentiableAt.differentiableWithinAt
  · intro s hs
    rw [interior_Icc] at hs
    obtain ⟨c, hc, hr, hd, -⟩ := uniform_rates hm h hγ hs.1.le hs.2.le
    rw [show (fun t => leftOf w u v (γ t) ^ 2) = (fun t => leftOf w u v (γ t)) ^ 2 from rfl, (hd.pow 2).deriv]
    have hk : (0:ℝ) < (twoPiInv : ℝ) := by norm_num [twoPiInv]
    have : 0 ≤ c * (w.qw * (twoPiInv : ℝ)) * (leftOf w u v (γ s) ^ 2 / w.r2 (γ s).1 (γ s).2) := by positivity
    have e : (2:ℕ) * leftOf w u v (γ s) ^ (2 - 1) * (-(c * (w.qw * (twoPiInv : ℝ)) * (leftOf w u v (γ s) / w.r2 (γ s).1 (γ s).2))) = -(2 * (c * (w.qw * (twoPiInv : ℝ)) * (leftOf w u v (γ s) ^ 2 / w.r2 (γ s).1 (γ s).2))) := by
      push_cast
      ring
    rw [e]
    linarith

/-- water stays on one side of the axis -/
theorem leftOf_ne {s : ℝ} (h0 : 0 ≤ s) (h1 : s ≤ τ) (hne : leftOf w u v (γ τ) ≠ 0) : leftOf w u v (γ s) ≠ 0 := by
  intro e
  have := leftOf_antitone hm h hq hγ ⟨h0, h1⟩ ⟨h0.trans h1, le_rfl⟩ h1
  simp only [e] at this
  have : 0 < leftOf w u v (γ τ) ^ 2 := by positivity
  nlinarith

/-- the streamline on which the water moves -/
theorem streamline (h0 : 0 ≤ τ) (hne : leftOf w u v (γ τ) ≠ 0) :
    leftOf w u v (γ 0) - leftOf w u v (γ τ) = w.qw * (twoPiInv : ℝ) * (bearing w u v (γ 0) - bearing w u v (γ τ)) := by
  have hd : ∀ s, 0 ≤ s → s ≤ τ → HasDerivAt (fun t => leftOf w u v (γ t) - w.qw * (twoPiInv : ℝ) * bearing w u v (γ t)) 0 s := by
    intro s s0 s1
    obtain ⟨c, hc, hr, hd1, hd2⟩ := uniform_rates hm h hγ s0 s1
    have hns := leftOf_ne hm h hq hγ s0 s1 hne
    have hz : HasDerivAt (fun t => (Complex.mk (downstream w u v (γ t)) (leftOf w u v (γ t)))) (Complex.mk (c * (u ^ 2 + v ^ 2 - w.qw * (twoPiInv : ℝ) * (downstream w u v (γ s) / w.r2 (γ s).1 (γ s).2)))
        (-(c * (w.qw * (twoPiInv : ℝ)) * (leftOf w u v (γ s) / w.r2 (γ s).1 (γ s).2)))) s := by
      have e : ∀ a b : ℝ, Complex.mk a b = a + b * Complex.I := fun a b => Complex.mk_eq_add_mul_I a b
      simp only [e]
      exact hd2.ofReal_comp.add (hd1.ofReal_comp.mul_const _)
    have hslit : Complex.mk (downstream w u v (γ s)) (leftOf w u v (γ s)) ∈ Complex.slitPlane := .inr hns
    have hl := hz.clog_real hslit
    have harg := Complex.imCLM.hasFDerivAt.comp_hasDerivAt s hl
    rw [show (⇑Complex.imCLM ∘ fun t => Complex.log { re := downstream w u v (γ t), im := leftOf w u v (γ t) }) = fun t => bearing w u v (γ t) from funext fun t => Complex.log_im _] at harg
    refine (hd1.sub (harg.const_mul _)).congr_deriv ?_
    have hsq := squares w u v (γ s)
    have hU : 0 < u ^ 2 + v ^ 2 := by
      by_contra hle
      have hle := not_lt.mp hle
      have h1 : 0 < leftOf w u v (γ s) ^ 2 := by positivity
      nlinarith [sq_nonneg (downstream w u v (γ s)), mul_nonneg hr.le (by positivity : 0 ≤ u ^ 2 + v ^ 2)]
    rw [Complex.imCLM_apply, Complex.div_im]
    simp only [Complex.normSq_mk]
    rw [← pow_two, ← pow_two, hsq]
    field_simp
    ring
  have hc := constant_of_has_deriv_right_zero (a := 0) (b := τ) (f := fun t => leftOf w u v (γ t) - w.qw * (twoPiInv : ℝ) * bearing w u v (γ t)) (fun s hs => (hd s hs.1 hs.2).continuousAt.continuousWithinAt)
    (fun s hs => (hd s hs.1 hs.2.le).hasDerivWithinAt) τ ⟨h0, le_rfl⟩
  linarith

/-- how far from the axis the water has been -/
theorem leftOf_bound (h0 : 0 ≤ τ) : |leftOf w u v (γ 0)| ≤ |leftOf w u v (γ τ)| + w.qw * ((twoPiInv : ℝ) * Real.pi) := by
  have hk : (0:ℝ) < (twoPiInv : ℝ) := by norm_num [twoPiInv]
  -- first if it does not end on the axis
  have key : ∀ s, 0 ≤ s → s ≤ τ → leftOf w u v (γ s) ≠ 0 → |leftOf w u v (γ 0)| ≤ |leftOf w u v (γ s)| + w.qw * ((twoPiInv : ℝ) * Real.pi) := by
    intro s s0 s1 hne
    have hγ' : m.Carries confined γ s := fun t t0 t1 => hγ t t0 (t1.trans s1)
    have e := streamline hm h hq hγ' s0 hne
    have hn0 := leftOf_ne hm h hq hγ' le_rfl s0 hne
    have hdiff : |bearing w u v (γ 0) - bearing w u v (γ s)| ≤ Real.pi := by
      have hcont : ContinuousOn (fun t => leftOf w u v (γ t)) (Set.Icc 0 s) := leftOf_continuous hm h hγ'
      have hz : ∀ t ∈ Set.Icc 0 s, leftOf w u v (γ t) ≠ 0 := fun t ht => leftOf_ne hm h hq hγ' ht.1 ht.2 hne
      have hle := fun p => Complex.arg_le_pi (Complex.mk (downstream w u v p) (leftOf w u v p))
      have hlt := fun p => Complex.neg_pi_lt_arg (Complex.mk (downstream w u v p) (leftOf w u v p))
      rcases lt_or_gt_of_ne hn0 with a0 | a0 <;> rcases lt_or_gt_of_ne hne with a1 | a1
      · have b0 : bearing w u v (γ 0) < 0 := Complex.arg_neg_iff.mpr a0
        have b1 : bearing w u v (γ s) < 0 := Complex.arg_neg_iff.mpr a1
        have c0 := hlt (γ 0)
        have c1 := hlt (γ s)
        unfold bearing at *
        rw [abs_le]
        constructor <;> linarith
      · obtain ⟨t, ht, e⟩ := intermediate_value_Icc s0 hcont ⟨a0.le, a1.le⟩
        exact absurd e (hz t ht)
      · obtain ⟨t, ht, e⟩ := intermediate_value_Icc' s0 hcont ⟨a1.le, a0.le⟩
        exact absurd e (hz t ht)
      · have b0 : 0 ≤ bearing w u v (γ 0) := Complex.arg_nonneg_iff.mpr a0.le
        have b1 : 0 ≤ bearing w u v (γ s) := Complex.arg_nonneg_iff.mpr a1.le
        have c0 := hle (γ 0)
        have c1 := hle (γ s)
        unfold bearing at *
        rw [abs_le]
        constructor <;> linarith
    have : |leftOf w u v (γ 0) - leftOf w u v (γ s)| ≤ w.qw * ((twoPiInv : ℝ) * Real.pi) := by
      rw [e, abs_mul, abs_of_nonneg (by positivity), mul_assoc]
      exact mul_le_mul_of_nonneg_left (mul_le_mul_of_nonneg_left hdiff hk.le) hq
    have := abs_sub_abs_le_abs_sub (leftOf w u v (γ 0)) (leftOf w u v (γ s))
    linarith
  by_cases hne : leftOf w u v (γ τ) = 0
  · rw [hne, abs_zero, zero_add]
    refine le_of_forall_pos_le_add fun ε hε => ?_
    by_cases hsmall : |leftOf w u v (γ 0)| ≤ ε
    · have : 0 ≤ w.qw * ((twoPiInv : ℝ) * Real.pi) := by positivity
      linarith
    · have hcont : ContinuousOn (fun t => |leftOf w u v (γ t)|) (Set.Icc 0 τ) := (leftOf_continuous hm h hγ).abs
      obtain ⟨t, ht, e⟩ := intermediate_value_Icc' h0 hcont (show ε ∈ Set.Icc |leftOf w u v (γ τ)| |leftOf w u v (γ 0)| from ⟨by rw [hne, abs_zero]; exact hε.le, (not_le.mp hsmall).le⟩)
      simp only at e
      have := key t ht.1 ht.2 (by intro e'; rw [e', abs_zero] at e; linarith)
      rw [e] at this
      linarith
  · exact key τ h0 le_rfl hne

/-- water does not come back from beyond the stagnation point -/
theorem downstream_bound (h0 : 0 ≤ τ) : downstream w u v (γ 0) ≤ max (downstream w u v (γ τ)) (w.qw * (twoPiInv : ℝ)) := by
  by_contra hlt
  obtain ⟨h1, h2⟩ := max_lt_iff.mp (not_le.mp hlt)
  have hk : (0:ℝ) < (twoPiInv : ℝ) := by norm_num [twoPiInv]
  have hA : 0 < downstream w u v (γ 0) := lt_of_le_of_lt (by positivity) h2
  have hd : ∀ s, 0 ≤ s → s ≤ τ → ∃ c, 0 < c ∧ 0 < w.r2 (γ s).1 (γ s).2 ∧ HasDerivAt (fun t => -downstream w u v (γ t)) (-(c * (u ^ 2 + v ^ 2 - w.qw * (twoPiInv : ℝ) * (downstream w u v (γ s) / w.r2 (γ s).1 (γ s).2)))) s := by
    intro s s0 s1
    obtain ⟨c, hc, hr, -, hd⟩ := uniform_rates hm h hγ s0 s1
    exact ⟨c, hc, hr, hd.neg⟩
  choose! c hc hr hd using hd
  have key := image_le_of_deriv_right_lt_deriv_boundary' (f := fun t => -downstream w u v (γ t)) (a := 0) (b := τ) (fun s hs => (hd s hs.1 hs.2).continuousAt.continuousWithinAt)
    (fun s hs => (hd s hs.1 hs.2.le).hasDerivWithinAt) (B := fun _ => -downstream w u v (γ 0)) (B' := fun _ => 0) le_rfl continuousOn_const (fun s _ => hasDerivWithinAt_const _ _ _) (fun s hs e => by
      have e : downstream w u v (γ s) = downstream w u v (γ 0) := neg_injective e
      have c0 := hc s hs.1 hs.2.le
      have r0 := hr s hs.1 hs.2.le
      have hsq := squares w u v (γ s)
      rw [e] at hsq ⊢
      have hlt : w.qw * (twoPiInv : ℝ) * (downstream w u v (γ 0) / w.r2 (γ s).1 (γ s).2) < u ^ 2 + v ^ 2 := by
        rw [← mul_div_assoc, div_lt_iff₀ r0, ← hsq]
        nlinarith [sq_nonneg (leftOf w u v (γ s))]
      have : 0 < c s * (u ^ 2 + v ^ 2 - w.qw * (twoPiInv : ℝ) * (downstream w u v (γ 0) / w.r2 (γ s).1 (γ s).2)) := mul_pos c0 (by linarith)
      linarith) ⟨h0, le_rfl⟩
  simp only [neg_le_neg_iff] at key
  linarith

end

theorem euclid_nonneg' (p q : ℝ × ℝ) : 0 ≤ euclid p q := Real.sqrt_nonneg _

/-- the distance from the axis changes at most as much as one moves -/
theorem fromAxis_lipschitz (w : Well ℝ) {u v : ℝ} (hU : 0 < u ^ 2 + v ^ 2) (p q : ℝ × ℝ) : fromAxis w u v p ≤ fromAxis w u v q + euclid p q := by
  have hs : 0 < Real.sqrt (u ^ 2 + v ^ 2) := Real.sqrt_pos.mpr hU
  unfold fromAxis
  rw [div_le_iff₀ hs, add_mul, div_mul_cancel₀ _ hs.ne']
  have h1 : |leftOf w u v p - leftOf w u v q| ≤ euclid p q * Real.sqrt (u ^ 2 + v ^ 2) := by
    refine abs_le_of_sq_le_sq ?_ (mul_nonneg (euclid_nonneg' p q) hs.le)
    rw [mul_pow, Real.sq_sqrt hU.le, euclid, Real.sq_sqrt (by positivity)]
    unfold leftOf
    nlinarith [sq_nonneg (u * (q.1 - p.1) + v * (q.2 - p.2))]
  have h2 := abs_sub_abs_le_abs_sub (leftOf w u v p) (leftOf w u v q)
  linarith

theorem fromAxis_le (w : Well ℝ) {u v : ℝ} (hU : 0 < u ^ 2 + v ^ 2) (p : ℝ × ℝ) : fromAxis w u v p ≤ euclid p (w.xw, w.yw) := by
  have := fromAxis_lipschitz w hU p (w.xw, w.yw)
  simpa [fromAxis, leftOf] using this

theorem only_well {a : RunArgs} {la : LinAlg} {t t' : SWell} {q : Dist → ℕ → Except PyErr ℝ} {coefs : (Fin 6 → ℝ) → Matrix (Fin 6) (Fin 6) ℝ → Except PyErr (Fin 6 → ℝ)} {interrupt : ℕ → ℕ → Option PyErr} {L : RealizationLog}
    (R : Realized a la t' q coefs interrupt L) (ht : t ∈ a.wells) {w : Well ℝ} (hw : L.model.wells = [w]) : t.xw = w.xw ∧ t.yw = w.yw ∧ t.rw = w.rw := by
  obtain ⟨j, hj⟩ := List.getElem?_of_mem ht
  obtain ⟨d, h1, -⟩ := R.wells j t hj
  rw [hw] at h1
  have := List.mem_of_getElem? h1
  obtain rfl := List.mem_singleton.mp this
  exact ⟨rfl, rfl, rfl⟩

theorem below_lipschitz (w : Well ℝ) {u v : ℝ} (hU : 0 < u ^ 2 + v ^ 2) (p q : ℝ × ℝ) : below w u v p ≤ below w u v q + euclid p q := by
  have hs : 0 < Real.sqrt (u ^ 2 + v ^ 2) := Real.sqrt_pos.mpr hU
  have h1 : |downstream w u v p - downstream w u v q| ≤ Real.sqrt (u ^ 2 + v ^ 2) * euclid p q := by
    refine abs_le_of_sq_le_sq ?_ (mul_nonneg hs.le (euclid_nonneg' p q))
    rw [mul_pow, Real.sq_sqrt hU.le, euclid, Real.sq_sqrt (by positivity)]
    unfold downstream
    nlinarith [sq_nonneg (u * (q.2 - p.2) - v * (q.1 - p.1))]
  have := (abs_le.mp h1).2
  unfold below
  rw [div_le_iff₀ hs, add_mul, div_mul_cancel₀ _ hs.ne']
  linarith

theorem below_le (w : Well ℝ) {u v : ℝ} (hU : 0 < u ^ 2 + v ^ 2) (p : ℝ × ℝ) : below w u v p ≤ euclid p (w.xw, w.yw) := by
  have := below_lipschitz w hU p (w.xw, w.yw)
  simpa [below, downstream] using this

end Oneka
