import Mathlib.MeasureTheory.Measure.Lebesgue.Basic
import Verif.Lemmas.PropsVariate
import Verif.Props.Variate

/-! Helper lemmas for C83. -/

namespace Oneka

open MeasureTheory Variate

theorem volume_upto {S : Set ℝ} {p : ℝ} (h0 : 0 ≤ p) (h1 : p ≤ 1) (h : ∀ u, u ∈ S ↔ 0 ≤ u ∧ u < 1 ∧ u ≤ p) : volume S = ENNReal.ofReal p := by
  rcases h1.lt_or_eq with hp | rfl
  · have : S = Set.Icc 0 p := by
      ext u
      rw [h, Set.mem_Icc]
      exact ⟨fun a => ⟨a.1, a.2.2⟩, fun a => ⟨a.1, by linarith [a.2], a.2⟩⟩
    rw [this, Real.volume_Icc, sub_zero]
  · have : S = Set.Ico 0 1 := by
      ext u
      rw [h, Set.mem_Ico]
      exact ⟨fun a => ⟨a.1, a.2.1⟩, fun a => ⟨a.1, a.2, a.2.le⟩⟩
    rw [this, Real.volume_Ico, sub_zero]

theorem mem_drawsBelow {arg : PyVal} {g : ℝ → ℝ} (h : ∀ u, 0 ≤ u → u < 1 → generateRandomVariate arg u = .ok (.float (.fin (g u)))) (z u : ℝ) :
    u ∈ drawsBelow arg z ↔ 0 ≤ u ∧ u < 1 ∧ g u ≤ z := by
  constructor
  · rintro ⟨h0, h1, v, r, hv, hr, hz⟩
    rw [h u h0 h1] at hv
    obtain rfl := Except.ok.inj hv
    obtain rfl := XR.fin.inj (Option.some.inj hr)
    exact ⟨h0, h1, hz⟩
  · rintro ⟨h0, h1, hz⟩
    exact ⟨h0, h1, _, _, h u h0 h1, rfl, hz⟩

theorem tri_le_iff {x c y : ℝ} (h1 : x ≤ c) (h2 : c ≤ y) (h3 : x < y) {z u : ℝ} (hz : x < z) (hzy : z ≤ y) (hu : 0 ≤ u) (hu1 : u < 1) :
    tri x c y u ≤ z ↔ u ≤ triangularCdf x c y z := by
  have hd : 0 < y - x := by linarith
  unfold tri triangularCdf
  rw [if_neg (not_le.mpr hz)]
  by_cases hr : u ≤ (c - x) / (y - x)
  · rw [if_pos hr]
    have hr' := (le_div_iff₀ hd).mp hr
    by_cases hc : z ≤ c
    · have hcx : 0 < c - x := by linarith
      rw [if_pos hc, le_div_iff₀ (mul_pos hd hcx), ← le_sub_iff_add_le', Real.sqrt_le_left (by linarith)]
      rw [mul_comm (c - x)]
    · rw [if_neg hc, if_pos hzy]
      rw [not_le] at hc
      have hyc : 0 < y - c := by linarith
      refine iff_of_true ?_ ?_
      · have : Real.sqrt (u * ((c - x) * (y - x))) ≤ c - x := Real.sqrt_le_iff.mpr ⟨by linarith, by nlinarith⟩
        linarith
      · rw [le_sub_comm, div_le_iff₀ (mul_pos hd hyc)]
        nlinarith [mul_nonneg (by linarith : 0 ≤ z - c) (by linarith : 0 ≤ 2 * y - c - z), mul_nonneg hyc.le (by linarith : 0 ≤ (c - x) - u * (y - x))]
  · rw [if_neg hr]
    have hr' := not_le.mp hr
    rw [div_lt_iff₀ hd] at hr'
    have hyc : 0 < y - c := by nlinarith
    by_cases hc : z ≤ c
    · have hcx : 0 < c - x := by linarith
      rw [if_pos hc]
      refine iff_of_false ?_ ?_
      · rw [not_le]
        have : Real.sqrt ((1 - u) * ((y - c) * (y - x))) < y - c := by
          rw [Real.sqrt_lt' hyc]
          nlinarith [mul_pos hyc (by linarith : 0 < u * (y - x) - (c - x))]
        linarith
      · rw [not_le, div_lt_iff₀ (mul_pos hd hcx)]
        nlinarith [mul_nonneg (by linarith : 0 ≤ c - z) (by linarith : 0 ≤ c + z - 2 * x), mul_pos hcx (by linarith : 0 < u * (y - x) - (c - x))]
    · rw [if_neg hc, if_pos hzy, le_sub_comm, div_le_iff₀ (mul_pos hd hyc), sub_le_comm, Real.le_sqrt (by linarith), mul_comm (y - c)]
      exact mul_nonneg (by linarith) (mul_nonneg hyc.le hd.le)

theorem tri_gt {x c y : ℝ} (h1 : x ≤ c) (h2 : c ≤ y) (h3 : x < y) {u : ℝ} (hu : 0 < u) (hu1 : u < 1) : x < tri x c y u := by
  have hd : 0 < y - x := by linarith
  unfold tri
  split_ifs with hr
  · have hr' := (le_div_iff₀ hd).mp hr
    have hcx : 0 < c - x := by nlinarith [mul_pos hu hd]
    have := Real.sqrt_pos.mpr (mul_pos hu (mul_pos hcx hd))
    linarith
  · have : Real.sqrt ((1 - u) * ((y - c) * (y - x))) < y - x := by
      rw [Real.sqrt_lt' hd]
      have : (1 - u) * (y - c) < y - x := by nlinarith
      nlinarith
    linarith

theorem triCdf_mem {x c y : ℝ} (h1 : x ≤ c) (h2 : c ≤ y) (z : ℝ) : 0 ≤ triangularCdf x c y z ∧ triangularCdf x c y z ≤ 1 := by
  unfold triangularCdf
  split_ifs with a b d
  · norm_num
  · have p : 0 < c - x := by linarith
    have q : 0 < y - x := by linarith
    rw [div_le_one (mul_pos q p)]
    exact ⟨by positivity, by nlinarith⟩
  · have p : 0 < y - c := by linarith
    have q : 0 < y - x := by linarith
    rw [sub_nonneg, div_le_one (mul_pos q p), sub_le_self_iff]
    exact ⟨by nlinarith, by positivity⟩
  · norm_num

theorem asReal_num {w : PyVal} {r s : ℝ} (hw : w.num = some (.fin r)) (hs : PyVal.asReal (.ok w) = .ok s) : s = r := by
  unfold PyVal.asReal at hs
  split at hs
  · rename_i h
    obtain rfl := Except.ok.inj h
    obtain rfl := XR.fin.inj (Option.some.inj hw)
    exact (Except.ok.inj hs).symm
  · simp at hs
  · simp at hs

theorem mean_integral {d : Dist} {lo hi x : ℝ} (h : IsDist d.toPy lo hi) (hx : d.mean = .ok x) {g : ℝ → ℝ} (hg : ∀ u, 0 ≤ u → u < 1 → d.sample u = .ok (g u)) :
    x = ∫ u in (0:ℝ)..1, g u := by
  obtain ⟨v, μ, h1, h2, -, -, g', h3, -, h5⟩ := C42_mean h
  unfold Dist.mean at hx
  rw [h1] at hx
  rw [asReal_num h2 hx, ← h5, intervalIntegral.integral_of_le zero_le_one, intervalIntegral.integral_of_le zero_le_one, integral_Ioc_eq_integral_Ioo, integral_Ioc_eq_integral_Ioo]
  refine setIntegral_congr_fun measurableSet_Ioo fun u hu => ?_
  obtain ⟨w, e, hw⟩ := h3 u hu.1.le hu.2
  have := hg u hu.1.le hu.2
  unfold Dist.sample at this
  rw [e] at this
  exact (asReal_num hw this).symm

theorem sample_below {d : Dist} {lo hi : ℝ} (h : IsDist d.toPy lo hi) {u x : ℝ} (hu : 0 ≤ u) (hu1 : u < 1) (hx : d.sample u = .ok x) (z : ℝ) : x ≤ z ↔ u ∈ drawsBelow d.toPy z := by
  obtain ⟨v, r, h1, h2, -⟩ := C41_in_range h hu hu1
  have hx' := hx
  unfold Dist.sample at hx'
  rw [h1] at hx'
  obtain rfl := asReal_num h2 hx'
  constructor
  · intro hz
    exact ⟨hu, hu1, v, x, h1, h2, hz⟩
  · rintro ⟨-, -, v', r', h3, h4, hz⟩
    rw [h1] at h3
    obtain rfl := Except.ok.inj h3
    rw [h2] at h4
    obtain rfl := XR.fin.inj (Option.some.inj h4)
    exact hz

end Oneka
