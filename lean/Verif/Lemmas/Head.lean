import Mathlib.Analysis.SpecialFunctions.Pow.Continuity
import Verif.Lemmas.Aquifer

namespace Oneka
namespace Aquifer

/-- Head as a function of the potential (over ℝ). -/
noncomputable def headOf (K T φ : ℝ) : ℝ :=
  if φ < K * T ^ 2 / 2 then Real.sqrt (2 * φ / K) else (φ + K * T ^ 2 / 2) / (K * T)

theorem head_eq (m : Aquifer ℝ) (x y : ℝ) :
    m.head x y = if m.potential x y ≤ 0 then .error .aquiferError else .ok (headOf m.conductivity m.thickness (m.potential x y)) := by
  unfold head headOf
  simp only [PyMath.q_real, PyMath.sqrt_real]
  have e : ((1/2 : ℚ) : ℝ) * m.conductivity * (m.thickness * m.thickness) = m.conductivity * m.thickness ^ 2 / 2 := by
    push_cast; ring
  rw [e]
  simp only [Rat.cast_zero, Rat.cast_ofNat]
  split_ifs <;> rfl

variable {K T : ℝ}

theorem potentialOfHead_strictMono (hK : 0 < K) (hT : 0 < T) {a b : ℝ} (ha : 0 < a) (hab : a < b) :
    potentialOfHead K T a < potentialOfHead K T b := by
  unfold potentialOfHead
  split_ifs with h1 h2
  · have : a ^ 2 < b ^ 2 := by nlinarith
    nlinarith
  · push Not at h2
    have : K * a ^ 2 / 2 < K * T ^ 2 / 2 := by
      have : a ^ 2 < T ^ 2 := by nlinarith
      nlinarith
    have : K * T * (b - T / 2) ≥ K * T * (T / 2) := by
      have : 0 < K * T := by positivity
      nlinarith
    nlinarith
  · push Not at h1; linarith
  · have : 0 < K * T := by positivity
    nlinarith

theorem headOf_pos (hK : 0 < K) (hT : 0 < T) {φ : ℝ} (hφ : 0 < φ) : 0 < headOf K T φ := by
  unfold headOf
  split_ifs
  · exact Real.sqrt_pos.mpr (by positivity)
  · positivity

theorem potential_headOf (hK : 0 < K) (hT : 0 < T) {φ : ℝ} (hφ : 0 < φ) : potentialOfHead K T (headOf K T φ) = φ := by
  unfold headOf
  split_ifs with h
  · have hlt : Real.sqrt (2 * φ / K) < T := by
      rw [Real.sqrt_lt' hT, div_lt_iff₀ hK]; nlinarith
    unfold potentialOfHead
    rw [if_pos hlt, Real.sq_sqrt (by positivity)]
    field_simp
  · push Not at h
    have hge : ¬ (φ + K * T ^ 2 / 2) / (K * T) < T := by
      rw [not_lt, le_div_iff₀ (by positivity)]; nlinarith
    unfold potentialOfHead
    rw [if_neg hge]
    field_simp
    ring

theorem head_unique (hK : 0 < K) (hT : 0 < T) {a b : ℝ} (ha : 0 < a) (hb : 0 < b)
    (h : potentialOfHead K T a = potentialOfHead K T b) : a = b := by
  rcases lt_trichotomy a b with hab | hab | hab
  · exact absurd h (potentialOfHead_strictMono hK hT ha hab).ne
  · exact hab
  · exact absurd h (potentialOfHead_strictMono hK hT hb hab).ne'

theorem headOf_strictMono (hK : 0 < K) (hT : 0 < T) : StrictMonoOn (headOf K T) (Set.Ioi 0) := by
  intro a ha b hb hab
  by_contra hle
  push Not at hle
  have ea := potential_headOf hK hT ha
  have eb := potential_headOf hK hT hb
  rcases hle.lt_or_eq with h | h
  · have := potentialOfHead_strictMono hK hT (headOf_pos hK hT hb) h
    rw [ea, eb] at this; linarith
  · rw [← h, eb] at ea; linarith

theorem headOf_continuous (hK : 0 < K) (hT : 0 < T) : Continuous (headOf K T) := by
  have : headOf K T = fun φ => if K * T ^ 2 / 2 ≤ φ then (φ + K * T ^ 2 / 2) / (K * T) else Real.sqrt (2 * φ / K) := by
    funext φ
    unfold headOf
    by_cases h : φ < K * T ^ 2 / 2
    · rw [if_pos h, if_neg (by linarith)]
    · rw [if_neg h, if_pos (by linarith)]
  rw [this]
  refine Continuous.if_le (by fun_prop) (by fun_prop) continuous_const continuous_id ?_
  intro φ hφ
  rw [← hφ]
  have : 2 * (K * T ^ 2 / 2) / K = T ^ 2 := by field_simp
  rw [this, Real.sqrt_sq hT.le]
  field_simp
  ring

theorem velocity_eq (m : Aquifer ℝ) (hm : m.Physical) (x y : ℝ) :
    m.velocity x y = if m.potential x y ≤ 0 then .error .aquiferError else
      .ok ((m.discharge x y).1 / (m.porosity * min (headOf m.conductivity m.thickness (m.potential x y)) m.thickness),
           (m.discharge x y).2 / (m.porosity * min (headOf m.conductivity m.thickness (m.potential x y)) m.thickness)) := by
  unfold velocity
  rw [head_eq]
  by_cases h : m.potential x y ≤ 0
  · simp [h]
  · have hp := headOf_pos hm.conductivity hm.thickness (not_le.mp h)
    simp only [if_neg h, PyMath.q_real, Rat.cast_zero, if_neg (not_le.mpr hp)]
    split_ifs with h2
    · rw [min_eq_right h2.le, mul_comm m.porosity]
    · rw [min_eq_left (not_lt.mp h2), mul_comm m.porosity]

end Aquifer
end Oneka
