import Verif.Lemmas.Width

/-!
# Lemmas for the dividing streamline of Props/Width.lean
-/

namespace Oneka

open Aquifer

section
variable {m : Aquifer ℝ} {w : Well ℝ} {u v : ℝ} {confined : Bool} {γ : ℝ → ℝ × ℝ} {τ : ℝ}

theorem carries_until (hγ : m.Carries confined γ τ) {s : ℝ} (hs : s ≤ τ) : m.Carries confined γ s := fun r r0 r1 => hγ r r0 (r1.trans hs)

theorem bearing_sign (w : Well ℝ) (u v : ℝ) (p : ℝ × ℝ) : (0 ≤ leftOf w u v p → 0 ≤ bearing w u v p) ∧ (leftOf w u v p < 0 → bearing w u v p < 0) :=
  ⟨fun h => Complex.arg_nonneg_iff.mpr h, fun h => Complex.arg_neg_iff.mpr h⟩

/-- near the well, everything is inside -/
theorem inside_near {c : ℝ} (p : ℝ × ℝ) (hc : Real.sqrt (u ^ 2 + v ^ 2) * euclid p (w.xw, w.yw) ≤ c) : |leftOf w u v p| ≤ c * |bearing w u v p| := by
  set z : ℂ := ⟨downstream w u v p, leftOf w u v p⟩ with hz
  have hn : ‖z‖ = Real.sqrt (u ^ 2 + v ^ 2) * euclid p (w.xw, w.yw) := by
    rw [Complex.norm_def, Complex.normSq_mk]
    unfold euclid
    rw [← Real.sqrt_mul (by positivity)]
    congr 1
    unfold downstream leftOf
    simp only
    ring
  have hl : leftOf w u v p = ‖z‖ * Real.sin (bearing w u v p) := by
    have := Complex.norm_mul_sin_arg z
    exact this.symm
  rw [hl, abs_mul, abs_of_nonneg (norm_nonneg z)]
  exact mul_le_mul (hn ▸ hc) (Real.abs_sin_le_abs) (abs_nonneg _) (le_trans (norm_nonneg z) (hn ▸ hc))

/-- the dividing streamline: water that ends inside was inside -/
theorem inside_back (hm : m.Physical) (h : m.UniformFlow w u v) (hq : 0 ≤ w.qw) (h0 : 0 ≤ τ) (hγ : m.Carries confined γ τ) (hin : |leftOf w u v (γ τ)| ≤ w.qw * (twoPiInv : ℝ) * |bearing w u v (γ τ)|) :
    |leftOf w u v (γ 0)| ≤ w.qw * (twoPiInv : ℝ) * |bearing w u v (γ 0)| := by
  have hc : 0 ≤ w.qw * (twoPiInv : ℝ) := mul_nonneg hq (by unfold twoPiInv; norm_num)
  have cont : ContinuousOn (fun s => leftOf w u v (γ s)) (Set.Icc 0 τ) := leftOf_continuous hm h hγ
  have hne : ∀ s ∈ Set.Icc 0 τ, leftOf w u v (γ s) ≠ 0 → leftOf w u v (γ 0) - leftOf w u v (γ s) = w.qw * (twoPiInv : ℝ) * (bearing w u v (γ 0) - bearing w u v (γ s)) :=
    fun s hs hn => streamline hm h hq (carries_until hγ hs.2) hs.1 hn
  have keep : ∀ s ∈ Set.Icc 0 τ, leftOf w u v (γ s) ≠ 0 → ∀ r, 0 ≤ r → r ≤ s → leftOf w u v (γ r) ≠ 0 :=
    fun s hs hn r r0 r1 => leftOf_ne hm h hq (carries_until hγ hs.2) r0 r1 hn
  rcases lt_trichotomy (leftOf w u v (γ 0)) 0 with hl | hl | hl
  · have b0 := (bearing_sign w u v (γ 0)).2 hl
    rw [abs_of_neg hl, abs_of_neg b0]
    -- at all times the water is not on the other side
    have side : leftOf w u v (γ τ) ≤ 0 := by
      by_contra hp
      push Not at hp
      obtain ⟨r, hr, e⟩ := intermediate_value_Icc h0 cont ⟨hl.le, hp.le⟩
      exact keep τ ⟨h0, le_rfl⟩ hp.ne' r hr.1 hr.2 e
    rcases side.lt_or_eq with hs | hs
    · have e := hne τ ⟨h0, le_rfl⟩ hs.ne
      have bs := (bearing_sign w u v (γ τ)).2 hs
      rw [abs_of_neg hs, abs_of_neg bs] at hin
      nlinarith
    · by_contra hcon
      push Not at hcon
      set ε := leftOf w u v (γ 0) - w.qw * (twoPiInv : ℝ) * bearing w u v (γ 0) with hε
      have hε0 : ε < 0 := by rw [hε]; nlinarith
      obtain ⟨r, hr, e⟩ := intermediate_value_Icc h0 cont (show max (ε / 2) (leftOf w u v (γ 0) / 2) ∈ Set.Icc _ _ from
        ⟨le_max_of_le_right (by linarith), by rw [hs]; exact max_le (by linarith) (by linarith)⟩)
      have hr0 : leftOf w u v (γ r) < 0 := by
        rw [show leftOf w u v (γ r) = _ from e]
        exact max_lt (by linarith) (by linarith)
      have e2 := hne r hr hr0.ne
      have br := (bearing_sign w u v (γ r)).2 hr0
      have : ε / 2 ≤ leftOf w u v (γ r) := by rw [show leftOf w u v (γ r) = _ from e]; exact le_max_left _ _
      have := mul_nonneg hc (neg_nonneg.mpr br.le)
      nlinarith
  · rw [hl, abs_zero]
    positivity
  · have b0 := (bearing_sign w u v (γ 0)).1 hl.le
    rw [abs_of_pos hl, abs_of_nonneg b0]
    have side : 0 ≤ leftOf w u v (γ τ) := by
      by_contra hp
      push Not at hp
      obtain ⟨r, hr, e⟩ := intermediate_value_Icc' h0 cont ⟨hp.le, hl.le⟩
      exact keep τ ⟨h0, le_rfl⟩ hp.ne r hr.1 hr.2 e
    rcases side.lt_or_eq with hs | hs
    · have e := hne τ ⟨h0, le_rfl⟩ hs.ne'
      have bs := (bearing_sign w u v (γ τ)).1 hs.le
      rw [abs_of_pos hs, abs_of_nonneg bs] at hin
      nlinarith
    · by_contra hcon
      push Not at hcon
      set ε := leftOf w u v (γ 0) - w.qw * (twoPiInv : ℝ) * bearing w u v (γ 0) with hε
      have hε0 : 0 < ε := by rw [hε]; nlinarith
      obtain ⟨r, hr, e⟩ := intermediate_value_Icc' h0 cont (show min (ε / 2) (leftOf w u v (γ 0) / 2) ∈ Set.Icc _ _ from
        ⟨by rw [← hs]; exact le_min (by linarith) (by linarith), min_le_of_right_le (by linarith)⟩)
      have hr0 : 0 < leftOf w u v (γ r) := by
        rw [show leftOf w u v (γ r) = _ from e]
        exact lt_min (by linarith) (by linarith)
      have e2 := hne r hr hr0.ne'
      have br := (bearing_sign w u v (γ r)).1 hr0.le
      have : leftOf w u v (γ r) ≤ ε / 2 := by rw [show leftOf w u v (γ r) = _ from e]; exact min_le_left _ _
      have := mul_nonneg hc br
      nlinarith

/-- and water that is inside stays inside -/
theorem inside_on (hm : m.Physical) (h : m.UniformFlow w u v) (hq : 0 ≤ w.qw) (h0 : 0 ≤ τ) (hγ : m.Carries confined γ τ) (hin : |leftOf w u v (γ 0)| ≤ w.qw * (twoPiInv : ℝ) * |bearing w u v (γ 0)|) :
    |leftOf w u v (γ τ)| ≤ w.qw * (twoPiInv : ℝ) * |bearing w u v (γ τ)| := by
  have hc : 0 ≤ w.qw * (twoPiInv : ℝ) := mul_nonneg hq (by unfold twoPiInv; norm_num)
  have cont : ContinuousOn (fun s => leftOf w u v (γ s)) (Set.Icc 0 τ) := leftOf_continuous hm h hγ
  rcases eq_or_ne (leftOf w u v (γ τ)) 0 with hz | hz
  · rw [hz, abs_zero]
    positivity
  · have e := streamline hm h hq hγ h0 hz
    have h0ne := leftOf_ne hm h hq hγ le_rfl h0 hz
    rcases lt_or_gt_of_ne hz with hs | hs
    · have hl : leftOf w u v (γ 0) < 0 := by
        by_contra hp
        obtain ⟨r, hr, er⟩ := intermediate_value_Icc' h0 cont ⟨hs.le, not_lt.mp hp⟩
        exact leftOf_ne hm h hq hγ hr.1 hr.2 hz er
      rw [abs_of_neg hl, abs_of_neg ((bearing_sign w u v (γ 0)).2 hl)] at hin
      rw [abs_of_neg hs, abs_of_neg ((bearing_sign w u v (γ τ)).2 hs)]
      nlinarith
    · have hl : 0 < leftOf w u v (γ 0) := by
        by_contra hp
        obtain ⟨r, hr, er⟩ := intermediate_value_Icc h0 cont ⟨not_lt.mp hp, hs.le⟩
        exact leftOf_ne hm h hq hγ hr.1 hr.2 hz er
      rw [abs_of_pos hl, abs_of_nonneg ((bearing_sign w u v (γ 0)).1 hl.le)] at hin
      rw [abs_of_pos hs, abs_of_nonneg ((bearing_sign w u v (γ τ)).1 hs.le)]
      nlinarith

end

end Oneka
