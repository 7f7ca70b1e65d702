import Mathlib.MeasureTheory.Integral.IntervalIntegral.FundThmCalculus
import Mathlib.Analysis.Calculus.Deriv.Inverse
import Mathlib.Topology.Order.IntermediateValue
import Mathlib.Topology.Order.MonotoneContinuity
import Verif.Lemmas.Barrier

/-!
# Lemmas for Props/Clock.lean
-/

namespace Oneka

open Aquifer Set

/-- A clock that runs at the rate `1/κ`. -/
theorem exists_clock {κ : ℝ → ℝ} {τ lo hi : ℝ} (h0 : 0 ≤ τ) (hc : ContinuousOn κ (Icc 0 τ)) (hlo : 0 < lo) (hb : ∀ t ∈ Icc 0 τ, lo ≤ κ t ∧ κ t ≤ hi) :
    ∃ (θ : ℝ → ℝ) (τ' : ℝ), 0 ≤ τ' ∧ lo * τ ≤ τ' ∧ τ' ≤ hi * τ ∧ θ 0 = 0 ∧ θ τ' = τ ∧ StrictMono θ ∧ ∀ s ∈ Icc 0 τ', θ s ∈ Icc 0 τ ∧ HasDerivAt θ (κ (θ s))⁻¹ s := by
  set c : ℝ → ℝ := fun t => max 0 (min τ t) with hcdef
  have cmem : ∀ t, c t ∈ Icc 0 τ := fun t => ⟨le_max_left _ _, max_le h0 (min_le_left _ _)⟩
  have cid : ∀ t ∈ Icc 0 τ, c t = t := fun t ht => by
    simp only [hcdef]
    rw [min_eq_right ht.2, max_eq_right ht.1]
  have ccont : Continuous c := by fun_prop
  have kc : Continuous fun t => κ (c t) := hc.comp_continuous ccont cmem
  set σ : ℝ → ℝ := fun t => ∫ x in (0:ℝ)..t, κ (c x) with hσ
  have hσd : ∀ t, HasDerivAt σ (κ (c t)) t := fun t => (kc.integral_hasStrictDerivAt 0 t).hasDerivAt
  have σ0 : σ 0 = 0 := by simp [hσ]
  have mono : StrictMono σ := strictMono_of_deriv_pos fun t => by
    rw [(hσd t).deriv]
    linarith [(hb _ (cmem t)).1]
  have dl : ∀ t, HasDerivAt (fun t => σ t - lo * t) (κ (c t) - lo * 1) t := fun t => (hσd t).sub ((hasDerivAt_id t).const_mul lo)
  have du : ∀ t, HasDerivAt (fun t => hi * t - σ t) (hi * 1 - κ (c t)) t := fun t => ((hasDerivAt_id t).const_mul hi).sub (hσd t)
  have low : Monotone fun t => σ t - lo * t := by
    refine monotone_of_deriv_nonneg (fun t => (dl t).differentiableAt) fun t => ?_
    rw [(dl t).deriv]
    linarith [(hb _ (cmem t)).1]
  have upp : Monotone fun t => hi * t - σ t := by
    refine monotone_of_deriv_nonneg (fun t => (du t).differentiableAt) fun t => ?_
    rw [(du t).deriv]
    linarith [(hb _ (cmem t)).2]
  have σc : Continuous σ := continuous_iff_continuousAt.mpr fun t => (hσd t).continuousAt
  have top : Filter.Tendsto σ Filter.atTop Filter.atTop := by
    refine Filter.tendsto_atTop_mono' _ ?_ (Filter.Tendsto.const_mul_atTop hlo Filter.tendsto_id)
    filter_upwards [Filter.eventually_ge_atTop 0] with t ht
    have := low ht
    simp only [σ0, mul_zero, sub_zero] at this
    simp only [id]
    linarith
  have bot : Filter.Tendsto σ Filter.atBot Filter.atBot := by
    refine Filter.tendsto_atBot_mono' _ ?_ (Filter.Tendsto.const_mul_atBot hlo Filter.tendsto_id)
    filter_upwards [Filter.eventually_le_atBot 0] with t ht
    have := low ht
    simp only [σ0, mul_zero, sub_zero] at this
    simp only [id]
    linarith
  have surj := σc.surjective top bot
  set e := mono.orderIsoOfSurjective σ surj with he
  have e1 : ∀ t, e t = σ t := fun t => rfl
  have e2 : ∀ s, σ (e.symm s) = s := fun s => by rw [← e1]; exact e.apply_symm_apply s
  have e3 : ∀ t, e.symm (σ t) = t := fun t => by rw [← e1]; exact e.symm_apply_apply t
  have z0 : e.symm 0 = 0 := by
    have := e3 0
    rwa [σ0] at this
  refine ⟨e.symm, σ τ, ?_, ?_, ?_, z0, e3 τ, e.symm.strictMono, fun s hs => ?_⟩
  · rw [← σ0]
    exact mono.monotone h0
  · have := low h0
    simp only [σ0, mul_zero, sub_zero] at this
    linarith
  · have := upp h0
    simp only [σ0, mul_zero, sub_zero] at this
    linarith
  · have m1 : e.symm s ∈ Icc 0 τ := by
      constructor
      · rw [← z0]
        exact e.symm.monotone hs.1
      · rw [← e3 τ]
        exact e.symm.monotone hs.2
    refine ⟨m1, ?_⟩
    have hd := hσd (e.symm s)
    rw [cid _ m1] at hd
    exact HasDerivAt.of_local_left_inverse e.symm.continuous.continuousAt hd (by linarith [(hb _ m1).1]) (Filter.Eventually.of_forall e2)

/-- the saturated thickness as a function of the potential (oneka/model.py:318-390, with the roots of the square written out) -/
noncomputable def thickAt (m : Aquifer ℝ) (confined : Bool) (p : ℝ × ℝ) : ℝ := if confined then m.thickness else min √(2 * m.potential p.1 p.2 / m.conductivity) m.thickness

theorem saturated_thickAt {m : Aquifer ℝ} (hm : m.Physical) {confined : Bool} {p : ℝ × ℝ} {b : ℝ} (h : m.Saturated confined p.1 p.2 b) : b = thickAt m confined p := by
  cases confined with
  | true => simpa [Saturated, thickAt] using h
  | false => simpa [thickAt] using (saturated_root hm h).2

theorem thickAt_saturated {m : Aquifer ℝ} (hm : m.Physical) (confined : Bool) {p : ℝ × ℝ} (h : 0 < m.potential p.1 p.2) : m.Saturated confined p.1 p.2 (thickAt m confined p) := by
  have hK := hm.conductivity
  have hT := hm.thickness
  cases confined with
  | true => simp [Saturated, thickAt]
  | false =>
    simp only [Saturated, Bool.false_eq_true, if_false, thickAt]
    set Φ := m.potential p.1 p.2
    by_cases hlt : √(2 * Φ / m.conductivity) < m.thickness
    · refine ⟨√(2 * Φ / m.conductivity), by positivity, ?_, rfl⟩
      unfold potentialOfHead
      rw [if_pos hlt, Real.sq_sqrt (by positivity)]
      field_simp
    · push Not at hlt
      have h2 : m.thickness ^ 2 ≤ 2 * Φ / m.conductivity := (Real.le_sqrt hT.le (by positivity)).mp hlt
      rw [le_div_iff₀ hK] at h2
      have h3 : m.thickness ≤ Φ / (m.conductivity * m.thickness) + m.thickness / 2 := by
        have : m.thickness / 2 ≤ Φ / (m.conductivity * m.thickness) := by
          rw [le_div_iff₀ (by positivity)]
          nlinarith
        linarith
      refine ⟨Φ / (m.conductivity * m.thickness) + m.thickness / 2, by positivity, ?_, by rw [min_eq_right hlt, min_eq_right h3]⟩
      unfold potentialOfHead
      rw [if_neg (not_lt.mpr h3)]
      field_simp
      ring

theorem thickAt_le (m : Aquifer ℝ) (confined : Bool) (p : ℝ × ℝ) : thickAt m confined p ≤ m.thickness := by
  unfold thickAt
  split_ifs
  · exact le_rfl
  · exact min_le_right _ _

/-- the potential does not increase along a path of water -/
theorem potential_descends {m : Aquifer ℝ} (hm : m.Physical) {confined : Bool} {γ : ℝ → ℝ × ℝ} {τ : ℝ} (hγ : m.Carries confined γ τ) {s : ℝ} (h0 : 0 ≤ s) (h1 : s ≤ τ) :
    m.potential (γ τ).1 (γ τ).2 ≤ m.potential (γ s).1 (γ s).2 := by
  choose! v hv hd using hγ
  have hD : ∀ t ∈ Icc s τ, HasDerivAt (fun t => m.potential (γ t).1 (γ t).2) (-((m.discharge (γ t).1 (γ t).2).1 * (v t).1 + (m.discharge (γ t).1 (γ t).2).2 * (v t).2)) t := by
    intro t ht
    have := (potential_fderiv m (hv t (h0.trans ht.1) ht.2).1).comp_hasDerivAt t (hd t (h0.trans ht.1) ht.2)
    exact this.congr_deriv (by simp [form]; ring)
  refine antitoneOn_of_deriv_nonpos (convex_Icc s τ) (fun t ht => (hD t ht).continuousAt.continuousWithinAt) (fun t ht => (hD t (interior_subset ht)).differentiableAt.differentiableWithinAt)
    (fun t ht => ?_) (left_mem_Icc.mpr h1) (right_mem_Icc.mpr h1) h1
  have ht' := interior_subset ht
  rw [(hD t ht').deriv]
  obtain ⟨k, hk, q1, q2⟩ := flows_discharge hm (hv t (h0.trans ht'.1) ht'.2)
  rw [q1, q2]
  nlinarith [mul_nonneg hk.le (sq_nonneg (v t).1), mul_nonneg hk.le (sq_nonneg (v t).2)]

theorem thickAt_continuous {m : Aquifer ℝ} (c : Bool) {confined : Bool} {γ : ℝ → ℝ × ℝ} {τ : ℝ} (hγ : m.Carries confined γ τ) : ContinuousOn (fun t => thickAt m c (γ t)) (Icc 0 τ) := by
  intro t ht
  obtain ⟨v, hv, hd⟩ := hγ t ht.1 ht.2
  have hp' := ContinuousAt.comp (f := γ) (x := t) (g := fun p : ℝ × ℝ => m.potential p.1 p.2) (potential_fderiv m hv.1).continuousAt hd.continuousAt
  have hp : ContinuousAt (fun t => m.potential (γ t).1 (γ t).2) t := hp'
  refine ContinuousAt.continuousWithinAt ?_
  unfold thickAt
  cases c with
  | true => simpa using continuousAt_const
  | false =>
    simp only [Bool.false_eq_true, if_false]
    exact ((Real.continuous_sqrt.continuousAt.comp ((continuousAt_const.mul hp).div_const _))).min continuousAt_const

/-- the thickness along a path is at least the one at its end -/
theorem thickAt_upstream {m : Aquifer ℝ} (hm : m.Physical) (c : Bool) {confined : Bool} {γ : ℝ → ℝ × ℝ} {τ : ℝ} (hγ : m.Carries confined γ τ) {s : ℝ} (h0 : 0 ≤ s) (h1 : s ≤ τ) : thickAt m c (γ τ) ≤ thickAt m c (γ s) := by
  have := potential_descends hm hγ h0 h1
  have hK := hm.conductivity
  unfold thickAt
  split_ifs
  · exact le_rfl
  · exact min_le_min (Real.sqrt_le_sqrt (by gcongr)) le_rfl

/-- The water takes the same way, whether the aquifer is confined or not, but not in the same time. -/
theorem change_clock {m : Aquifer ℝ} (hm : m.Physical) {c c' : Bool} {γ : ℝ → ℝ × ℝ} {τ lo hi : ℝ} (h0 : 0 ≤ τ) (hγ : m.Carries c γ τ) (hpos : 0 < m.potential (γ τ).1 (γ τ).2) (hlo : 0 < lo)
    (hb : ∀ t ∈ Icc 0 τ, lo * thickAt m c (γ t) ≤ thickAt m c' (γ t) ∧ thickAt m c' (γ t) ≤ hi * thickAt m c (γ t)) :
    ∃ (θ : ℝ → ℝ) (τ' : ℝ), 0 ≤ τ' ∧ lo * τ ≤ τ' ∧ τ' ≤ hi * τ ∧ θ 0 = 0 ∧ θ τ' = τ ∧ StrictMono θ ∧ m.Carries c' (fun s => γ (θ s)) τ' := by
  have hp : ∀ t ∈ Icc 0 τ, 0 < m.potential (γ t).1 (γ t).2 := fun t ht => lt_of_lt_of_le hpos (potential_descends hm hγ ht.1 ht.2)
  have tp : ∀ (b : Bool), ∀ t ∈ Icc 0 τ, 0 < thickAt m b (γ t) := fun b t ht => saturated_pos hm (thickAt_saturated hm b (hp t ht))
  obtain ⟨θ, τ', a1, a2, a3, a4, a5, a6, a7⟩ := exists_clock (κ := fun t => thickAt m c' (γ t) / thickAt m c (γ t)) (lo := lo) (hi := hi) h0
    ((thickAt_continuous c' hγ).div (thickAt_continuous c hγ) fun t ht => (tp c t ht).ne') hlo (fun t ht => ⟨(le_div_iff₀ (tp c t ht)).mpr (hb t ht).1, (div_le_iff₀ (tp c t ht)).mpr (hb t ht).2⟩)
  refine ⟨θ, τ', a1, a2, a3, a4, a5, a6, fun s s0 s1 => ?_⟩
  obtain ⟨m1, m2⟩ := a7 s ⟨s0, s1⟩
  obtain ⟨v, ⟨hoff, b, hs, d1, d2⟩, hd⟩ := hγ (θ s) m1.1 m1.2
  have hbt := saturated_thickAt hm hs
  subst hbt
  have n1 := (tp c _ m1).ne'
  have n2 := (tp c' _ m1).ne'
  refine ⟨(thickAt m c' (γ (θ s)) / thickAt m c (γ (θ s)))⁻¹ • v, ⟨hoff, _, thickAt_saturated hm c' (hp _ m1), d1.congr_deriv ?_, d2.congr_deriv ?_⟩, HasDerivAt.scomp s hd m2⟩
  all_goals
    simp only [Prod.smul_fst, Prod.smul_snd, smul_eq_mul]
    field_simp

/-- the head at the start of a followed trace of an unconfined aquifer is positive -/
theorem follows_wet {m : Aquifer ℝ} {start : ℝ × ℝ} {D maxstep δ : ℝ} {P : ℝ → ℝ × ℝ} (h : Follows m false start D maxstep δ P) (hD : 0 < D) (hms : 0 < maxstep) : m.Physical ∧ 0 < m.potential start.1 start.2 := by
  obtain ⟨f, L, M, H, ρ, F⟩ := h
  refine ⟨F.physical, ?_⟩
  have hρ : 0 ≤ ρ := by
    refine le_trans ?_ F.wide
    have := Real.add_one_le_exp (L * D)
    have h1 := mul_pos F.L_pos hD
    have h2 := F.M_nonneg
    have h3 := F.H_ge
    have : 0 ≤ Real.exp (L * D) - 1 := by linarith
    positivity
  have hst : P 0 = start := F.exact.1
  obtain ⟨-, b, hb⟩ := F.flow start ⟨0, le_rfl, hD.le, by rw [hst]; simpa using hρ⟩
  exact (saturated_root F.physical hb).1

end Oneka
