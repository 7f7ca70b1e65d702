import Mathlib.Analysis.ODE.ExistUnique
import Mathlib.Analysis.Calculus.Deriv.Prod
import Mathlib.Analysis.Calculus.MeanValue
import Verif.Spec.Arrival
import Verif.Lemmas.Rivals
import Verif.Lemmas.CaptureExact

/-!
# Lemmas for C131
-/

namespace Oneka

open Aquifer Set

/-- a solution that starts like `P` is `P`, if the velocity is Lipschitz in a tube around `P` -/
theorem pathline_unique {f : ℝ × ℝ → ℝ × ℝ} {start : ℝ × ℝ} {D τ L ρ : ℝ} {P Y : ℝ → ℝ × ℝ} (hP : Pathline f start D P) (hτ : τ ≤ D) (h0 : 0 ≤ τ) (hρ : 0 < ρ) (hL : 0 ≤ L)
    (hlip : ∀ a ∈ Tube P D ρ, ∀ b ∈ Tube P D ρ, ‖f a - f b‖ ≤ L * ‖a - b‖) (hY0 : Y 0 = start) (hY : ∀ t, 0 ≤ t → t ≤ τ → HasDerivAt Y (f (Y t)) t) :
    ∀ t, 0 ≤ t → t ≤ τ → Y t = P t := by
  have cP : ContinuousOn P (Icc 0 τ) := fun t ht => (hP.2 t ht.1 (ht.2.trans hτ)).continuousAt.continuousWithinAt
  have cY : ContinuousOn Y (Icc 0 τ) := fun t ht => (hY t ht.1 ht.2).continuousAt.continuousWithinAt
  have key : Icc 0 τ ⊆ {t | Y t = P t} := by
    refine IsClosed.Icc_subset_of_forall_exists_gt ?_ (by show Y 0 = P 0; rw [hY0, hP.1]) ?_
    · have : {t | Y t = P t} ∩ Icc 0 τ = Icc 0 τ ∩ (fun t => Y t - P t) ⁻¹' {0} := by
        ext t
        simp [sub_eq_zero, and_comm]
      rw [this]
      exact (cY.sub cP).preimage_isClosed_of_isClosed isClosed_Icc isClosed_singleton
    · rintro x ⟨hx, hx0, hxτ⟩ y hy
      have hx : Y x = P x := hx
      have hc : ContinuousAt (fun t => ‖Y t - P t‖) x := ((hY x hx0 hxτ.le).continuousAt.sub (hP.2 x hx0 (hxτ.le.trans hτ)).continuousAt).norm
      have hev : ∀ᶠ t in nhds x, ‖Y t - P t‖ < ρ := by
        refine hc.eventually_lt continuousAt_const ?_
        simp [hx, hρ]
      obtain ⟨ε, hε, hb⟩ := Metric.eventually_nhds_iff.mp hev
      set z := min y (min τ (x + ε / 2)) with hz
      have hxz : x < z := by
        rw [hz, lt_min_iff, lt_min_iff]
        exact ⟨hy, hxτ, by linarith⟩
      have hzτ : z ≤ τ := (min_le_right _ _).trans (min_le_left _ _)
      have hzε : z ≤ x + ε / 2 := (min_le_right _ _).trans (min_le_right _ _)
      have near : ∀ t ∈ Icc x z, ‖Y t - P t‖ < ρ := fun t ht => hb (by
        rw [Real.dist_eq, abs_of_nonneg (by linarith [ht.1])]
        linarith [ht.2])
      have e : EqOn Y P (Icc x z) := by
        refine ODE_solution_unique_of_mem_Icc_right (v := fun _ => f) (s := fun _ => Tube P D ρ) (K := ⟨L, hL⟩) (fun t _ => ?_) (cY.mono fun t ht => ⟨hx0.trans ht.1, ht.2.trans hzτ⟩)
          (fun t ht => (hY t (hx0.trans ht.1) (ht.2.le.trans hzτ)).hasDerivWithinAt) (fun t ht => ⟨t, hx0.trans ht.1, (ht.2.le.trans hzτ).trans hτ, (near t ⟨ht.1, ht.2.le⟩).le⟩)
          (cP.mono fun t ht => ⟨hx0.trans ht.1, ht.2.trans hzτ⟩)
          (fun t ht => (hP.2 t (hx0.trans ht.1) ((ht.2.le.trans hzτ).trans hτ)).hasDerivWithinAt) (fun t ht => ⟨t, hx0.trans ht.1, (ht.2.le.trans hzτ).trans hτ, by simp [hρ.le]⟩) hx
        refine LipschitzOnWith.of_dist_le_mul fun a ha b hb => ?_
        rw [dist_eq_norm, dist_eq_norm]
        exact hlip a ha b hb
      exact ⟨z, e ⟨hxz.le, le_rfl⟩, hxz, min_le_left _ _⟩
  exact fun t h0 h1 => key ⟨h0, h1⟩

/-- where water flows with the velocity `v`, upstream is `-v` -/
theorem flowsWith_upstream {m : Aquifer ℝ} {confined : Bool} {f : ℝ × ℝ → ℝ × ℝ} {p v : ℝ × ℝ} (hm : m.Physical) (hf : m.Upstream confined f) (h : m.FlowsWith confined p v) : -v = f p := by
  obtain ⟨hoff, b, hs, d1, d2⟩ := h
  obtain ⟨e1, e2⟩ := hf _ _ b hoff hs
  have hb := saturated_pos hm hs
  have hn := hm.porosity
  have hne : m.porosity * b ≠ 0 := (mul_pos hn hb).ne'
  have u1 := d1.unique e1
  have u2 := d2.unique e2
  refine Prod.ext (mul_left_cancel₀ hne ?_) (mul_left_cancel₀ hne ?_)
  · rw [← u1, Prod.fst_neg]; ring
  · rw [← u2, Prod.snd_neg]; ring

theorem upstream_flowsWith {m : Aquifer ℝ} {confined : Bool} {f : ℝ × ℝ → ℝ × ℝ} {p : ℝ × ℝ} (hf : m.Upstream confined f) (hoff : m.OffWells p.1 p.2) {b : ℝ} (hs : m.Saturated confined p.1 p.2 b) :
    m.FlowsWith confined p (-f p) := by
  obtain ⟨e1, e2⟩ := hf _ _ b hoff hs
  exact ⟨hoff, b, hs, e1.congr_deriv (by simp), e2.congr_deriv (by simp)⟩

theorem passes_delivers {m : Aquifer ℝ} {confined : Bool} {start : ℝ × ℝ} {D maxstep δ : ℝ} {P : ℝ → ℝ × ℝ} (h : Follows m confined start D maxstep δ P) (hD : 0 < D) (hms : 0 < maxstep)
    (d X Y : ℝ) : Passes P D d X Y ↔ m.Delivers confined D d X Y start := by
  obtain ⟨f, L, M, H, ρ, F⟩ := h
  have hρ : 0 < ρ := by
    have h1 : 1 < Real.exp (L * D) := Real.one_lt_exp_iff.mpr (mul_pos F.L_pos hD)
    have h2 : 0 < 22 * maxstep * (Real.exp (L * D) - 1) := mul_pos (by linarith) (by linarith)
    have h3 : 0 ≤ 25 * H * M := mul_nonneg (by linarith [F.H_ge]) F.M_nonneg
    linarith [F.wide]
  constructor
  · rintro ⟨τ, t0, t1, ht⟩
    refine ⟨fun s => P (τ - s), τ, t0, t1, fun s s0 s1 => ?_, by simpa using ht, by simp [F.exact.1]⟩
    obtain ⟨hoff, b, hs⟩ := F.flow (P (τ - s)) ⟨τ - s, by linarith, by linarith, by simp [hρ.le]⟩
    refine ⟨_, upstream_flowsWith F.upstream hoff hs, ?_⟩
    have e := F.exact.2 (τ - s) (by linarith) (by linarith)
    have := HasDerivAt.scomp s e ((hasDerivAt_id s).const_sub τ)
    exact this.congr_deriv (by simp)
  · rintro ⟨γ, τ, t0, t1, hc, hγ, hg⟩
    refine ⟨τ, t0, t1, ?_⟩
    have e : (fun t => γ (τ - t)) τ = P τ := by
      refine pathline_unique (Y := fun t => γ (τ - t)) F.exact t1 t0 hρ F.L_pos.le F.lip (by simpa using hg) (fun t h0 h1 => ?_) τ t0 le_rfl
      obtain ⟨v, hv, hd⟩ := hc (τ - t) (by linarith) (by linarith)
      have := HasDerivAt.scomp t hd ((hasDerivAt_id t).const_sub τ)
      rw [← flowsWith_upstream F.physical F.upstream hv]
      exact this.congr_deriv (by simp)
    rw [← e]
    simpa using hγ

/-- a particle in an annulus where the flow is inward gets to the inner circle in time -/
theorem inward_enters {m : Aquifer ℝ} {confined : Bool} {xw yw r R c : ℝ} (hr : 0 < r) (hc : 0 < c) (hin : m.Inward confined xw yw r R c) {γ : ℝ → ℝ × ℝ} {τ T : ℝ} (h0 : 0 ≤ τ) (hT : τ + (R - r) / c ≤ T)
    (hγ : m.Carries confined γ T) (hrR : r ≤ R) (hs : euclid (γ τ) (xw, yw) ≤ R) : euclid (γ (τ + (R - r) / c)) (xw, yw) ≤ r := by
  have hq : 0 ≤ (R - r) / c := div_nonneg (by linarith) hc.le
  set σ := τ + (R - r) / c with hσ
  have sq : ∀ p : ℝ × ℝ, euclid p (xw, yw) ^ 2 = (p.1 - xw) ^ 2 + (p.2 - yw) ^ 2 := fun p => by
    unfold euclid
    rw [Real.sq_sqrt (by positivity)]
    ring
  have en : ∀ p : ℝ × ℝ, 0 ≤ euclid p (xw, yw) := fun p => Real.sqrt_nonneg _
  have hv : ∀ s ∈ Icc τ σ, ∃ v, m.FlowsWith confined (γ s) v ∧ HasDerivAt γ v s := fun s hs' => hγ s (h0.trans hs'.1) (hs'.2.trans hT)
  choose! v hv1 hv2 using hv
  have hd : ∀ s ∈ Icc τ σ, HasDerivAt (fun s => ((γ s).1 - xw) ^ 2 + ((γ s).2 - yw) ^ 2) (2 * ((v s).1 * ((γ s).1 - xw) + (v s).2 * ((γ s).2 - yw))) s := by
    intro s hs'
    have h1 : HasDerivAt (fun s => (γ s).1) (v s).1 s := by
      have := (ContinuousLinearMap.fst ℝ ℝ ℝ).hasFDerivAt.comp_hasDerivAt s (hv2 s hs')
      exact this
    have h2 : HasDerivAt (fun s => (γ s).2) (v s).2 s := by
      have := (ContinuousLinearMap.snd ℝ ℝ ℝ).hasFDerivAt.comp_hasDerivAt s (hv2 s hs')
      exact this
    have := ((h1.sub_const xw).pow 2).add ((h2.sub_const yw).pow 2)
    exact this.congr_deriv (by simp; ring)
  have bound : ∀ c', 0 < c' → c' < c → ((γ σ).1 - xw) ^ 2 + ((γ σ).2 - yw) ^ 2 ≤ (R - c' * (σ - τ)) ^ 2 := by
    intro c' c0 c1
    have hpos : ∀ s ∈ Icc τ σ, r ≤ R - c' * (s - τ) ∧ R - c' * (s - τ) ≤ R := by
      intro s hs'
      have e : c * ((R - r) / c) = R - r := by field_simp
      have h1 : c' * (s - τ) ≤ c * (s - τ) := mul_le_mul_of_nonneg_right c1.le (by linarith [hs'.1])
      have h2 : c * (s - τ) ≤ c * ((R - r) / c) := mul_le_mul_of_nonneg_left (by have := hs'.2; rw [hσ] at this; linarith) hc.le
      have h3 : 0 ≤ c' * (s - τ) := mul_nonneg c0.le (by linarith [hs'.1])
      constructor <;> linarith
    have hB : ∀ s, HasDerivAt (fun s => (R - c' * (s - τ)) ^ 2) (2 * (R - c' * (s - τ)) * (-c')) s := by
      intro s
      have := ((((hasDerivAt_id s).sub_const τ).const_mul c').const_sub R).pow 2
      exact this.congr_deriv (by simp)
    refine image_le_of_deriv_right_lt_deriv_boundary' (a := τ) (b := σ) (f := fun s => ((γ s).1 - xw) ^ 2 + ((γ s).2 - yw) ^ 2)
      (f' := fun s => 2 * ((v s).1 * ((γ s).1 - xw) + (v s).2 * ((γ s).2 - yw))) (B := fun s => (R - c' * (s - τ)) ^ 2) (B' := fun s => 2 * (R - c' * (s - τ)) * (-c'))
      (fun s hs' => (hd s hs').continuousAt.continuousWithinAt) (fun s hs' => (hd s ⟨hs'.1, hs'.2.le⟩).hasDerivWithinAt) ?_ (fun s _ => (hB s).continuousAt.continuousWithinAt)
      (fun s _ => (hB s).hasDerivWithinAt) (fun s hs' he => ?_) ⟨by linarith, le_rfl⟩
    · simp only [sub_self, mul_zero, sub_zero]
      rw [← sq]
      exact pow_le_pow_left₀ (en _) hs 2
    · obtain ⟨p1, p2⟩ := hpos s ⟨hs'.1, hs'.2.le⟩
      have he : euclid (γ s) (xw, yw) = R - c' * (s - τ) := by
        have : euclid (γ s) (xw, yw) ^ 2 = (R - c' * (s - τ)) ^ 2 := by rw [sq]; exact he
        exact (pow_left_inj₀ (en _) (by linarith) (by norm_num)).mp this
      have hi := hin _ _ (he ▸ p1) (he ▸ p2) (hv1 s ⟨hs'.1, hs'.2.le⟩)
      rw [he] at hi
      have : c' * (R - c' * (s - τ)) < c * (R - c' * (s - τ)) := mul_lt_mul_of_pos_right c1 (by linarith)
      show 2 * ((v s).1 * ((γ s).1 - xw) + (v s).2 * ((γ s).2 - yw)) < 2 * (R - c' * (s - τ)) * (-c')
      nlinarith
  have lim : ((γ σ).1 - xw) ^ 2 + ((γ σ).2 - yw) ^ 2 ≤ (R - c * (σ - τ)) ^ 2 := by
    have hcont : Filter.Tendsto (fun c' => (R - c' * (σ - τ)) ^ 2) (nhdsWithin c (Iio c)) (nhds ((R - c * (σ - τ)) ^ 2)) :=
      (Continuous.tendsto (by fun_prop) c).mono_left nhdsWithin_le_nhds
    refine ge_of_tendsto hcont ?_
    filter_upwards [Ioo_mem_nhdsLT hc] with c' hc'
    exact bound c' hc'.1 hc'.2
  have e : R - c * (σ - τ) = r := by
    rw [hσ]
    field_simp
    ring
  rw [e, ← sq] at lim
  exact le_of_sq_le_sq lim hr.le

end Oneka
