import Verif.Lemmas.FlUtilities
import Verif.Lemmas.FlThresholds

/-!
# C109: `filter_obs` in floating-point arithmetic

`FlUtil.filterObs` is the code with every operation rounded; `filterObs` is the exact computation of C47–C51 with the same numbers. `np.hypot` and `**2` are off by at most one unit in the last place.
-/

namespace Oneka

open FlUtil

/-- C109: if no distance is critical, rounding changes no decision. `filter_obs` raises exactly when the exact computation does; otherwise it returns as many observations at the same places, their heads within
`(5 N + 14) 2^-53` of the largest head (for `N` observations) and their standard deviations within this relative error. Example: `flFilter_meets`. -/
theorem C109_agrees [LibObs] (hl : LibObs.Accurate) {obs : List FlObs} {wells : List (Fl × Fl)} {buffer : Fl} (hc : NoneCritical obs wells buffer) (hN : obs.length ≤ 2 ^ 40) {M : ℝ} (hM : ∀ o ∈ obs, |o.z.val| ≤ M) :
    (∀ err, FlUtil.filterObs obs wells buffer = .error err ↔ Oneka.filterObs (obs.map FlObs.exact) (wells.map fun w => (w.1.val, w.2.val)) buffer.val = .error err) ∧
    (∀ out, FlUtil.filterObs obs wells buffer = .ok out → ∃ e, Oneka.filterObs (obs.map FlObs.exact) (wells.map fun w => (w.1.val, w.2.val)) buffer.val = .ok e ∧
      List.Forall₂ (NearObs ((5 * obs.length + 14) * 2 ^ (-53 : ℤ)) M) out e) := by
  unfold FlUtil.filterObs Oneka.filterObs
  rw [← removeNear_exact hl hc.wells]
  have sub : (FlUtil.removeNear buffer wells obs).Sublist obs := by rw [removeNear_filter]; exact List.filter_sublist
  exact mergeRuns_near hl hN _ _ le_rfl sub.length_le (fun p hp => hM p (sub.subset hp)) (fun a ha b hb => hc.pairs a (sub.subset ha) b (sub.subset hb))

/-- C109, for all distances: the observations returned are at places of given ones, not nearer to a well than the buffer and consecutive ones not nearer to each other than 1, up to a relative error of `2^-51`; and
every given observation that is farther than the buffer from all wells by more than this error has a returned one within distance 1, up to this error. Example: `flFilter_meets`. -/
theorem C109_places [LibObs] (hl : LibObs.Accurate) {obs out : List FlObs} {wells : List (Fl × Fl)} {buffer : Fl} (h : FlUtil.filterObs obs wells buffer = .ok out) :
    (∀ r ∈ out, (∃ o ∈ obs, r.x = o.x ∧ r.y = o.y) ∧ ∀ w ∈ wells, buffer.val < (1 + 2 ^ (-51 : ℤ)) * r.dist w.1 w.2) ∧
    out.IsChain (fun a b => 1 ≤ (1 + 2 ^ (-51 : ℤ)) * a.dist b.x b.y) ∧
    (∀ o ∈ obs, (∀ w ∈ wells, buffer.val < (1 - 2 ^ (-51 : ℤ)) * o.dist w.1 w.2) → ∃ r ∈ out, (1 - 2 ^ (-51 : ℤ)) * r.dist o.x o.y < 1) := by
  obtain ⟨h1, h2, h3, -⟩ := mergeRuns_places hl _ _ out le_rfl h
  refine ⟨?_, h3, ?_⟩
  · intro r hr
    obtain ⟨o, ho, e1, e2⟩ := h1 r hr
    rw [removeNear_filter, List.mem_filter, away_iff] at ho
    refine ⟨⟨o, ho.1, e1, e2⟩, fun w hw => ?_⟩
    have a := ho.2 w hw
    have b := (abs_le.mp (dist_near hl o w.1 w.2)).2
    have e : r.dist w.1 w.2 = o.dist w.1 w.2 := by unfold FlObs.dist; rw [e1, e2]
    rw [e]
    linarith
  · intro o ho hw
    refine h2 o ?_
    rw [removeNear_filter, List.mem_filter, away_iff]
    refine ⟨ho, fun w hm => ?_⟩
    have a := hw w hm
    have b := (abs_le.mp (dist_near hl o w.1 w.2)).1
    linarith

/-- numpy's functions, correctly rounded -/
noncomputable def nearestObs : LibObs where
  hypot x y := Fl.of (Real.sqrt (x.val ^ 2 + y.val ^ 2))
  square x := Fl.of (x.val ^ 2)

theorem nearestObs_accurate : @LibObs.Accurate nearestObs := by
  have k : ∀ x : ℝ, 0 ≤ x → |round53 x - x| ≤ 2 ^ (-52 : ℤ) * x := by
    intro x hx
    have := round53_accurate x
    rw [abs_of_nonneg hx] at this
    refine this.trans (mul_le_mul_of_nonneg_right ?_ hx)
    norm_num
  exact @LibObs.Accurate.mk nearestObs (fun x y => k _ (Real.sqrt_nonneg _)) (fun x => k _ (sq_nonneg _))

/-- C109: the condition on the distances is needed. An observation that is farther from the well than the buffer of 1, by `2^-53`, is removed, because the distance is rounded to 1. -/
theorem C109_critical : ∃ (o : FlObs) (w : Fl × Fl) (buffer : Fl), buffer.val < o.dist w.1 w.2 ∧ (∃ e, Oneka.filterObs [o.exact] [(w.1.val, w.2.val)] buffer.val = .ok [e]) ∧
    @FlUtil.filterObs nearestObs [o] [w] buffer = .ok [] := by
  have r1 : round53 1 = 1 := by simpa using round53_zpow 0
  have rw' : round53 (-(2 ^ (-53 : ℤ))) = -(2 ^ (-53 : ℤ)) := by rw [round53_neg, round53_zpow]
  let one : Fl := ⟨1, r1⟩
  let zero : Fl := ⟨0, round53_zero⟩
  let w : Fl := ⟨-(2 ^ (-53 : ℤ)), rw'⟩
  let o : FlObs := ⟨one, zero, one, one⟩
  have hd : o.dist w zero = 1 + 2 ^ (-53 : ℤ) := by
    change Real.sqrt ((1 - -(2 ^ (-53 : ℤ))) ^ 2 + (0 - 0) ^ 2) = _
    rw [sub_self, zero_pow two_ne_zero, add_zero, Real.sqrt_sq (by positivity), sub_neg_eq_add]
  have far : one.val < o.dist w zero := by
    rw [hd]
    change (1:ℝ) < _
    norm_num
  refine ⟨o, (w, zero), one, far, ⟨o.exact, ?_⟩, ?_⟩
  · unfold Oneka.filterObs
    have : Oneka.removeNear one.val [(w.val, zero.val)] [o.exact] = [o.exact] := by
      rw [Oneka.removeNear, if_pos]
      · rfl
      · rw [awayFromWells_iff]
        intro q hq
        obtain rfl : q = _ := by simpa using hq
        exact far
    change Oneka.mergeRuns (Oneka.removeNear one.val [(w.val, zero.val)] [o.exact]) = _
    rw [this]
    exact mergeRuns_chain _ (by simp)
  · letI := nearestObs
    have hr : round53 (1 - -(2 ^ (-53 : ℤ))) = 1 := by
      have t : roundEven ((1 - -(2 ^ (-53 : ℤ)) : ℝ) * 2 ^ 52) = 4503599627370496 := by
        have : ((1 - -(2 ^ (-53 : ℤ)) : ℝ) * 2 ^ 52) = 4503599627370496 + 1/2 := by norm_num
        rw [this]
        unfold roundEven
        have f : ⌊(4503599627370496 + 1/2 : ℝ)⌋ = 4503599627370496 := by rw [Int.floor_eq_iff]; norm_num
        rw [f]
        norm_num
        decide
      have := round53_at (x := 1 - -(2 ^ (-53 : ℤ))) 52 4503599627370496 (by norm_num) (by norm_num) (by exact_mod_cast t)
      rw [this]
      norm_num
    have hh : (LibObs.hypot (o.x - w) (o.y - zero)).val = 1 := by
      change round53 (Real.sqrt (round53 (1 - -(2 ^ (-53 : ℤ))) ^ 2 + round53 (0 - 0) ^ 2)) = 1
      rw [hr, sub_self, round53_zero]
      simp [r1]
    unfold FlUtil.filterObs
    have : FlUtil.removeNear one [(w, zero)] [o] = [] := by
      rw [removeNear_filter, List.filter_eq_nil_iff]
      intro q hq
      obtain rfl : q = o := by simpa using hq
      rw [away_iff]
      intro h
      have := h (w, zero) (by simp)
      change (1:ℝ) < (LibObs.hypot (o.x - w) (o.y - zero)).val at this
      rw [hh] at this
      exact lt_irrefl _ this
    rw [this, FlUtil.mergeRuns]

end Oneka
