import Verif.Props.FlUtilities
import Verif.Props.FlVariateExamples

/-! Examples for C109. -/

namespace Oneka

/-- a whole number as a float -/
noncomputable def flInt (n : ℤ) (h : |n| ≤ 2 ^ 53) : Fl := ⟨n, fl_nat_val n h⟩

/-- two observations at one place, one near the well and one elsewhere -/
noncomputable def flThreeObs : List FlObs :=
  [⟨flInt 3 (by norm_num), flInt 4 (by norm_num), flInt 7 (by norm_num), flInt 2 (by norm_num)⟩, ⟨flInt 3 (by norm_num), flInt 4 (by norm_num), flInt 9 (by norm_num), flInt 1 (by norm_num)⟩,
   ⟨flInt 1 (by norm_num), flInt 0 (by norm_num), flInt 8 (by norm_num), flInt 1 (by norm_num)⟩]

theorem flDist_val (o : FlObs) (x y : Fl) (d : ℝ) (hd : 0 ≤ d) (h : (o.x.val - x.val) ^ 2 + (o.y.val - y.val) ^ 2 = d ^ 2) : o.dist x y = d := by
  unfold FlObs.dist
  rw [h, Real.sqrt_sq hd]

theorem clear_far {d b : ℝ} (h1 : 2 * b < d) (h0 : 0 ≤ d) : Clear d b := by
  refine .inr (.inr ?_)
  have : (2:ℝ) ^ (-51 : ℤ) ≤ 1/2 := by norm_num
  generalize (2:ℝ) ^ (-51 : ℤ) = c at *
  nlinarith

theorem clear_near {d b : ℝ} (h1 : 2 * d < b) (h0 : 0 ≤ d) : Clear d b := by
  refine .inr (.inl ?_)
  have : (2:ℝ) ^ (-51 : ℤ) ≤ 1/2 := by norm_num
  generalize (2:ℝ) ^ (-51 : ℤ) = c at *
  nlinarith

/-- The hypotheses of C109 are met, and `filter_obs` returns: the pair is merged and the observation near the well is removed. -/
theorem flFilter_meets : @LibObs.Accurate nearestObs ∧ NoneCritical flThreeObs [(flInt 0 (by norm_num), flInt 0 (by norm_num))] (flInt 2 (by norm_num)) ∧ flThreeObs.length ≤ 2 ^ 40 ∧
    (∀ o ∈ flThreeObs, |o.z.val| ≤ 9) ∧ ∃ out, @FlUtil.filterObs nearestObs flThreeObs [(flInt 0 (by norm_num), flInt 0 (by norm_num))] (flInt 2 (by norm_num)) = .ok out ∧ out.length = 1 := by
  have v : ∀ (n : ℤ) h, (flInt n h).val = n := fun _ _ => rfl
  have hN : NoneCritical flThreeObs [(flInt 0 (by norm_num), flInt 0 (by norm_num))] (flInt 2 (by norm_num)) := by
    constructor
    · intro o ho w hw
      obtain rfl : w = _ := by simpa using hw
      simp only [flThreeObs, List.mem_cons, List.not_mem_nil, or_false] at ho
      rcases ho with rfl | rfl | rfl
      · rw [flDist_val _ _ _ 5 (by norm_num) (by simp only [v]; norm_num), v]
        exact clear_far (by norm_num) (by norm_num)
      · rw [flDist_val _ _ _ 5 (by norm_num) (by simp only [v]; norm_num), v]
        exact clear_far (by norm_num) (by norm_num)
      · rw [flDist_val _ _ _ 1 (by norm_num) (by simp only [v]; norm_num), v]
        refine .inr (.inl ?_)
        norm_num
    · have self : ∀ o : FlObs, ∀ p : FlObs, o.x = p.x → o.y = p.y → Clear (o.dist p.x p.y) 1 := by
        intro o p h1 h2
        left
        unfold FlObs.dist
        rw [h1, h2]
        simp
      have d20 : (2:ℝ) * 1 < Real.sqrt 20 := Real.lt_sqrt_of_sq_lt (by norm_num)
      have apart : ∀ o p : FlObs, (o.x.val - p.x.val) ^ 2 + (o.y.val - p.y.val) ^ 2 = 20 → Clear (o.dist p.x p.y) 1 := by
        intro o p h
        unfold FlObs.dist
        rw [h]
        exact clear_far d20 (Real.sqrt_nonneg _)
      intro o ho p hp
      simp only [flThreeObs, List.mem_cons, List.not_mem_nil, or_false] at ho hp
      rcases ho with rfl | rfl | rfl <;> rcases hp with rfl | rfl | rfl <;>
        first
        | exact self _ _ rfl rfl
        | exact apart _ _ (by simp only [v]; norm_num)
  have hM : ∀ o ∈ flThreeObs, |o.z.val| ≤ 9 := by
    intro o ho
    simp only [flThreeObs, List.mem_cons, List.not_mem_nil, or_false] at ho
    rcases ho with rfl | rfl | rfl <;> (simp only [v]; norm_num)
  refine ⟨nearestObs_accurate, hN, by simp [flThreeObs], hM, ?_⟩
  obtain ⟨g1, g2⟩ := @C109_agrees nearestObs nearestObs_accurate _ _ _ hN (by simp [flThreeObs]) 9 hM
  have hx : ∃ e, Oneka.filterObs (flThreeObs.map FlObs.exact) [((flInt 0 (by norm_num)).val, (flInt 0 (by norm_num)).val)] (flInt 2 (by norm_num)).val = .ok e ∧ e.length = 1 := by
    unfold Oneka.filterObs
    have hk : Oneka.removeNear (flInt 2 (by norm_num)).val [((flInt 0 (by norm_num)).val, (flInt 0 (by norm_num)).val)] (flThreeObs.map FlObs.exact) = [⟨3, 4, 7, 2⟩, ⟨3, 4, 9, 1⟩] := by
      classical
      have e : flThreeObs.map FlObs.exact = [⟨3, 4, 7, 2⟩, ⟨3, 4, 9, 1⟩, ⟨1, 0, 8, 1⟩] := by
        simp [flThreeObs, FlObs.exact, v]
      have s25 : Real.sqrt (3 ^ 2 + 4 ^ 2) = 5 := by rw [show (3:ℝ) ^ 2 + 4 ^ 2 = 5 ^ 2 by norm_num, Real.sqrt_sq (by norm_num)]
      rw [e, removeNear_eq]
      simp [v, Obs.dist, s25, List.filter_cons]
      norm_num
    rw [hk]
    refine ⟨[⟨3, 4, (7 / 2 ^ 2 + 9) / ((2 ^ 2)⁻¹ + 1), Real.sqrt (1 / ((2 ^ 2)⁻¹ + 1))⟩], ?_, rfl⟩
    · have h0 : hypot 0 0 < 1 := by simp [hypot]
      rw [Oneka.mergeRuns]
      simp [h0, Oneka.mergeGroup, Oneka.accumulate, Oneka.mergeRuns]
  obtain ⟨e, he, hlen⟩ := hx
  cases hf : @FlUtil.filterObs nearestObs flThreeObs [(flInt 0 (by norm_num), flInt 0 (by norm_num))] (flInt 2 (by norm_num)) with
  | error err =>
    have := (g1 err).mp hf
    rw [List.map_cons, List.map_nil] at this
    rw [this] at he
    simp at he
  | ok out =>
    obtain ⟨e', he', hF⟩ := g2 out hf
    rw [List.map_cons, List.map_nil] at he'
    rw [he'] at he
    obtain rfl := Except.ok.inj he
    exact ⟨out, rfl, by rw [hF.length_eq, hlen]⟩

end Oneka
