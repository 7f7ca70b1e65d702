import Verif.Lemmas.FlBounds

/-! # Concrete floating-point numbers, for the examples beside C87 to C89 -/

namespace Oneka

open PField

theorem Fl.of_nat (n : ℕ) (h : n ≤ 2 ^ 53) : (Fl.of (n : ℝ)).val = n := by
  have := round53_nat n h
  simpa [Fl.of] using this

theorem ulp_eq {x : ℝ} {k : ℤ} (h1 : (2 : ℝ) ^ k ≤ |x|) (h2 : |x| < 2 ^ (k + 1)) : ulp x = 2 ^ (k - 52) := by
  have hx : 0 < |x| := (zpow_pos (by norm_num) k).trans_le h1
  have a : k ≤ Int.log 2 |x| := by
    rw [← Int.zpow_le_iff_le_log (by norm_num) hx]; exact_mod_cast h1
  have b : Int.log 2 |x| < k + 1 := by
    rw [← Int.lt_zpow_iff_log_lt (by norm_num) hx]; exact_mod_cast h2
  unfold ulp
  rw [show Int.log 2 |x| = k by omega]

/-- 2^60 - 1 is rounded to 2^60. -/
theorem round53_large : round53 (2 ^ 60 - 1) = 2 ^ 60 := by
  have e : ulp (2 ^ 60 - 1) = 128 := by
    rw [ulp_eq (k := 59) (by rw [abs_of_pos (by norm_num)]; norm_num) (by rw [abs_of_pos (by norm_num)]; norm_num)]
    norm_num
  unfold round53
  rw [e]
  have f : ⌊((2 : ℝ) ^ 60 - 1) / 128⌋ = 2 ^ 53 - 1 := by
    rw [Int.floor_eq_iff]; norm_num
  unfold roundEven
  rw [f, if_neg (by norm_num), if_pos (by norm_num)]
  norm_num

theorem lost_at_large : Fl.of (2 ^ 60) - Fl.of ((1 : ℕ) : ℝ) = Fl.of (2 ^ 60) := by
  apply Fl.ext'
  rw [Fl.val_sub, Fl.of_nat 1 (by norm_num)]
  have h : (Fl.of (2 ^ 60)).val = 2 ^ 60 := by
    have := round53_zpow 60
    simpa [Fl.of] using this
  rw [h]
  simpa using round53_large

/-- A floating-point number given by a natural number. -/
noncomputable def flt (n : ℕ) : Fl := Fl.of n

/-- Two tracks of two segments each near (500000, 5000000), a discarded one and a box, with weights 1 and 3. -/
noncomputable def sampleEvents : List (Event Fl) :=
  [.track [(flt 500000, flt 5000000), (flt 500300, flt 5000400), (flt 500310, flt 5000400)] (flt 10), .register (flt 1),
   .track [(flt 499990, flt 5000000)] (flt 20), .reset, .expand (flt 499000) (flt 501000) (flt 4999000) (flt 5000500),
   .track [(flt 500007, flt 5000000), (flt 500107, flt 5000003)] (flt 30), .register (flt 3)]

noncomputable def sampleX : Axis := ⟨19 - 53, 1, 2 ^ (19 : ℤ) - (flt 10).val⟩
noncomputable def sampleY : Axis := ⟨23 - 53, 1, 2 ^ (23 : ℤ) - (flt 10).val⟩

theorem flt_val (n : ℕ) (h : n ≤ 2 ^ 53) : (flt n).val = n := Fl.of_nat n h

theorem sample_moderate : ∀ e ∈ sampleEvents, e.Moderate sampleX sampleY 1000 (1 / 1000000) := by
  have e : eps = 1 / 9007199254740992 := by unfold eps; norm_num
  have pairs : ∀ (l : List (Fl × Fl)) (a b : Fl × Fl), [a, b] <:+: l → ∃ i, l[i]? = some a ∧ l[i + 1]? = some b := by
    rintro l a b ⟨s, t, rfl⟩
    exact ⟨s.length, by simp, by simp⟩
  intro ev hev
  simp only [sampleEvents, List.mem_cons, List.not_mem_nil, or_false] at hev
  rcases hev with rfl | rfl | rfl | rfl | rfl | rfl | rfl
  · refine ⟨by simp, ?_, ?_, ?_, ?_, ?_⟩
    · intro p hp
      simp only [List.mem_cons, List.not_mem_nil, or_false] at hp
      rcases hp with rfl | rfl | rfl <;> simp [sampleX, sampleY, flt_val, abs_of_pos] <;> norm_num
    · intro a b hab
      obtain ⟨i, h1, h2⟩ := pairs _ _ _ hab
      rcases i with _ | _ | _ | i
      · simp at h1 h2; rw [← h1, ← h2]; simp [flt_val]; norm_num
      · simp at h1 h2; rw [← h1, ← h2]; simp [flt_val]; norm_num
      · simp at h2
      · simp at h2
    · rw [flt_val _ (by norm_num)]; norm_num
    · rw [flt_val _ (by norm_num)]; norm_num
    · rw [flt_val _ (by norm_num), e]; norm_num
  · simp [Event.Moderate, flt_val]
  · refine ⟨by simp, ?_, ?_, ?_, ?_, ?_⟩
    · intro p hp
      obtain rfl := List.mem_singleton.mp hp
      simp [sampleX, sampleY, flt_val, abs_of_pos]; norm_num
    · intro a b hab
      obtain ⟨i, h1, h2⟩ := pairs _ _ _ hab
      simp at h2
    · rw [flt_val _ (by norm_num)]; norm_num
    · rw [flt_val _ (by norm_num)]; norm_num
    · rw [flt_val _ (by norm_num), e]; norm_num
  · trivial
  · refine ⟨?_, ?_, ?_, ?_, ?_, ?_⟩ <;> simp [sampleX, sampleY, flt_val, abs_of_pos] <;> norm_num
  · refine ⟨by simp, ?_, ?_, ?_, ?_, ?_⟩
    · intro p hp
      simp only [List.mem_cons, List.not_mem_nil, or_false] at hp
      rcases hp with rfl | rfl <;> simp [sampleX, sampleY, flt_val, abs_of_pos] <;> norm_num
    · intro a b hab
      obtain ⟨i, h1, h2⟩ := pairs _ _ _ hab
      rcases i with _ | _ | i
      · simp at h1 h2; rw [← h1, ← h2]; simp [flt_val]; norm_num
      · simp at h2
      · simp at h2
    · rw [flt_val _ (by norm_num)]; norm_num
    · rw [flt_val _ (by norm_num)]; norm_num
    · rw [flt_val _ (by norm_num), e]; norm_num
  · simp [Event.Moderate, flt_val]

theorem sample_weights : (∀ x ∈ registeredWeights sampleEvents, MultipleOf 0 x.val) ∧ ((registeredWeights sampleEvents).map Fl.val).sum = 4 := by
  have h : registeredWeights sampleEvents = [flt 1, flt 3] := rfl
  rw [h]
  constructor
  · intro x hx
    simp only [List.mem_cons, List.not_mem_nil, or_false] at hx
    rcases hx with rfl | rfl
    · exact ⟨1, by rw [flt_val _ (by norm_num)]; norm_num⟩
    · exact ⟨3, by rw [flt_val _ (by norm_num)]; norm_num⟩
  · simp [flt_val]; norm_num

end Oneka
