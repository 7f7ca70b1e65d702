import Verif.Lemmas.Str

/-!
# Seventeen digits tell floats apart
-/

namespace Oneka

/-- Two different numbers of 53 digits do not agree in seventeen decimal digits. -/
theorem digits_apart {x y : ℝ} (hx : round53 x = x) (hy : round53 y = y) (h : |x - y| ≤ 5 / 10 ^ 17 * (|x| + |y|)) : x = y := by
  have key : ∀ (n m k j : ℤ), |n| ≤ 2 ^ 53 → k ≤ j → ∀ x y : ℝ, x = n * 2 ^ k → y = m * 2 ^ j → |x - y| ≤ 5 / 10 ^ 17 * (|x| + |y|) → x = y := by
    intro n m k j hn hkj x y hx hy h
    by_contra hne
    have e : x - y = ((n - m * 2 ^ (j - k).toNat : ℤ) : ℝ) * 2 ^ k := by
      have : (2:ℝ) ^ j = 2 ^ (j - k).toNat * 2 ^ k := by
        rw [← zpow_natCast, ← zpow_add₀ (by norm_num : (2:ℝ) ≠ 0), Int.toNat_of_nonneg (by omega)]
        congr 1
        ring
      rw [hx, hy, this]
      push_cast
      ring
    set d := n - m * 2 ^ (j - k).toNat with hd
    have d0 : d ≠ 0 := by
      intro h0
      rw [h0] at e
      simp at e
      exact hne (by linarith)
    have d1 : (1:ℝ) ≤ |(d : ℝ)| := by
      have : 1 ≤ |d| := Int.one_le_abs d0
      exact_mod_cast this
    have k0 : (0:ℝ) < 2 ^ k := by positivity
    have a1 : (2:ℝ) ^ k ≤ |x - y| := by
      rw [e, abs_mul, abs_of_pos k0]
      nlinarith
    have a2 : |x| ≤ 2 ^ 53 * 2 ^ k := by
      rw [hx, abs_mul, abs_of_pos k0]
      have : |(n : ℝ)| ≤ 2 ^ 53 := by exact_mod_cast hn
      gcongr
    have a3 : |y| ≤ |x| + |x - y| := by
      have := abs_sub_abs_le_abs_sub y x
      rw [abs_sub_comm y x] at this
      linarith
    norm_num at h a2
    have := abs_nonneg x
    nlinarith
  obtain ⟨n, k, hn, e1⟩ := round53_digits x
  obtain ⟨m, j, hm, e2⟩ := round53_digits y
  rw [hx] at e1
  rw [hy] at e2
  rcases le_total k j with hkj | hkj
  · exact key n m k j hn hkj x y e1 e2 h
  · exact (key m n j k hm hkj y x e2 e1 (by rw [abs_sub_comm, add_comm]; exact h)).symm

/-- Binary64 numbers have 53 digits. -/
theorem binary64_digits {x : ℝ} (h : toBinary64 (.fin x) = .fin x) : round53 x = x := by
  simp only [toBinary64] at h
  split_ifs at h with h1 h2
  have e : round64 x = x := XR.fin.inj h
  unfold round64 at e
  split_ifs at e with h3
  · rw [← e]
    refine round53_exact _ _ ?_
    have p : (0:ℝ) < 2 ^ (-1074 : ℤ) := by positivity
    have hb : |x / 2 ^ (-1074 : ℤ)| ≤ 2 ^ 52 := by
      rw [abs_div, abs_of_pos p, div_le_iff₀ p]
      refine h3.le.trans_eq ?_
      rw [← zpow_natCast, ← zpow_add₀ (by norm_num : (2:ℝ) ≠ 0)]
      norm_num
    obtain ⟨h1, h2⟩ := abs_le.mp hb
    have m1 := roundEven_mono h1
    have m2 := roundEven_mono h2
    have c1 : roundEven (-2 ^ 52) = -2 ^ 52 := by rw [← roundEven_int (-2 ^ 52)]; congr 1; norm_num
    have c2 : roundEven (2 ^ 52) = 2 ^ 52 := by rw [← roundEven_int (2 ^ 52)]; congr 1; norm_num
    rw [abs_le]
    constructor <;> omega
  · exact e

theorem sci_chars (plus : Bool) (k : ℕ) (x : ℝ) : ∀ c ∈ sci plus k x, c.isDigit = true ∨ c = '.' ∨ c = 'e' ∨ c = '+' ∨ c = '-' := by
  intro c hc
  unfold sci at hc
  rw [List.append_assoc, List.mem_append, List.mem_append] at hc
  rcases hc with hc | hc | hc
  · unfold signChars at hc
    split_ifs at hc <;> simp at hc <;> simp [hc]
  · rcases fixedDigits_chars _ _ c hc with h | h <;> simp [h]
  · unfold exponentChars at hc
    simp only [List.mem_cons] at hc
    rcases hc with h | h | h
    · simp [h]
    · split_ifs at h <;> simp [h]
    · exact .inl (all_digit (padded_digits _ _) h)

/-- printing with seventeen digits; strings and other objects as nothing (used as an example) -/
noncomputable def seventeen : PyText := ⟨sci false 16, fun _ => [], fun _ => []⟩

theorem seventeen_faithful : seventeen.Faithful where
  injective x y hx hy h := by
    have e1 := read_sci 0 16 false x
    have e2 := read_sci 0 16 false y
    have h' : sci false 16 x = sci false 16 y := h
    rw [h', e2] at e1
    have e := Option.some.inj e1
    have n1 := sci_near 16 x
    have n2 := sci_near 16 y
    rw [← e] at n1
    refine digits_apart (binary64_digits hx) (binary64_digits hy) ?_
    generalize signOf y * (((sciParts 16 y).2 : ℝ) / 10 ^ 16 * (10:ℝ) ^ (sciParts 16 y).1) = q at n1 n2
    have t := abs_sub_le x q y
    rw [abs_sub_comm x q] at t
    norm_num at n1 n2 ⊢
    linarith
  chars x _ := sci_chars false 16 x
  mark x _ := .inr (by
    show 'e' ∈ sci false 16 x
    unfold sci exponentChars
    simp)

end Oneka
