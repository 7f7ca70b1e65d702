import Mathlib.Tactic.Ring
import Mathlib.Tactic.Linarith
import Mathlib.Tactic.FieldSimp
import Mathlib.Data.Nat.Log
import Verif.Py.Format
import Verif.Spec.Format

/-!
# Lemmas about printed numbers
-/

namespace Oneka

theorem digitChar_inj {m n : ℕ} (hm : m < 10) (hn : n < 10) (h : Nat.digitChar m = Nat.digitChar n) : m = n := by
  revert h
  have : ∀ m < 10, ∀ n < 10, Nat.digitChar m = Nat.digitChar n → m = n := by decide
  exact this m hm n hn

theorem padded_length (k n : ℕ) : (padded k n).length = k := by
  induction k generalizing n with
  | zero => rfl
  | succ k ih => simp [padded, ih]

theorem padded_inj {k m n : ℕ} (hm : m < 10 ^ k) (hn : n < 10 ^ k) (h : padded k m = padded k n) : m = n := by
  induction k generalizing m n with
  | zero => simp at hm hn; omega
  | succ k ih =>
    rw [padded, padded] at h
    obtain ⟨h1, h2⟩ := List.append_inj h (by simp [padded_length])
    have e1 := ih (m := m / 10) (n := n / 10) (by rw [pow_succ] at hm; omega) (by rw [pow_succ] at hn; omega) h1
    have e2 := digitChar_inj (Nat.mod_lt _ (by norm_num)) (Nat.mod_lt _ (by norm_num)) (List.singleton_injective h2)
    omega


/-- the value of digits after digits that have the value `a` -/
def digitsFrom (a : ℕ) (s : List Char) : ℕ := s.foldl (fun n c => 10 * n + (c.toNat - 48)) a

theorem digitChar_spec : ∀ m < 10, (Nat.digitChar m).isDigit = true ∧ (Nat.digitChar m).toNat - 48 = m := by decide

theorem padded_digits (k n : ℕ) : (padded k n).all Char.isDigit = true := by
  induction k generalizing n with
  | zero => rfl
  | succ k ih => simp [padded, ih, (digitChar_spec (n % 10) (Nat.mod_lt _ (by norm_num))).1]

theorem padded_value (a k n : ℕ) : digitsFrom a (padded k n) = a * 10 ^ k + n % 10 ^ k := by
  induction k generalizing n with
  | zero => simp [padded, digitsFrom, Nat.mod_one]
  | succ k ih =>
    unfold digitsFrom at ih ⊢
    rw [padded, List.foldl_append, ih, List.foldl_cons, List.foldl_nil, (digitChar_spec (n % 10) (Nat.mod_lt _ (by norm_num))).2]
    have : n % 10 ^ (k + 1) = 10 * (n / 10 % 10 ^ k) + n % 10 := by
      rw [pow_succ, Nat.mul_comm (10 ^ k) 10, Nat.mod_mul, Nat.add_comm]
    rw [this]; ring

theorem readNat_padded {k : ℕ} (n : ℕ) (hk : k ≠ 0) : readNat (padded k n) = some (n % 10 ^ k) := by
  unfold readNat
  rw [if_pos ⟨by intro h; exact hk (by rw [← padded_length k n, h]; rfl), padded_digits k n⟩]
  have := padded_value 0 k n
  unfold digitsFrom at this
  rw [this]; simp

theorem lt_pow_natDigits (n : ℕ) : n < 10 ^ (Nat.log 10 n + 1) := Nat.lt_pow_succ_log_self (by norm_num) n

theorem readNat_natDigits (n : ℕ) : readNat (natDigits n) = some n := by
  unfold natDigits
  rw [readNat_padded n (by omega), Nat.mod_eq_of_lt (lt_pow_natDigits n)]

theorem natDigits_digits (n : ℕ) : (natDigits n).all Char.isDigit = true := padded_digits _ _

theorem natDigits_length (n : ℕ) : (natDigits n).length = Nat.log 10 n + 1 := padded_length _ _

theorem natDigits_length_le {n w : ℕ} (hw : w ≠ 0) : (natDigits n).length ≤ w ↔ n < 10 ^ w := by
  rw [natDigits_length]
  constructor
  · intro h
    exact lt_of_lt_of_le (lt_pow_natDigits n) (Nat.pow_le_pow_right (by norm_num) h)
  · intro h
    exact Nat.succ_le_of_lt (Nat.log_lt_of_lt_pow' hw h)

/-- a character of a printed number that is not a sign, blank, comma, point or `e` -/
theorem digit_ne {c : Char} (h : c.isDigit = true) : c ≠ '.' ∧ c ≠ 'e' ∧ c ≠ ',' ∧ c ≠ ' ' ∧ c ≠ '-' ∧ c ≠ '+' := by
  refine ⟨?_, ?_, ?_, ?_, ?_, ?_⟩ <;> (rintro rfl; revert h; decide)

theorem all_digit {s : List Char} (h : s.all Char.isDigit = true) {c : Char} (hc : c ∈ s) : c.isDigit = true := List.all_eq_true.mp h c hc

theorem dropWhile_all {p : Char → Bool} {s : List Char} (h : ∀ c ∈ s, p c = true) : s.dropWhile p = [] := by
  induction s with
  | nil => rfl
  | cons a s ih => rw [List.dropWhile_cons, if_pos (h a (by simp)), ih fun c hc => h c (by simp [hc])]

theorem fixedDigits_succ (k n : ℕ) : fixedDigits (k + 1) n = natDigits (n / 10 ^ (k + 1)) ++ '.' :: padded (k + 1) n := by
  unfold fixedDigits
  rw [if_neg (by omega)]

theorem readPlain_fixedDigits (k n : ℕ) : readPlain (fixedDigits k n) = some ((n : ℝ) / 10 ^ k) := by
  have hn (m : ℕ) : ∀ c ∈ natDigits m, (c != '.') = true := fun c hc => by
    simpa using (digit_ne (all_digit (natDigits_digits m) hc)).1
  cases k with
  | zero =>
    unfold fixedDigits readPlain
    simp only [pow_zero, Nat.div_one, if_true, List.append_nil, div_one]
    rw [dropWhile_all (hn n)]
    simp [readNat_natDigits]
  | succ k =>
    rw [fixedDigits_succ]
    unfold readPlain
    rw [List.dropWhile_append_of_pos (hn _), List.takeWhile_append_of_pos (hn _)]
    simp only [List.dropWhile_cons, List.takeWhile_cons, bne_self_eq_false, Bool.false_eq_true, if_false, List.append_nil]
    rw [readNat_natDigits, readNat_padded n (by omega), padded_length]
    simp only [Option.some.injEq]
    have h := Nat.div_add_mod n (10 ^ (k + 1))
    have h' : (n : ℝ) = 10 ^ (k + 1) * ((n / 10 ^ (k + 1) : ℕ) : ℝ) + ((n % 10 ^ (k + 1) : ℕ) : ℝ) := by exact_mod_cast h.symm
    rw [h', add_div, mul_div_cancel_left₀ _ (by positivity)]

theorem fixedDigits_chars (k n : ℕ) : ∀ c ∈ fixedDigits k n, c.isDigit = true ∨ c = '.' := by
  intro c hc
  unfold fixedDigits at hc
  rcases List.mem_append.mp hc with h | h
  · exact .inl (all_digit (natDigits_digits _) h)
  · split at h
    · simp at h
    · rcases List.mem_cons.mp h with h | h
      · exact .inr h
      · exact .inl (all_digit (padded_digits _ _) h)

theorem fixedDigits_no_e (k n : ℕ) : ∀ c ∈ fixedDigits k n, (c != 'e') = true := by
  intro c hc
  rcases fixedDigits_chars k n c hc with h | rfl
  · simpa using (digit_ne h).2.1
  · decide

theorem readUnsigned_fixedDigits (k n : ℕ) : readUnsigned (fixedDigits k n) = some ((n : ℝ) / 10 ^ k) := by
  unfold readUnsigned
  rw [dropWhile_all (fixedDigits_no_e k n), readPlain_fixedDigits]

theorem readInt_exponent (e : ℤ) : readInt ((if e < 0 then '-' else '+') :: padded (max 2 (Nat.log 10 e.natAbs + 1)) e.natAbs) = some e := by
  have hr : readNat (padded (max 2 (Nat.log 10 e.natAbs + 1)) e.natAbs) = some e.natAbs := by
    rw [readNat_padded _ (by omega), Nat.mod_eq_of_lt]
    exact lt_of_lt_of_le (lt_pow_natDigits _) (Nat.pow_le_pow_right (by norm_num) (le_max_right _ _))
  split
  · show (readNat _).map (fun n => -(n : ℤ)) = some e
    rw [hr]
    exact congrArg some (by dsimp only; omega)
  · show (readNat _).map (fun n => (n : ℤ)) = some e
    rw [hr]
    exact congrArg some (by dsimp only; omega)

theorem readUnsigned_exponent (k n : ℕ) (e : ℤ) :
    readUnsigned (fixedDigits k n ++ exponentChars e) = some ((n : ℝ) / 10 ^ k * (10:ℝ) ^ e) := by
  unfold readUnsigned exponentChars
  rw [List.dropWhile_append_of_pos (fixedDigits_no_e k n), List.takeWhile_append_of_pos (fixedDigits_no_e k n)]
  simp only [List.dropWhile_cons, List.takeWhile_cons, bne_self_eq_false, Bool.false_eq_true, if_false, List.append_nil]
  rw [readPlain_fixedDigits, readInt_exponent]

theorem natDigits_cons (n : ℕ) : ∃ c s, natDigits n = c :: s ∧ c.isDigit = true := by
  cases h : natDigits n with
  | nil => have := natDigits_length n; rw [h] at this; simp at this
  | cons c s => exact ⟨c, s, rfl, all_digit (natDigits_digits n) (by rw [h]; simp)⟩

theorem fixedDigits_cons (k n : ℕ) : ∃ c s, fixedDigits k n = c :: s ∧ c.isDigit = true := by
  obtain ⟨c, s, h, hc⟩ := natDigits_cons (n / 10 ^ k)
  exact ⟨c, s ++ if k = 0 then [] else '.' :: padded k n, by unfold fixedDigits; rw [h]; rfl, hc⟩

theorem readSigned_digit {c : Char} (hc : c.isDigit = true) (s : List Char) : readSigned (c :: s) = readUnsigned (c :: s) := by
  obtain ⟨-, -, -, -, h1, h2⟩ := digit_ne hc
  unfold readSigned
  split
  · rename_i h; simp at h; exact absurd h.1 h1
  · rename_i h; simp at h; exact absurd h.1 h2
  · rfl

/-- the sign of a number as a factor -/
noncomputable def signOf (x : ℝ) : ℝ := if x < 0 then -1 else 1

theorem signOf_mul_abs (x : ℝ) : signOf x * |x| = x := by
  unfold signOf
  split
  · rename_i h; rw [abs_of_neg h]; ring
  · rename_i h; rw [abs_of_nonneg (not_lt.mp h)]; ring

theorem abs_signOf_mul (x y : ℝ) : |signOf x * y| = |y| := by
  unfold signOf
  split <;> simp

theorem readSigned_sign (plus : Bool) (x : ℝ) {c : Char} (hc : c.isDigit = true) (s : List Char) {v : ℝ} (h : readUnsigned (c :: s) = some v) :
    readSigned (signChars plus x ++ c :: s) = some (signOf x * v) := by
  unfold signChars signOf
  split
  · show readSigned ('-' :: c :: s) = _
    simp [readSigned, h]
  · split
    · show readSigned ('+' :: c :: s) = _
      simp [readSigned, h]
    · show readSigned (c :: s) = _
      rw [readSigned_digit hc, h, one_mul]

theorem filter_none {s : List Char} (h : ∀ c ∈ s, c ≠ ',') : s.filter (· != ',') = s := List.filter_eq_self.mpr fun c hc => by simpa using h c hc

theorem readNumber_padLeft (w : ℕ) {s : List Char} (h : ∀ r, s ≠ ' ' :: r) : readNumber (padLeft w s) = readSigned (s.filter (· != ',')) := by
  unfold readNumber padLeft
  have h1 : ∀ c ∈ List.replicate (w - s.length) ' ', (c == ' ') = true := fun c hc => by simp [List.eq_of_mem_replicate hc]
  rw [List.dropWhile_append_of_pos h1]
  cases s with
  | nil => rfl
  | cons a s =>
    have ha : a ≠ ' ' := fun e => h s (by rw [e])
    rw [List.dropWhile_cons, if_neg (by simpa using ha)]

theorem padLeft_zero (s : List Char) : padLeft 0 s = s := by simp [padLeft]

theorem signChars_no_comma (plus : Bool) (x : ℝ) : ∀ c ∈ signChars plus x, c ≠ ',' := by
  intro c hc
  unfold signChars at hc
  split at hc
  · simp at hc; subst hc; decide
  · split at hc
    · simp at hc; subst hc; decide
    · simp at hc

theorem sign_not_blank (plus : Bool) (x : ℝ) {c : Char} (hc : c.isDigit = true) (s : List Char) : ∀ r, signChars plus x ++ c :: s ≠ ' ' :: r := by
  intro r h
  have := (digit_ne hc).2.2.2.1
  unfold signChars at h
  split at h
  · simp at h
  · split at h
    · simp at h
    · simp at h; exact this h.1

/-- reading `w.kf` -/
theorem read_fixed (w k : ℕ) (x : ℝ) : readNumber (padLeft w (fixed k x)) = some (signOf x * ((scaled k x : ℝ) / 10 ^ k)) := by
  unfold fixed
  obtain ⟨c, s, h, hc⟩ := fixedDigits_cons k (scaled k x)
  have hu := readUnsigned_fixedDigits k (scaled k x)
  have hch := fixedDigits_chars k (scaled k x)
  rw [h] at hu hch ⊢
  rw [readNumber_padLeft w (sign_not_blank false x hc s), filter_none, readSigned_sign false x hc s hu]
  intro d hd
  rcases List.mem_append.mp hd with hd | hd
  · exact signChars_no_comma _ _ d hd
  · rcases hch d hd with e | rfl
    · exact (digit_ne e).2.2.1
    · decide

theorem filter_grouped {s : List Char} (h : s.all Char.isDigit = true) : (grouped s).filter (· != ',') = s := by
  induction s with
  | nil => rfl
  | cons a s ih =>
    simp only [List.all_cons, Bool.and_eq_true] at h
    have ha : (a != ',') = true := by simpa using (digit_ne h.1).2.2.1
    rw [grouped]
    split
    · rw [List.filter_cons, if_pos ha, List.filter_cons, if_neg (by decide), ih h.2]
    · rw [List.filter_cons, if_pos ha, ih h.2]

theorem grouped_cons (c : Char) (s : List Char) : ∃ r, grouped (c :: s) = c :: r := by
  rw [grouped]
  split
  · exact ⟨_, rfl⟩
  · exact ⟨_, rfl⟩

/-- reading `w,.kf` -/
theorem read_comma (w k : ℕ) (x : ℝ) : readNumber (padLeft w (commaFixed k x)) = some (signOf x * ((scaled k x : ℝ) / 10 ^ k)) := by
  unfold commaFixed
  have hf : (commaDigits k (scaled k x)).filter (· != ',') = fixedDigits k (scaled k x) := by
    unfold commaDigits fixedDigits
    rw [List.filter_append, filter_grouped (natDigits_digits _)]
    congr 1
    apply filter_none
    intro c hc
    split at hc
    · simp at hc
    · rcases List.mem_cons.mp hc with rfl | hc
      · decide
      · exact (digit_ne (all_digit (padded_digits _ _) hc)).2.2.1
  obtain ⟨c, s, h, hc⟩ := fixedDigits_cons k (scaled k x)
  have hu := readUnsigned_fixedDigits k (scaled k x)
  have hcd : ∃ r, commaDigits k (scaled k x) = c :: r := by
    obtain ⟨c', s', h', hc'⟩ := natDigits_cons (scaled k x / 10 ^ k)
    obtain ⟨r, hr⟩ := grouped_cons c' s'
    have : c' = c := by
      unfold fixedDigits at h
      rw [h'] at h
      simp at h
      exact h.1
    exact ⟨r ++ if k = 0 then [] else '.' :: padded k (scaled k x), by unfold commaDigits; rw [h', hr, this]; rfl⟩
  obtain ⟨r, hr⟩ := hcd
  rw [readNumber_padLeft w (by rw [hr]; exact sign_not_blank false x hc r), List.filter_append, filter_none (signChars_no_comma _ _), hf, h,
    readSigned_sign false x hc s (by rw [← h]; exact hu)]

/-- reading `+.ke` -/
theorem read_sci (w k : ℕ) (plus : Bool) (x : ℝ) :
    readNumber (padLeft w (sci plus k x)) = some (signOf x * (((sciParts k x).2 : ℝ) / 10 ^ k * (10:ℝ) ^ (sciParts k x).1)) := by
  unfold sci
  obtain ⟨c, s, h, hc⟩ := fixedDigits_cons k (sciParts k x).2
  have hu := readUnsigned_exponent k (sciParts k x).2 (sciParts k x).1
  have hch := fixedDigits_chars k (sciParts k x).2
  rw [List.append_assoc]
  have h' : fixedDigits k (sciParts k x).2 ++ exponentChars (sciParts k x).1 = c :: (s ++ exponentChars (sciParts k x).1) := by rw [h]; rfl
  rw [h'] at hu ⊢
  rw [readNumber_padLeft w (sign_not_blank plus x hc _), filter_none, readSigned_sign plus x hc _ hu]
  intro d hd
  rcases List.mem_append.mp hd with hd | hd
  · exact signChars_no_comma _ _ d hd
  · rw [← h'] at hd
    rcases List.mem_append.mp hd with hd | hd
    · rcases hch d hd with e | rfl
      · exact (digit_ne e).2.2.1
      · decide
    · unfold exponentChars at hd
      rcases List.mem_cons.mp hd with rfl | hd
      · decide
      · rcases List.mem_cons.mp hd with rfl | hd
        · split <;> decide
        · exact (digit_ne (all_digit (padded_digits _ _) hd)).2.2.1

theorem roundEven_nonneg {y : ℝ} (h : 0 ≤ y) : 0 ≤ roundEven y := by
  have := roundEven_mono h
  have h0 : roundEven 0 = 0 := by simpa using roundEven_int 0
  omega

theorem scaled_cast (k : ℕ) (x : ℝ) : (scaled k x : ℝ) = roundEven (|x| * 10 ^ k) := by
  unfold scaled
  have := roundEven_nonneg (y := |x| * 10 ^ k) (by positivity)
  exact_mod_cast Int.toNat_of_nonneg this

/-- the printed value is within half a unit of the last place -/
theorem scaled_near (k : ℕ) (x : ℝ) : |signOf x * ((scaled k x : ℝ) / 10 ^ k) - x| ≤ 1 / 2 / 10 ^ k := by
  have h := roundEven_near (|x| * 10 ^ k)
  rw [← scaled_cast] at h
  have e : signOf x * ((scaled k x : ℝ) / 10 ^ k) - x = signOf x * (((scaled k x : ℝ) - |x| * 10 ^ k) / 10 ^ k) := by
    conv_lhs => rw [← signOf_mul_abs x]
    rw [signOf_mul_abs, sub_div, mul_div_assoc |x|, div_self (by positivity), mul_one, mul_sub, signOf_mul_abs]
  rw [e, abs_signOf_mul, abs_div, abs_of_pos (show (0:ℝ) < 10 ^ k by positivity)]
  gcongr

/-- the value of the digits and exponent of `.ke` -/
theorem sciParts_value (k : ℕ) (x : ℝ) :
    ((sciParts k x).2 : ℝ) / 10 ^ k * (10:ℝ) ^ (sciParts k x).1 =
      (roundEven (|x| * (10:ℝ) ^ ((k : ℤ) - Int.log 10 |x|)) : ℝ) * (10:ℝ) ^ (Int.log 10 |x| - (k : ℤ)) := by
  have h10 : (10:ℝ) ≠ 0 := by norm_num
  set e := Int.log 10 |x| with he
  have hpow : (10:ℝ) ^ (e - (k : ℤ)) = (10:ℝ) ^ e / 10 ^ k := by rw [zpow_sub₀ h10, zpow_natCast]
  have hn0 : 0 ≤ roundEven (|x| * (10:ℝ) ^ ((k : ℤ) - e)) := roundEven_nonneg (by positivity)
  have hcast : ((roundEven (|x| * (10:ℝ) ^ ((k : ℤ) - e))).toNat : ℝ) = roundEven (|x| * (10:ℝ) ^ ((k : ℤ) - e)) := by
    exact_mod_cast Int.toNat_of_nonneg hn0
  unfold sciParts
  simp only
  rw [← he]
  split
  · rw [hpow]
    simp only [hcast]
    ring
  · rename_i hge
    have hup : |x| * (10:ℝ) ^ ((k : ℤ) - e) ≤ ((10 ^ (k + 1) : ℤ) : ℝ) := by
      have hlt : |x| < (10:ℝ) ^ (e + 1) := by
        have := Int.lt_zpow_succ_log_self (b := 10) (by norm_num) |x|
        exact_mod_cast this
      have e1 : ((10 ^ (k + 1) : ℤ) : ℝ) = (10:ℝ) ^ (e + 1) * (10:ℝ) ^ ((k : ℤ) - e) := by
        rw [← zpow_add₀ h10, show e + 1 + ((k : ℤ) - e) = ((k + 1 : ℕ) : ℤ) by push_cast; ring, zpow_natCast]
        push_cast; rfl
      rw [e1]
      gcongr
    have hle := roundEven_mono hup
    rw [roundEven_int] at hle
    have hge' : (10 : ℤ) ^ (k + 1) ≤ roundEven (|x| * (10:ℝ) ^ ((k : ℤ) - e)) := by
      have := not_lt.mp hge
      have h2 := Int.toNat_of_nonneg hn0
      calc (10 : ℤ) ^ (k + 1) = ((10 ^ (k + 1) : ℕ) : ℤ) := by push_cast; rfl
        _ ≤ ((roundEven (|x| * (10:ℝ) ^ ((k : ℤ) - e))).toNat : ℤ) := by exact_mod_cast this
        _ = _ := h2
    have heq : (roundEven (|x| * (10:ℝ) ^ ((k : ℤ) - e)) : ℝ) = 10 ^ (k + 1) := by
      have : roundEven (|x| * (10:ℝ) ^ ((k : ℤ) - e)) = 10 ^ (k + 1) := le_antisymm hle hge'
      rw [this]; push_cast; rfl
    rw [heq, hpow, zpow_add₀ h10]
    push_cast
    field_simp
    ring

/-- the printed value is within half a unit of the last digit -/
theorem sci_near (k : ℕ) (x : ℝ) :
    |signOf x * (((sciParts k x).2 : ℝ) / 10 ^ k * (10:ℝ) ^ (sciParts k x).1) - x| ≤ |x| / 2 / 10 ^ k := by
  have h10 : (10:ℝ) ≠ 0 := by norm_num
  rw [sciParts_value]
  set e := Int.log 10 |x| with he
  by_cases hx : x = 0
  · subst hx
    have : roundEven 0 = 0 := by simpa using roundEven_int 0
    simp [this]
  have hxp : 0 < |x| := abs_pos.mpr hx
  have hlow : (10:ℝ) ^ e ≤ |x| := by
    have := Int.zpow_log_le_self (b := 10) (r := |x|) (by norm_num) hxp
    exact_mod_cast this
  have hr := roundEven_near (|x| * (10:ℝ) ^ ((k : ℤ) - e))
  have e1 : signOf x * ((roundEven (|x| * (10:ℝ) ^ ((k : ℤ) - e)) : ℝ) * (10:ℝ) ^ (e - (k : ℤ))) - x =
      signOf x * (((roundEven (|x| * (10:ℝ) ^ ((k : ℤ) - e)) : ℝ) - |x| * (10:ℝ) ^ ((k : ℤ) - e)) * (10:ℝ) ^ (e - (k : ℤ))) := by
    have : |x| * (10:ℝ) ^ ((k : ℤ) - e) * (10:ℝ) ^ (e - (k : ℤ)) = |x| := by
      rw [mul_assoc, ← zpow_add₀ h10]
      simp
    rw [sub_mul, this, mul_sub, signOf_mul_abs]
  rw [e1, abs_signOf_mul, abs_mul, abs_of_pos (show (0:ℝ) < (10:ℝ) ^ (e - (k : ℤ)) by positivity)]
  have hpow : (10:ℝ) ^ (e - (k : ℤ)) = (10:ℝ) ^ e / 10 ^ k := by rw [zpow_sub₀ h10, zpow_natCast]
  calc _ ≤ 1 / 2 * (10:ℝ) ^ (e - (k : ℤ)) := by gcongr
    _ = (10:ℝ) ^ e / 2 / 10 ^ k := by rw [hpow]; ring
    _ ≤ |x| / 2 / 10 ^ k := by gcongr

/-! ## Lengths -/

theorem padLeft_length (w : ℕ) (s : List Char) : (padLeft w s).length = max w s.length := by
  unfold padLeft
  simp
  omega

theorem fixedDigits_length {k : ℕ} (hk : k ≠ 0) (n : ℕ) : (fixedDigits k n).length = (natDigits (n / 10 ^ k)).length + 1 + k := by
  unfold fixedDigits
  rw [if_neg hk]
  simp [padded_length]
  omega

theorem signChars_length (x : ℝ) : (signChars false x).length ≤ 1 := by
  unfold signChars
  split <;> simp

theorem signChars_length' (plus : Bool) (x : ℝ) : (signChars plus x).length ≤ 1 := by
  unfold signChars
  split
  · simp
  · split <;> simp

/-- the integer part of a rounded number -/
theorem scaled_lt {k m : ℕ} {x : ℝ} (h : |x| ≤ 10 ^ m - 1) : scaled k x / 10 ^ k < 10 ^ m := by
  rw [Nat.div_lt_iff_lt_mul (by positivity)]
  have h1 := (abs_le.mp (roundEven_near (|x| * 10 ^ k))).2
  rw [← scaled_cast] at h1
  have h2 : |x| * 10 ^ k ≤ (10 ^ m - 1) * 10 ^ k := by gcongr
  have h3 : (1:ℝ) ≤ 10 ^ k := one_le_pow₀ (by norm_num)
  have : (scaled k x : ℝ) < ((10 ^ m * 10 ^ k : ℕ) : ℝ) := by push_cast; nlinarith
  exact_mod_cast this

theorem fixed_length_le {k m : ℕ} (hk : k ≠ 0) (hm : m ≠ 0) {x : ℝ} (h : |x| ≤ 10 ^ m - 1) : (fixed k x).length ≤ m + k + 2 := by
  unfold fixed
  rw [List.length_append, fixedDigits_length hk]
  have h1 := signChars_length x
  have h2 := (natDigits_length_le (n := scaled k x / 10 ^ k) hm).mpr (scaled_lt h)
  omega

/-- a number with many digits takes many columns -/
theorem fixed_length_ge {k m : ℕ} (hk : k ≠ 0) (hm : m ≠ 0) {x : ℝ} (h : 10 ^ m ≤ |x|) : m + k + 2 ≤ (fixed k x).length := by
  unfold fixed
  rw [List.length_append, fixedDigits_length hk]
  have h2 : ¬ (natDigits (scaled k x / 10 ^ k)).length ≤ m := by
    rw [natDigits_length_le hm, not_lt, Nat.le_div_iff_mul_le (by positivity)]
    have h3 : ((10 ^ m * 10 ^ k : ℕ) : ℝ) ≤ |x| * 10 ^ k := by push_cast; gcongr
    have h4 : ((10 ^ m * 10 ^ k : ℕ) : ℤ) ≤ roundEven (|x| * 10 ^ k) := by
      have := roundEven_mono h3
      rwa [show (((10 ^ m * 10 ^ k : ℕ) : ℝ)) = (((10 ^ m * 10 ^ k : ℕ) : ℤ) : ℝ) by push_cast; rfl, roundEven_int] at this
    unfold scaled
    omega
  omega

end Oneka
