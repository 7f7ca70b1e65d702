import Verif.Py.Binary64

/-!
Bounds for the exponents of intermediate results: multiples of `2^-g` of size at most `2^k`. As long as these are within the range of binary64, an operation on binary64 numbers gives the number that the same operation gives with
unbounded exponents (`Fl`).
-/

namespace Oneka

/-- a multiple of `2^-g`, of size at most `2^k` -/
def Rng (g k : ℤ) (x : ℝ) : Prop := (∃ n : ℤ, x = n * 2 ^ (-g)) ∧ |x| ≤ 2 ^ k

/-- the same number in both arithmetics, with bounds -/
def Same (g k : ℤ) (b : B64) (x : Fl) : Prop := b.v = .fin x.val ∧ Rng g k x.val

theorem two_zpow_pos (k : ℤ) : (0:ℝ) < 2 ^ k := by positivity

theorem two_zpow_le {a b : ℤ} (h : a ≤ b) : (2:ℝ) ^ a ≤ 2 ^ b := zpow_le_zpow_right₀ (by norm_num) h

theorem two_zpow_add (a b : ℤ) : (2:ℝ) ^ (a + b) = 2 ^ a * 2 ^ b := zpow_add₀ (by norm_num) a b

theorem Rng.mono {g k g' k' : ℤ} {x : ℝ} (h : Rng g k x) (hg : g ≤ g') (hk : k ≤ k') : Rng g' k' x := by
  obtain ⟨⟨n, hn⟩, hb⟩ := h
  refine ⟨⟨n * 2 ^ (g' - g).toNat, ?_⟩, hb.trans (two_zpow_le hk)⟩
  rw [hn]
  push_cast
  rw [mul_assoc, ← zpow_natCast (2:ℝ), ← two_zpow_add, Int.toNat_of_nonneg (by omega)]
  congr 2
  ring

theorem Rng.zero (g k : ℤ) : Rng g k 0 := ⟨⟨0, by simp⟩, by rw [abs_zero]; exact (two_zpow_pos k).le⟩

theorem Rng.ge {g k : ℤ} {x : ℝ} (h : Rng g k x) (hx : x ≠ 0) : 2 ^ (-g) ≤ |x| := by
  obtain ⟨⟨n, hn⟩, -⟩ := h
  rw [hn, abs_mul, abs_of_pos (two_zpow_pos (-g))]
  have h0 : n ≠ 0 := by rintro rfl; exact hx (by simpa using hn)
  have : (1:ℝ) ≤ |(n:ℝ)| := by
    have := Int.one_le_abs h0
    exact_mod_cast this
  nlinarith [two_zpow_pos (-g)]

theorem Rng.neg {g k : ℤ} {x : ℝ} (h : Rng g k x) : Rng g k (-x) := by
  obtain ⟨⟨n, hn⟩, hb⟩ := h
  exact ⟨⟨-n, by rw [hn]; push_cast; ring⟩, by rwa [abs_neg]⟩

theorem Rng.add {g k : ℤ} {x y : ℝ} (hx : Rng g k x) (hy : Rng g k y) : Rng g (k + 1) (x + y) := by
  obtain ⟨⟨n, hn⟩, hb⟩ := hx
  obtain ⟨⟨m, hm⟩, hc⟩ := hy
  refine ⟨⟨n + m, by rw [hn, hm]; push_cast; ring⟩, ?_⟩
  rw [two_zpow_add, zpow_one]
  exact (abs_add_le x y).trans (by linarith)

theorem Rng.mul {g k g' k' : ℤ} {x y : ℝ} (hx : Rng g k x) (hy : Rng g' k' y) : Rng (g + g') (k + k') (x * y) := by
  obtain ⟨⟨n, hn⟩, hb⟩ := hx
  obtain ⟨⟨m, hm⟩, hc⟩ := hy
  refine ⟨⟨n * m, by rw [hn, hm, neg_add, two_zpow_add]; push_cast; ring⟩, ?_⟩
  rw [two_zpow_add, abs_mul]
  exact mul_le_mul hb hc (abs_nonneg _) (two_zpow_pos k).le

theorem round53_le_zpow {k : ℤ} {x : ℝ} (h : |x| ≤ 2 ^ k) : |round53 x| ≤ 2 ^ k := by
  rw [abs_le] at h ⊢
  have h1 := round53_mono h.1
  have h2 := round53_mono h.2
  rw [round53_neg, round53_zpow] at h1
  rw [round53_zpow] at h2
  exact ⟨h1, h2⟩

/-- the rounded value of a number of size at least `2^-a` has its last digit at `2^-(a+52)` -/
theorem round53_multiple {a : ℤ} {x : ℝ} (h : x = 0 ∨ 2 ^ (-a) ≤ |x|) : ∃ n : ℤ, round53 x = n * 2 ^ (-(a + 52)) := by
  rcases eq_or_ne x 0 with rfl | hx
  · exact ⟨0, by simp [round53_zero]⟩
  have h' := h.resolve_left hx
  have hl : -a ≤ Int.log 2 |x| := by
    have := h'.trans_lt (abs_lt_zpow x)
    rw [zpow_lt_zpow_iff_right₀ (by norm_num)] at this
    omega
  refine ⟨roundEven (x / ulp x) * 2 ^ (Int.log 2 |x| + a).toNat, ?_⟩
  unfold round53 ulp
  push_cast
  rw [mul_assoc, ← zpow_natCast (2:ℝ), ← two_zpow_add, Int.toNat_of_nonneg (by omega)]
  congr 2
  ring

theorem Rng.round {g k : ℤ} {x : ℝ} (h : Rng g k x) : Rng g k (round53 x) := by
  refine ⟨?_, round53_le_zpow h.2⟩
  obtain ⟨n, hn⟩ := h.1
  by_cases hs : |n| ≤ 2 ^ 53
  · exact ⟨n, by rw [hn, round53_exact n _ hs]⟩
  · have hb : (2:ℝ) ^ (-(g - 52)) ≤ |x| := by
      rw [hn, abs_mul, abs_of_pos (two_zpow_pos (-g)), show -(g - 52) = 52 + -g by ring, two_zpow_add]
      refine mul_le_mul_of_nonneg_right ?_ (two_zpow_pos _).le
      have h1 : (2:ℤ) ^ 52 ≤ |n| := by omega
      have : (((2:ℤ) ^ 52 : ℤ) : ℝ) ≤ ((|n| : ℤ) : ℝ) := by exact_mod_cast h1
      push_cast at this
      exact le_trans (by norm_num) this
    obtain ⟨m, hm⟩ := round53_multiple (Or.inr hb)
    exact ⟨m, by rw [hm]; congr 2; ring⟩

/-- within the range, rounding to binary64 is rounding to 53 digits -/
theorem toBinary64_eq {x : ℝ} (h : x = 0 ∨ 2 ^ (-1022 : ℤ) ≤ |x|) (hb : |x| ≤ 2 ^ (1023 : ℤ)) : toBinary64 (.fin x) = .fin (round53 x) := by
  have e : round64 x = round53 x := by
    unfold round64
    rcases h with rfl | h
    · rw [if_pos (by rw [abs_zero]; positivity), round53_zero, zero_div]
      have := roundEven_int 0
      simp only [Int.cast_zero] at this
      rw [this]
      simp
    · rw [if_neg (not_lt.mpr h)]
  simp only [toBinary64]
  rw [e, if_pos (lt_of_le_of_lt (round53_le_zpow hb) (zpow_lt_zpow_right₀ (by norm_num) (by norm_num)))]

theorem Rng.toB {g k : ℤ} {x : ℝ} (h : Rng g k x) (hg : g ≤ 1022) (hk : k ≤ 1023) : toBinary64 (.fin x) = .fin (round53 x) := by
  refine toBinary64_eq ?_ (h.2.trans (two_zpow_le hk))
  rcases eq_or_ne x 0 with hx | hx
  · exact .inl hx
  · exact .inr ((two_zpow_le (by omega)).trans (h.ge hx))

namespace Same

variable {g k g' k' : ℤ} {a b : B64} {x y : Fl}

theorem mono (h : Same g k a x) (hg : g ≤ g') (hk : k ≤ k') : Same g' k' a x := ⟨h.1, h.2.mono hg hk⟩

theorem lt_iff (ha : Same g k a x) (hb : Same g' k' b y) : a < b ↔ x < y := by
  show a.v < b.v ↔ _
  rw [ha.1, hb.1]
  exact Iff.rfl

theorem le_iff (ha : Same g k a x) (hb : Same g' k' b y) : a ≤ b ↔ x ≤ y := by
  show a.v ≤ b.v ↔ _
  rw [ha.1, hb.1]
  exact Iff.rfl

theorem eq_iff (ha : Same g k a x) (hb : Same g' k' b y) : a = b ↔ x = y := by
  constructor
  · rintro rfl
    have := ha.1.symm.trans hb.1
    exact Fl.ext' (XR.fin.inj this)
  · rintro rfl
    cases a; cases b
    have : _ = _ := ha.1.trans hb.1.symm
    simp only at this
    subst this
    rfl

/-- an operation whose exact result is in range -/
theorem of_rng {r : ℝ} (h : Rng g k r) (hg : g ≤ 1022) (hk : k ≤ 1023) : Same g k (B64.of (.fin r)) (Fl.of r) := ⟨h.toB hg hk, h.round⟩

theorem add (ha : Same g k a x) (hb : Same g k b y) (hg : g ≤ 1022) (hk : k + 1 ≤ 1023) : Same g (k + 1) (a + b) (x + y) := by
  have h := of_rng (ha.2.add hb.2) hg hk
  refine ⟨?_, h.2⟩
  show toBinary64 (a.v + b.v) = _
  rw [ha.1, hb.1]
  exact h.1

theorem sub (ha : Same g k a x) (hb : Same g k b y) (hg : g ≤ 1022) (hk : k + 1 ≤ 1023) : Same g (k + 1) (a - b) (x - y) := by
  have h := of_rng (ha.2.add hb.2.neg) hg hk
  rw [← sub_eq_add_neg] at h
  refine ⟨?_, h.2⟩
  show toBinary64 (a.v - b.v) = _
  rw [ha.1, hb.1, XR.fin_sub]
  exact h.1

theorem mul (ha : Same g k a x) (hb : Same g' k' b y) (hg : g + g' ≤ 1022) (hk : k + k' ≤ 1023) : Same (g + g') (k + k') (a * b) (x * y) := by
  have h := of_rng (ha.2.mul hb.2) hg hk
  refine ⟨?_, h.2⟩
  show toBinary64 (a.v * b.v) = _
  rw [ha.1, hb.1]
  exact h.1

theorem neg (ha : Same g k a x) (hg : g ≤ 1022) (hk : k ≤ 1023) : Same g k (-a) (-x) := by
  refine ⟨?_, ha.2.neg⟩
  show toBinary64 (-a.v) = .fin (-x.val)
  rw [ha.1, XR.fin_neg, ha.2.neg.toB hg hk, round53_neg, x.isFloat]

/-- a result that is zero or at least `2^-c` in size -/
theorem of_size {c : ℤ} {r : ℝ} (h : r = 0 ∨ 2 ^ (-c) ≤ |r|) (hb : |r| ≤ 2 ^ k) (hc : c ≤ 1022) (hk : k ≤ 1023) :
    Same (c + 52) k (B64.of (.fin r)) (Fl.of r) := by
  refine ⟨toBinary64_eq ?_ (hb.trans (two_zpow_le hk)), round53_multiple h, round53_le_zpow hb⟩
  rcases h with h | h
  · exact .inl h
  · exact .inr ((two_zpow_le (by omega)).trans h)

theorem div (ha : Same g k a x) (hb : Same g' k' b y) (hy : y.val ≠ 0) (hg : g + k' ≤ 1022) (hk : k + g' ≤ 1023) : Same (g + k' + 52) (k + g') (a / b) (x / y) := by
  have hp : 0 < |y.val| := abs_pos.mpr hy
  have h1 : x.val / y.val = 0 ∨ 2 ^ (-(g + k')) ≤ |x.val / y.val| := by
    rcases eq_or_ne x.val 0 with hx | hx
    · exact .inl (by rw [hx, zero_div])
    · right
      rw [abs_div, le_div_iff₀ hp, neg_add, two_zpow_add]
      calc (2:ℝ) ^ (-g) * 2 ^ (-k') * |y.val| ≤ 2 ^ (-g) * 2 ^ (-k') * 2 ^ k' := mul_le_mul_of_nonneg_left hb.2.2 (by positivity)
        _ = 2 ^ (-g) := by rw [mul_assoc, ← two_zpow_add]; simp
        _ ≤ _ := ha.2.ge hx
  have h2 : |x.val / y.val| ≤ 2 ^ (k + g') := by
    rw [abs_div, div_le_iff₀ hp, two_zpow_add]
    calc |x.val| ≤ 2 ^ k := ha.2.2
      _ = 2 ^ k * 2 ^ g' * 2 ^ (-g') := by rw [mul_assoc, ← two_zpow_add]; simp
      _ ≤ _ := mul_le_mul_of_nonneg_left (hb.2.ge hy) (by positivity)
  have h := of_size h1 h2 hg hk
  refine ⟨?_, h.2⟩
  show toBinary64 (a.v / b.v) = _
  rw [ha.1, hb.1, XR.fin_div _ _ hy]
  exact h.1

theorem of_fl {x : Fl} (h : Rng g k x.val) (hg : g ≤ 1022) (hk : k ≤ 1023) : Same g k (B64.of (.fin x.val)) x := by
  have := of_rng h hg hk
  rwa [show Fl.of x.val = x from Fl.ext' x.isFloat] at this

theorem nat (n : ℕ) (h : |(n:ℝ)| ≤ 2 ^ k) (hk : k ≤ 1023) : Same 0 k ((n : ℕ) : B64) ((n : ℕ) : Fl) := of_rng ⟨⟨n, by simp⟩, h⟩ (by norm_num) hk

theorem int (n : ℤ) (h : |(n:ℝ)| ≤ 2 ^ k) (hk : k ≤ 1023) : Same 0 k ((n : ℤ) : B64) ((n : ℤ) : Fl) := of_rng ⟨⟨n, by simp⟩, h⟩ (by norm_num) hk

theorem zero (hg : g ≤ 1022) (hk : k ≤ 1023) : Same g k (0 : B64) (0 : Fl) := of_rng (Rng.zero g k) hg hk

theorem floor_eq (ha : Same g k a x) : PyFloor.floor a = PyFloor.floor x := by
  show (match a.v with | .fin x => ⌊x⌋ | _ => 0) = ⌊x.val⌋
  rw [ha.1]

theorem ceil_eq (ha : Same g k a x) : PyFloor.ceil a = PyFloor.ceil x := by
  show (match a.v with | .fin x => ⌈x⌉ | _ => 0) = ⌈x.val⌉
  rw [ha.1]

variable [LibM]

theorem q {c : ℤ} (r : ℚ) (h : (2:ℝ) ^ (-c) ≤ |(r:ℝ)|) (hb : |(r:ℝ)| ≤ 2 ^ k) (hc : c ≤ 1022) (hk : k ≤ 1023) : Same (c + 52) k (PyMath.q r : B64) (PyMath.q r : Fl) :=
  of_size (.inr h) hb hc hk

theorem q_zero (hg : g ≤ 1022) (hk : k ≤ 1023) : Same g k (PyMath.q 0 : B64) (PyMath.q 0 : Fl) := by
  have := of_rng (Rng.zero g k) hg hk
  show Same g k (B64.of (.fin ((0:ℚ):ℝ))) (Fl.of ((0:ℚ):ℝ))
  rwa [Rat.cast_zero]

theorem abs (ha : Same g k a x) (hg : g ≤ 1022) (hk : k ≤ 1023) : Same g k (PyMath.abs a) (PyMath.abs x) := by
  have h : Rng g k |x.val| := by
    rcases abs_choice x.val with h | h <;> rw [h]
    · exact ha.2
    · exact ha.2.neg
  refine ⟨?_, h⟩
  show toBinary64 (PyMath.abs a.v) = .fin |x.val|
  rw [ha.1]
  show toBinary64 (.fin |x.val|) = .fin |x.val|
  rw [h.toB hg hk, round53_abs]

theorem sqrt (ha : Same g k a x) (h0 : 0 ≤ x.val) (hg0 : 0 ≤ g) (hk0 : 0 ≤ k) (hg : g ≤ 1022) (hk : k ≤ 1023) : Same (g + 52) k (PyMath.sqrt a) (PyMath.sqrt x) := by
  have h1 : √x.val = 0 ∨ 2 ^ (-g) ≤ |√x.val| := by
    rcases eq_or_ne x.val 0 with hx | hx
    · exact .inl (by rw [hx, Real.sqrt_zero])
    · right
      rw [abs_of_nonneg (Real.sqrt_nonneg _)]
      refine Real.le_sqrt_of_sq_le ?_
      have h := ha.2.ge hx
      rw [abs_of_nonneg h0] at h
      have h1 : (2:ℝ) ^ (-g) ≤ 1 := by
        have := two_zpow_le (show -g ≤ 0 by omega)
        simpa using this
      nlinarith [two_zpow_pos (-g)]
  have h2 : |√x.val| ≤ 2 ^ k := by
    rw [abs_of_nonneg (Real.sqrt_nonneg _)]
    refine Real.sqrt_le_iff.mpr ⟨(two_zpow_pos k).le, ?_⟩
    have h := ha.2.2
    rw [abs_of_nonneg h0] at h
    have h1 : 1 ≤ (2:ℝ) ^ k := by
      have := two_zpow_le hk0
      simpa using this
    nlinarith
  have h := of_size h1 h2 hg hk
  refine ⟨?_, h.2⟩
  show toBinary64 (PyMath.sqrt a.v) = _
  rw [ha.1]
  show toBinary64 (if x.val < 0 then .nan else .fin (√x.val)) = _
  rw [if_neg (not_lt.mpr h0)]
  exact h.1

/-- any function of the C library with a result in range -/
theorem log (ha : Same g k a x) (h0 : 0 < x.val) (h : Rng g' k' (LibM.log x).val) (hg : g' ≤ 1022) (hk : k' ≤ 1023) : Same g' k' (PyMath.log a) (PyMath.log x) := by
  have e : (PyMath.log a : B64) = B64.of (.fin (LibM.log x).val) := by
    show (match a.v with | .fin x => if 0 < x then B64.of (.fin (LibM.log (Fl.of x)).val) else B64.of (PyMath.log (.fin x)) | x => B64.of (PyMath.log x)) = _
    rw [ha.1]
    simp only [if_pos h0]
    rw [show Fl.of x.val = x from Fl.ext' x.isFloat]
  rw [e]
  exact of_fl h hg hk

theorem root5 (ha : Same g k a x) (h0 : 0 < x.val) (h : Rng g' k' (LibM.root5 x).val) (hg : g' ≤ 1022) (hk : k' ≤ 1023) : Same g' k' (PyMath.root5 a) (PyMath.root5 x) := by
  have e : (PyMath.root5 a : B64) = B64.of (.fin (LibM.root5 x).val) := by
    show (match a.v with | .fin x => if 0 < x then B64.of (.fin (LibM.root5 (Fl.of x)).val) else B64.of (PyMath.root5 (.fin x)) | x => B64.of (PyMath.root5 x)) = _
    rw [ha.1]
    simp only [if_pos h0]
    rw [show Fl.of x.val = x from Fl.ext' x.isFloat]
  rw [e]
  exact of_fl h hg hk

theorem fmax (ha : Same g k a x) (hb : Same g k b y) (hg : g ≤ 1022) (hk : k ≤ 1023) : Same g k (PyMath.fmax a b) (PyMath.fmax x y) := by
  have hm : Rng g k (max x.val y.val) := by rcases max_choice x.val y.val with h | h <;> rw [h]; exacts [ha.2, hb.2]
  have e : (PyMath.fmax x y : Fl).val = max x.val y.val := by
    show (if x < y then y else x).val = _
    split_ifs with h
    · exact (max_eq_right (le_of_lt h)).symm
    · exact (max_eq_left (not_lt.mp h)).symm
  have hr : round53 (max x.val y.val) = max x.val y.val := by rw [← e]; exact (PyMath.fmax x y : Fl).isFloat
  refine ⟨?_, by rw [e]; exact hm⟩
  rw [e]
  show toBinary64 (PyMath.fmax a.v b.v) = _
  rw [ha.1, hb.1]
  show toBinary64 (.fin (max x.val y.val)) = _
  rw [hm.toB hg hk, hr]

end Same
end Oneka
