import Verif.Py.RoundMath
import Verif.Py.Ext

/-!
# Binary64 numbers

The Python `float` and `np.float64` with their limited range: numbers below `2^-1022` in size have fewer digits (multiples of `2^-1074`), numbers that round to `2^1024` or more become infinite, and infinities and NaN follow the
rules of `XR`. Simplification: zeros have no sign. (No code in /repo: this is the arithmetic the code runs on.)
-/

namespace Oneka

/-- Rounding to nearest, ties to even, to a binary64 number, as long as it is not too large. -/
noncomputable def round64 (x : ℝ) : ℝ := if |x| < 2 ^ (-1022 : ℤ) then roundEven (x / 2 ^ (-1074 : ℤ)) * 2 ^ (-1074 : ℤ) else round53 x

/-- Rounding to binary64. -/
noncomputable def toBinary64 : XR → XR
  | .fin x => if |round64 x| < 2 ^ (1024 : ℤ) then .fin (round64 x) else if 0 < x then .pinf else .ninf
  | x => x

theorem round64_idem (x : ℝ) : round64 (round64 x) = round64 x := by
  have p : (0:ℝ) < 2 ^ (-1074 : ℤ) := by positivity
  by_cases h : |x| < 2 ^ (-1022 : ℤ)
  · have e : round64 x = roundEven (x / 2 ^ (-1074 : ℤ)) * 2 ^ (-1074 : ℤ) := if_pos h
    rw [e]
    set n := roundEven (x / 2 ^ (-1074 : ℤ)) with hn
    unfold round64
    split_ifs with h'
    · rw [mul_div_cancel_right₀ _ p.ne', roundEven_int]
    · refine round53_exact n (-1074) ?_
      have hb : |x / 2 ^ (-1074 : ℤ)| ≤ 2 ^ 52 := by
        rw [abs_div, abs_of_pos p, div_le_iff₀ p]
        refine h.le.trans_eq ?_
        rw [← zpow_natCast, ← zpow_add₀ (by norm_num : (2:ℝ) ≠ 0)]
        norm_num
      obtain ⟨h1, h2⟩ := abs_le.mp hb
      have m1 := roundEven_mono h1
      have m2 := roundEven_mono h2
      have c1 : roundEven (-2 ^ 52) = -2 ^ 52 := by rw [← roundEven_int (-2 ^ 52)]; congr 1; norm_num
      have c2 : roundEven (2 ^ 52) = 2 ^ 52 := by rw [← roundEven_int (2 ^ 52)]; congr 1; norm_num
      rw [abs_le]
      constructor <;> omega
  · have e : round64 x = round53 x := if_neg h
    rw [e]
    have h' : ¬ |round53 x| < 2 ^ (-1022 : ℤ) := by
      rw [not_lt] at h ⊢
      rcases abs_cases x with ⟨hx, -⟩ | ⟨hx, -⟩
      · rw [hx] at h
        have := round53_mono h
        rw [round53_zpow] at this
        exact this.trans (le_abs_self _)
      · rw [hx] at h
        have := round53_mono h
        rw [round53_zpow, round53_neg] at this
        exact this.trans (neg_le_abs _)
    unfold round64
    rw [if_neg h', round53_idem]

theorem toBinary64_idem (x : XR) : toBinary64 (toBinary64 x) = toBinary64 x := by
  cases x with
  | fin x =>
    simp only [toBinary64]
    split_ifs with h1 h2
    · simp only [round64_idem, if_pos h1]
    · rfl
    · rfl
  | _ => rfl

/-- A binary64 number. -/
structure B64 where
  v : XR
  isFloat : toBinary64 v = v

namespace B64

/-- The result of an operation: the exact result rounded. -/
noncomputable def of (x : XR) : B64 := ⟨toBinary64 x, toBinary64_idem x⟩

noncomputable instance : Zero B64 := ⟨of (.fin 0)⟩
noncomputable instance : Add B64 := ⟨fun a b => of (a.v + b.v)⟩
noncomputable instance : Sub B64 := ⟨fun a b => of (a.v - b.v)⟩
noncomputable instance : Mul B64 := ⟨fun a b => of (a.v * b.v)⟩
noncomputable instance : Div B64 := ⟨fun a b => of (a.v / b.v)⟩
noncomputable instance : Neg B64 := ⟨fun a => of (-a.v)⟩
noncomputable instance : NatCast B64 := ⟨fun n => of (.fin n)⟩
noncomputable instance : IntCast B64 := ⟨fun n => of (.fin n)⟩
instance : LT B64 := ⟨fun a b => a.v < b.v⟩
instance : LE B64 := ⟨fun a b => a.v ≤ b.v⟩
noncomputable instance : DecidableLT B64 := fun a b => inferInstanceAs (Decidable (a.v < b.v))
noncomputable instance : DecidableLE B64 := fun a b => inferInstanceAs (Decidable (a.v ≤ b.v))
open Classical in
noncomputable instance : DecidableEq B64 := inferInstance

/-- `math.floor` and `math.ceil`. Simplification: they raise for inf and NaN, here the result is 0; it is shown where this matters that it does not happen. -/
noncomputable instance : PyFloor B64 where
  floor a := match a.v with
    | .fin x => ⌊x⌋
    | _ => 0
  ceil a := match a.v with
    | .fin x => ⌈x⌉
    | _ => 0

/-- `abs`, `sign`, `sqrt` and `maximum` are those of IEEE 754. The functions of the C library are given by what they do on numbers with 53 digits (`LibM`: arbitrary functions), the result brought into the range; for infinities and
NaN, and for numbers that have no logarithm or root, they follow `XR`. -/
noncomputable instance [LibM] : PyMath B64 where
  q r := of (.fin r)
  abs a := of (PyMath.abs a.v)
  sign a := of (PyMath.sign a.v)
  sqrt a := of (PyMath.sqrt a.v)
  log a := match a.v with
    | .fin x => if 0 < x then of (.fin (LibM.log (Fl.of x)).val) else of (PyMath.log (.fin x))
    | x => of (PyMath.log x)
  root5 a := match a.v with
    | .fin x => if 0 < x then of (.fin (LibM.root5 (Fl.of x)).val) else of (PyMath.root5 (.fin x))
    | x => of (PyMath.root5 x)
  fmax a b := of (PyMath.fmax a.v b.v)
  pi := of (.fin LibM.pi.val)
  cos a := match a.v with
    | .fin x => of (.fin (LibM.cos (Fl.of x)).val)
    | _ => of .nan
  sin a := match a.v with
    | .fin x => of (.fin (LibM.sin (Fl.of x)).val)
    | _ => of .nan

end B64
end Oneka
