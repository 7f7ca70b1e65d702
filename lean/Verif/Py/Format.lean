import Mathlib.Data.Int.Log
import Verif.Py.Round

/-!
# Number formatting

What `str.format` makes of a number, for the format specifications that the code uses. A text is a list of characters. (No code in /repo: this is
`float.__format__` and `int.__format__` of CPython, which round the exact value of the number to the printed digits, to nearest, ties to even.)
Simplification: the number zero has no sign (Python prints `-0.00` for the float `-0.0`).
-/

namespace Oneka

/-- the decimal digits of `n`, with leading zeros, as many as the first argument says (oneka/archive.py:56, oneka/utilities.py:134) -/
def padded : ℕ → ℕ → List Char
  | 0, _ => []
  | k + 1, n => padded k (n / 10) ++ [Nat.digitChar (n % 10)]

/-- `'{:d}'`: the decimal digits of `n`, without leading zeros (oneka/oneka.py:344-351) -/
def natDigits (n : ℕ) : List Char := padded (Nat.log 10 n + 1) n

/-- `'{:d}'` of an integer (oneka/oneka.py:344-351) -/
def intDigits (n : ℤ) : List Char := (if n < 0 then ['-'] else []) ++ natDigits n.natAbs

/-- the sign; `plus`: the format has a `+` (oneka/stochastic.py:247-250) -/
noncomputable def signChars (plus : Bool) (x : ℝ) : List Char := if x < 0 then ['-'] else if plus then ['+'] else []

/-- `n / 10^k` with `k` decimals (oneka/oneka.py:346) -/
def fixedDigits (k n : ℕ) : List Char := natDigits (n / 10 ^ k) ++ if k = 0 then [] else '.' :: padded k n

/-- a comma before every group of three digits but the first (oneka/oneka.py:286) -/
def grouped : List Char → List Char
  | [] => []
  | c :: l => if l ≠ [] ∧ l.length % 3 = 0 then c :: ',' :: grouped l else c :: grouped l

/-- `n / 10^k` with `k` decimals, thousands separated by commas (oneka/oneka.py:286) -/
def commaDigits (k n : ℕ) : List Char := grouped (natDigits (n / 10 ^ k)) ++ if k = 0 then [] else '.' :: padded k n

/-- `|x| * 10^k`, rounded to an integer (oneka/oneka.py:346) -/
noncomputable def scaled (k : ℕ) (x : ℝ) : ℕ := (roundEven (|x| * 10 ^ k)).toNat

/-- `'{:.kf}'` (oneka/oneka.py:346, 353-363) -/
noncomputable def fixed (k : ℕ) (x : ℝ) : List Char := signChars false x ++ fixedDigits k (scaled k x)

/-- `'{:,.kf}'` (oneka/oneka.py:286) -/
noncomputable def commaFixed (k : ℕ) (x : ℝ) : List Char := signChars false x ++ commaDigits k (scaled k x)

/-- the exponent: a sign and at least two digits (oneka/stochastic.py:245-250) -/
def exponentChars (e : ℤ) : List Char :=
  'e' :: (if e < 0 then '-' else '+') :: padded (max 2 (Nat.log 10 e.natAbs + 1)) e.natAbs

/-- the exponent and the digits (as an integer) of `'{:.ke}'` (oneka/stochastic.py:245-250) -/
noncomputable def sciParts (k : ℕ) (x : ℝ) : ℤ × ℕ :=
  let e := Int.log 10 |x|
  let n := (roundEven (|x| * (10:ℝ) ^ ((k : ℤ) - e))).toNat
  if n < 10 ^ (k + 1) then (e, n) else (e + 1, 10 ^ k)

/-- `'{:.ke}'`, with `plus` `'{:+.ke}'` (oneka/stochastic.py:245-250, oneka/deterministic.py:209-218) -/
noncomputable def sci (plus : Bool) (k : ℕ) (x : ℝ) : List Char :=
  signChars plus x ++ fixedDigits k (sciParts k x).2 ++ exponentChars (sciParts k x).1

/-- right-aligned in `w` columns (oneka/oneka.py:286, oneka/utilities.py:214-250) -/
def padLeft (w : ℕ) (s : List Char) : List Char := List.replicate (w - s.length) ' ' ++ s

/-- `'{:^ws}'`: centred in `w` columns (oneka/utilities.py:205) -/
def centred (w : ℕ) (s : List Char) : List Char :=
  List.replicate ((w - s.length) / 2) ' ' ++ s ++ List.replicate (w - s.length - (w - s.length) / 2) ' '

end Oneka
