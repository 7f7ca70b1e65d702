import Mathlib.Data.Real.Basic

/-!
# Reading a printed number

How a person (or a program that reads the log) understands the text of a number: blanks in front and commas are skipped; then come an optional sign, digits,
an optional decimal point with digits, and an optional exponent.
-/

namespace Oneka

/-- Digits, at least one. -/
def readNat (s : List Char) : Option ℕ :=
  if s ≠ [] ∧ s.all Char.isDigit then some (s.foldl (fun n c => 10 * n + (c.toNat - 48)) 0) else none

/-- Digits, optionally with a decimal point between them. -/
noncomputable def readPlain (s : List Char) : Option ℝ :=
  match s.dropWhile (· != '.') with
  | [] => (readNat s).map (fun n => (n : ℝ))
  | _ :: decimals =>
    match readNat (s.takeWhile (· != '.')), readNat decimals with
    | some a, some b => some (a + b / 10 ^ decimals.length)
    | _, _ => none

/-- An integer with an optional sign. -/
def readInt : List Char → Option ℤ
  | '-' :: s => (readNat s).map fun n => -(n : ℤ)
  | '+' :: s => (readNat s).map fun n => (n : ℤ)
  | s => (readNat s).map fun n => (n : ℤ)

/-- A number without sign, optionally with an exponent. -/
noncomputable def readUnsigned (s : List Char) : Option ℝ :=
  match s.dropWhile (· != 'e') with
  | [] => readPlain s
  | _ :: exponent =>
    match readPlain (s.takeWhile (· != 'e')), readInt exponent with
    | some m, some e => some (m * (10:ℝ) ^ e)
    | _, _ => none

/-- A number. -/
noncomputable def readSigned : List Char → Option ℝ
  | '-' :: s => (readUnsigned s).map fun x => -x
  | '+' :: s => readUnsigned s
  | s => readUnsigned s

/-- The number that a text shows. -/
noncomputable def readNumber (s : List Char) : Option ℝ := readSigned ((s.dropWhile (· == ' ')).filter (· != ','))

end Oneka
