import Verif.Py.Num

/-!
# Reals with inf and NaN

IEEE-754 absorption and comparison rules, without rounding, overflow or signed zeros (`x / 0 = ±inf` by the sign of
`x`, as for `+0.0`).
-/

namespace Oneka

/-- A float: a finite number, an infinity or NaN. -/
inductive XR
  | fin (r : ℝ)
  | pinf
  | ninf
  | nan

namespace XR

/-- finite -/
def IsFin : XR → Prop
  | fin _ => True
  | _ => False

/-- `-x` -/
noncomputable def neg : XR → XR
  | fin r => fin (-r)
  | pinf => ninf
  | ninf => pinf
  | nan => nan

/-- `x + y` -/
noncomputable def add : XR → XR → XR
  | fin a, fin b => fin (a + b)
  | nan, _ => nan
  | _, nan => nan
  | pinf, ninf => nan
  | ninf, pinf => nan
  | pinf, _ => pinf
  | _, pinf => pinf
  | ninf, _ => ninf
  | _, ninf => ninf

/-- `±inf` by the sign of `s`; NaN for `s = 0` -/
noncomputable def infOf (s : ℝ) : XR := if 0 < s then pinf else if s < 0 then ninf else nan

/-- `x * y` -/
noncomputable def mul : XR → XR → XR
  | fin a, fin b => fin (a * b)
  | nan, _ => nan
  | _, nan => nan
  | pinf, fin b => infOf b
  | fin a, pinf => infOf a
  | ninf, fin b => infOf (-b)
  | fin a, ninf => infOf (-a)
  | pinf, pinf => pinf
  | ninf, ninf => pinf
  | pinf, ninf => ninf
  | ninf, pinf => ninf

/-- `x / y` -/
noncomputable def div : XR → XR → XR
  | fin a, fin b => if b = 0 then infOf a else fin (a / b)
  | nan, _ => nan
  | _, nan => nan
  | fin _, _ => fin 0
  | pinf, fin b => if b < 0 then ninf else pinf
  | ninf, fin b => if b < 0 then pinf else ninf
  | _, _ => nan

/-- `x < y` -/
def lt : XR → XR → Prop
  | fin a, fin b => a < b
  | ninf, fin _ => True
  | fin _, pinf => True
  | ninf, pinf => True
  | _, _ => False

/-- `x <= y` -/
def le : XR → XR → Prop
  | fin a, fin b => a ≤ b
  | nan, _ => False
  | _, nan => False
  | ninf, _ => True
  | _, pinf => True
  | _, _ => False

noncomputable instance : Add XR := ⟨add⟩
noncomputable instance : Sub XR := ⟨fun x y => add x (neg y)⟩
noncomputable instance : Mul XR := ⟨mul⟩
noncomputable instance : Div XR := ⟨div⟩
noncomputable instance : Neg XR := ⟨neg⟩
instance : LT XR := ⟨lt⟩
instance : LE XR := ⟨le⟩
noncomputable instance : DecidableLT XR := fun _ _ => Classical.propDecidable _
noncomputable instance : DecidableLE XR := fun _ _ => Classical.propDecidable _

noncomputable instance : PyMath XR where
  q r := fin (r : ℝ)
  abs
    | fin a => fin |a|
    | nan => nan
    | _ => pinf
  sign
    | fin a => fin (Real.sign a)
    | pinf => fin 1
    | ninf => fin (-1)
    | nan => nan
  sqrt
    | fin a => if a < 0 then nan else fin (Real.sqrt a)
    | pinf => pinf
    | _ => nan
  log
    | fin a => if a < 0 then nan else if a = 0 then ninf else fin (Real.log a)
    | pinf => pinf
    | _ => nan
  root5
    | fin a => if a < 0 then nan else fin (a ^ ((1 : ℝ) / 5))
    | nan => nan
    | _ => pinf
  fmax
    | nan, _ => nan
    | _, nan => nan
    | fin a, fin b => fin (max a b)
    | pinf, _ => pinf
    | _, pinf => pinf
    | ninf, y => y
    | x, ninf => x
  pi := fin Real.pi
  cos
    | fin a => fin (Real.cos a)
    | _ => nan
  sin
    | fin a => fin (Real.sin a)
    | _ => nan

@[simp] theorem fin_add (a b : ℝ) : fin a + fin b = fin (a + b) := rfl
@[simp] theorem fin_sub (a b : ℝ) : fin a - fin b = fin (a - b) := by
  show fin (a + -b) = fin (a - b); rw [sub_eq_add_neg]
@[simp] theorem fin_mul (a b : ℝ) : fin a * fin b = fin (a * b) := rfl
@[simp] theorem fin_neg (a : ℝ) : -fin a = fin (-a) := rfl
@[simp] theorem fin_lt (a b : ℝ) : fin a < fin b ↔ a < b := Iff.rfl
@[simp] theorem fin_le (a b : ℝ) : fin a ≤ fin b ↔ a ≤ b := Iff.rfl
theorem fin_div (a b : ℝ) (h : b ≠ 0) : fin a / fin b = fin (a / b) := if_neg h
@[simp] theorem nan_add (x : XR) : nan + x = nan := by cases x <;> rfl
@[simp] theorem add_nan (x : XR) : x + nan = nan := by cases x <;> rfl
@[simp] theorem nan_sub (x : XR) : nan - x = nan := by cases x <;> rfl
@[simp] theorem sub_nan (x : XR) : x - nan = nan := by cases x <;> rfl
@[simp] theorem nan_mul (x : XR) : nan * x = nan := by cases x <;> rfl
@[simp] theorem mul_nan (x : XR) : x * nan = nan := by cases x <;> rfl
@[simp] theorem nan_div (x : XR) : nan / x = nan := by cases x <;> rfl
@[simp] theorem div_nan (x : XR) : x / nan = nan := by cases x <;> rfl
@[simp] theorem neg_nan : -nan = nan := rfl
@[simp] theorem not_nan_lt (x : XR) : ¬ nan < x := by cases x <;> exact fun h => h
@[simp] theorem not_lt_nan (x : XR) : ¬ x < nan := by cases x <;> exact fun h => h
@[simp] theorem not_nan_le (x : XR) : ¬ nan ≤ x := by cases x <;> exact fun h => h
@[simp] theorem not_le_nan (x : XR) : ¬ x ≤ nan := by cases x <;> exact fun h => h

end XR
end Oneka
