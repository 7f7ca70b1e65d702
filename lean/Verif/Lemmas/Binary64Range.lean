import Verif.Lemmas.Binary64Aquifer
import Verif.Props.RoundingAquifer

/-! # Examples of models of ordinary sizes, and of points where they overflow or underflow (C116) -/

namespace Oneka
open Aquifer

theorem Fl.Ordinary.of_val {x : Fl} {r : ℝ} (h : x.val = r) (h1 : 2 ^ (-40 : ℤ) ≤ |r|) (h2 : |r| ≤ 2 ^ (40 : ℤ)) : x.Ordinary := Or.inr (h ▸ ⟨h1, h2⟩)

theorem Fl.Ordinary.zero : (0 : Fl).Ordinary := Or.inl Fl.zero_val

theorem mixed_ordinary : mixed.Ordinary := by
  have h1 := of_nat (n := 1) (by norm_num)
  have h2 := of_nat (n := 100) (by norm_num)
  have h3 := of_nat (n := 600) (by norm_num)
  have h4 := of_nat (n := 1000) (by norm_num)
  have h5 := of_pow (k := -2)
  have h6 := of_pow (k := -1)
  refine ⟨⟨.of_val h1 (by norm_num) (by norm_num), ?_⟩, ⟨.of_val h5 (by norm_num) (by norm_num), ?_⟩, ⟨.of_val h2 (by norm_num) (by norm_num), ?_⟩, .zero, .zero, fun i => ?_, fun w hw => ?_, by simp [mixed]⟩
  · change 0 < (Fl.of (1:ℕ)).val; rw [h1]; norm_num
  · change 0 < (Fl.of (2 ^ (-2:ℤ))).val; rw [h5]; norm_num
  · change 0 < (Fl.of (100:ℕ)).val; rw [h2]; norm_num
  · simp only [mixed]
    split_ifs
    · exact .of_val h6 (by norm_num) (by norm_num)
    · exact .of_val h4 (by norm_num) (by norm_num)
    · exact .zero
  · simp only [mixed, List.mem_singleton] at hw
    subst hw
    exact ⟨.zero, .zero, .of_val h3 (by norm_num) (by norm_num)⟩

/-- A potential that increases quadratically to the east, without wells. -/
noncomputable def bowl : Aquifer Fl :=
  ⟨0, Fl.of (1 : ℕ), Fl.of (1 : ℕ), Fl.of (1 : ℕ), [], 0, 0, fun i => if i = 0 then Fl.of (1 : ℕ) else 0⟩

theorem bowl_ordinary : bowl.Ordinary := by
  have h1 := of_nat (n := 1) (by norm_num)
  have p : 0 < (Fl.of (1:ℕ)).val := by rw [h1]; norm_num
  have o : (Fl.of (1:ℕ)).Ordinary := .of_val h1 (by norm_num) (by norm_num)
  refine ⟨⟨o, p⟩, ⟨o, p⟩, ⟨o, p⟩, .zero, .zero, fun i => ?_, fun w hw => by simp [bowl] at hw, by simp [bowl]⟩
  simp only [bowl]
  split_ifs
  · exact o
  · exact .zero

theorem B64.add_v (a b : B64) : (a + b).v = toBinary64 (a.v + b.v) := rfl
theorem B64.sub_v (a b : B64) : (a - b).v = toBinary64 (a.v - b.v) := rfl
theorem B64.mul_v (a b : B64) : (a * b).v = toBinary64 (a.v * b.v) := rfl
theorem B64.div_v (a b : B64) : (a / b).v = toBinary64 (a.v / b.v) := rfl
theorem B64.neg_v (a : B64) : (-a).v = toBinary64 (-a.v) := rfl

theorem to64_v {x : Fl} {r : ℝ} (h : x.val = r) (h0 : r = 0 ∨ 2 ^ (-1022 : ℤ) ≤ |r|) (h1 : |r| ≤ 2 ^ (1023 : ℤ)) : x.to64.v = .fin r := by
  have := toBinary64_eq h0 h1
  have e : x.to64.v = toBinary64 (.fin x.val) := rfl
  rw [e, h, this, ← h]
  have : round53 x.val = x.val := x.isFloat
  rw [this]

theorem zero64 : (0 : Fl).to64.v = .fin 0 := to64_v Fl.zero_val (Or.inl rfl) (by rw [abs_zero]; positivity)

theorem toBinary64_zero : toBinary64 (.fin 0) = .fin 0 := by
  rw [toBinary64_eq (Or.inl rfl) (by rw [abs_zero]; positivity), round53_zero]

theorem toBinary64_zpow (k : ℤ) (h : -1022 ≤ k) (h' : k ≤ 1023) : toBinary64 (.fin (2 ^ k)) = .fin (2 ^ k) := by
  rw [toBinary64_eq (Or.inr (by rw [abs_of_pos (two_zpow_pos k)]; exact two_zpow_le h)) (by rw [abs_of_pos (two_zpow_pos k)]; exact two_zpow_le h'), round53_zpow]

theorem toBinary64_huge (k : ℤ) (h : 1024 ≤ k) : toBinary64 (.fin (2 ^ k)) = .pinf := by
  have e : round64 (2 ^ k) = 2 ^ k := by
    unfold round64
    rw [if_neg (by rw [abs_of_pos (two_zpow_pos k), not_lt]; exact two_zpow_le (by omega)), round53_zpow]
  simp only [toBinary64, e]
  rw [if_neg (by rw [abs_of_pos (two_zpow_pos k), not_lt]; exact two_zpow_le h), if_pos (two_zpow_pos k)]

theorem toBinary64_tiny (k : ℤ) (h : k ≤ -1076) : toBinary64 (.fin (2 ^ k)) = .fin 0 := by
  have e : round64 (2 ^ k) = 0 := by
    unfold round64
    rw [if_pos (by rw [abs_of_pos (two_zpow_pos k)]; exact zpow_lt_zpow_right₀ (by norm_num) (by omega)), ← zpow_sub₀ (by norm_num)]
    have : roundEven ((2:ℝ) ^ (k - -1074)) = 0 := by
      have h0 : (0:ℝ) < 2 ^ (k - -1074) := two_zpow_pos _
      have h1 : (2:ℝ) ^ (k - -1074) ≤ 2 ^ (-2 : ℤ) := two_zpow_le (by omega)
      have h2 : (2:ℝ) ^ (-2 : ℤ) = 1/4 := by norm_num
      rw [h2] at h1
      have := roundEven_near ((2:ℝ) ^ (k - -1074))
      rw [abs_le] at this
      have a1 : ((roundEven ((2:ℝ) ^ (k - -1074)) : ℤ) : ℝ) < 1 := by linarith
      have a2 : (-1 : ℝ) < ((roundEven ((2:ℝ) ^ (k - -1074)) : ℤ) : ℝ) := by linarith
      have b1 : roundEven ((2:ℝ) ^ (k - -1074)) < 1 := by exact_mod_cast a1
      have b2 : -1 < roundEven ((2:ℝ) ^ (k - -1074)) := by exact_mod_cast a2
      omega
    rw [this]
    simp
  simp only [toBinary64, e]
  rw [if_pos (by rw [abs_zero]; positivity)]

theorem far64 : (Fl.of ((2:ℝ) ^ (600:ℤ))).to64.v = .fin (2 ^ (600:ℤ)) :=
  to64_v of_pow (Or.inr (by rw [abs_of_pos (two_zpow_pos _)]; exact two_zpow_le (by norm_num))) (by rw [abs_of_pos (two_zpow_pos _)]; exact two_zpow_le (by norm_num))

theorem near64 : (Fl.of ((2:ℝ) ^ (-600:ℤ))).to64.v = .fin (2 ^ (-600:ℤ)) :=
  to64_v of_pow (Or.inr (by rw [abs_of_pos (two_zpow_pos _)]; exact two_zpow_le (by norm_num))) (by rw [abs_of_pos (two_zpow_pos _)]; exact two_zpow_le (by norm_num))

theorem one64 : (Fl.of (1:ℕ)).to64.v = .fin 1 := by
  refine to64_v (r := 1) (by rw [of_nat (by norm_num)]; norm_num) (Or.inr ?_) ?_
  · rw [abs_one, ← zpow_zero (2:ℝ)]; exact two_zpow_le (by norm_num)
  · rw [abs_one, ← zpow_zero (2:ℝ)]; exact two_zpow_le (by norm_num)

theorem sixHundred64 : (Fl.of (600:ℕ)).to64.v = .fin 600 := by
  refine to64_v (r := 600) (by rw [of_nat (by norm_num)]; norm_num) (Or.inr ?_) ?_
  · refine (two_zpow_le (by norm_num : (-1022:ℤ) ≤ 0)).trans ?_; norm_num
  · refine le_trans ?_ (two_zpow_le (by norm_num : (10:ℤ) ≤ 1023)); norm_num

theorem xfin_add (a b : ℝ) : (XR.fin a) + (XR.fin b) = .fin (a + b) := rfl
theorem xfin_sub (a b : ℝ) : (XR.fin a) - (XR.fin b) = .fin (a - b) := by rw [sub_eq_add_neg]; rfl
theorem xfin_mul (a b : ℝ) : (XR.fin a) * (XR.fin b) = .fin (a * b) := rfl
theorem xinf_mul_pos {a : ℝ} (h : 0 < a) : (XR.fin a) * .pinf = .pinf := if_pos h
theorem xinf_add (a : ℝ) : XR.pinf + (XR.fin a) = .pinf := rfl

theorem bowl_overflow : (let := nearestLib; (bowl.to64.potential (Fl.of (2 ^ (600 : ℤ))).to64 (0 : Fl).to64).v) = .pinf := by
  let := nearestLib
  have dx : ((Fl.of ((2:ℝ) ^ (600:ℤ))).to64 - (0:Fl).to64).v = .fin (2 ^ (600:ℤ)) := by
    rw [B64.sub_v, far64, zero64, xfin_sub, sub_zero, toBinary64_zpow _ (by norm_num) (by norm_num)]
  have dy : ((0:Fl).to64 - (0:Fl).to64).v = .fin 0 := by rw [B64.sub_v, zero64, xfin_sub, sub_zero, toBinary64_zero]
  have w : (bowl.to64.potentialWells (Fl.of (2 ^ (600 : ℤ))).to64 (0 : Fl).to64).v = .fin 0 := by
    have : (bowl.to64.potentialWells (Fl.of (2 ^ (600 : ℤ))).to64 (0 : Fl).to64).v = toBinary64 (.fin ((0:ℚ):ℝ)) := rfl
    rw [this, Rat.cast_zero, toBinary64_zero]
  have c0 : (bowl.to64.coef 0).v = .fin 1 := one64
  have c : ∀ i : Fin 6, i ≠ 0 → (bowl.to64.coef i).v = .fin 0 := by
    intro i hi
    have : bowl.to64.coef i = (0:Fl).to64 := by simp [Aquifer.to64, bowl, hi]
    rw [this, zero64]
  change (bowl.to64.potential (Fl.of (2 ^ (600 : ℤ))).to64 (0 : Fl).to64).v = .pinf
  unfold potential
  have xo : bowl.to64.xo = (0:Fl).to64 := rfl
  have yo : bowl.to64.yo = (0:Fl).to64 := rfl
  have e : (2:ℝ) ^ (600:ℤ) * 2 ^ (600:ℤ) = 2 ^ (1200:ℤ) := by rw [← two_zpow_add]; norm_num
  have t : ∀ a : ℝ, toBinary64 .pinf = .pinf := fun _ => rfl
  simp only [xo, yo, B64.add_v, B64.mul_v, dx, dy, w, c0, c 1 (by decide), c 2 (by decide), c 3 (by decide), c 4 (by decide), c 5 (by decide), xfin_mul, e, toBinary64_huge 1200 (by norm_num), mul_zero, zero_mul,
    toBinary64_zero, xinf_mul_pos one_pos, t 0, xinf_add]

theorem mixed_underflow : (let := nearestLib; (mixed.to64.discharge (Fl.of (2 ^ (-600 : ℤ))).to64 (0 : Fl).to64).1.v) = .ninf := by
  let := nearestLib
  have dx : ((Fl.of ((2:ℝ) ^ (-600:ℤ))).to64 - (0:Fl).to64).v = .fin (2 ^ (-600:ℤ)) := by
    rw [B64.sub_v, near64, zero64, xfin_sub, sub_zero, toBinary64_zpow _ (by norm_num) (by norm_num)]
  have dy : ((0:Fl).to64 - (0:Fl).to64).v = .fin 0 := by rw [B64.sub_v, zero64, xfin_sub, sub_zero, toBinary64_zero]
  have e : (2:ℝ) ^ (-600:ℤ) * 2 ^ (-600:ℤ) = 2 ^ (-1200:ℤ) := by rw [← two_zpow_add]; norm_num
  have r2 : (((Fl.of ((2:ℝ) ^ (-600:ℤ))).to64 - (0:Fl).to64) * ((Fl.of ((2:ℝ) ^ (-600:ℤ))).to64 - (0:Fl).to64) + ((0:Fl).to64 - (0:Fl).to64) * ((0:Fl).to64 - (0:Fl).to64) : B64).v = .fin 0 := by
    simp only [B64.add_v, B64.mul_v, dx, dy, xfin_mul, e, toBinary64_tiny (-1200) (by norm_num), mul_zero, toBinary64_zero, xfin_add, add_zero]
  have s1 : Same 92 40 (Fl.of (600:ℕ)).to64 (Fl.of (600:ℕ)) := (Fl.Ordinary.of_val (of_nat (n := 600) (by norm_num)) (by norm_num) (by norm_num)).same
  have s2 : Same 652 40 ((Fl.of ((2:ℝ) ^ (-600:ℤ))).to64 - (0:Fl).to64) (Fl.of ((2:ℝ) ^ (-600:ℤ))) := by
    refine ⟨by rw [dx, of_pow], ⟨2 ^ 52, ?_⟩, ?_⟩
    · rw [of_pow, show ((2 ^ 52 : ℤ) : ℝ) = 2 ^ (52 : ℤ) by norm_num, ← two_zpow_add]
      norm_num
    · rw [of_pow, abs_of_pos (two_zpow_pos _)]; exact two_zpow_le (by norm_num)
  have s3 := (s1.neg (by norm_num) (by norm_num)).mul s2 (by norm_num) (by norm_num)
  have neg : ((-Fl.of (600:ℕ)) * Fl.of ((2:ℝ) ^ (-600:ℤ))).val < 0 := by
    have a : (-Fl.of (600:ℕ)).val = -600 := by
      change -(Fl.of (600:ℕ)).val = _
      rw [of_nat (by norm_num)]; norm_num
    change round53 _ < 0
    rw [a, of_pow]
    have := round53_pos (x := 600 * 2 ^ (-600:ℤ)) (by positivity)
    rw [neg_mul, round53_neg]
    linarith
  have div : ((-(Fl.of (600:ℕ)).to64) * ((Fl.of ((2:ℝ) ^ (-600:ℤ))).to64 - (0:Fl).to64) /
      (((Fl.of ((2:ℝ) ^ (-600:ℤ))).to64 - (0:Fl).to64) * ((Fl.of ((2:ℝ) ^ (-600:ℤ))).to64 - (0:Fl).to64) + ((0:Fl).to64 - (0:Fl).to64) * ((0:Fl).to64 - (0:Fl).to64)) : B64).v = .ninf := by
    rw [B64.div_v, r2, s3.1]
    have : (XR.fin ((-Fl.of (600:ℕ)) * Fl.of ((2:ℝ) ^ (-600:ℤ))).val) / (XR.fin 0) = .ninf := by
      change (if (0:ℝ) = 0 then XR.infOf _ else _) = _
      rw [if_pos rfl]
      unfold XR.infOf
      rw [if_neg (not_lt.mpr neg.le), if_pos neg]
    rw [this]
    rfl
  have tp : (PyMath.q twoPiInv : B64).v = .fin (PyMath.q twoPiInv : Fl).val := q_twoPiInv.1
  have tpos : 0 < (PyMath.q twoPiInv : Fl).val := round53_pos (by unfold twoPiInv; norm_num)
  change (mixed.to64.discharge (Fl.of (2 ^ (-600 : ℤ))).to64 (0 : Fl).to64).1.v = .ninf
  unfold discharge
  have xo : mixed.to64.xo = (0:Fl).to64 := rfl
  have yo : mixed.to64.yo = (0:Fl).to64 := rfl
  have ws : mixed.to64.wells = [⟨(0:Fl).to64, (0:Fl).to64, (Fl.of (1:ℕ)).to64, (Fl.of (600:ℕ)).to64⟩] := rfl
  simp only [ws, List.foldl_cons, List.foldl_nil]
  have s4 : Same 92 40 ((0:Fl).to64 - (0:Fl).to64) (0:Fl) := ⟨by rw [dy, Fl.zero_val], by rw [Fl.zero_val]; exact Rng.zero _ _⟩
  have s5 := ((q_two.mul (mixed_ordinary.coef 0).same (by norm_num) (by norm_num)).mul s2 (by norm_num) (by norm_num)).mono (g' := 900) (k' := 200) (by norm_num) (by norm_num)
  have s6 := ((mixed_ordinary.coef 2).same.mul s4 (by norm_num) (by norm_num)).mono (g' := 900) (k' := 200) (by norm_num) (by norm_num)
  have s7 := ((s5.add s6 (by norm_num) (by norm_num)).add ((mixed_ordinary.coef 3).same.mono (by norm_num) (by norm_num)) (by norm_num) (by norm_num)).neg (by norm_num) (by norm_num)
  have key : (-(PyMath.q 2 * mixed.to64.coef 0 * ((Fl.of ((2:ℝ) ^ (-600:ℤ))).to64 - (0:Fl).to64) + mixed.to64.coef 2 * ((0:Fl).to64 - (0:Fl).to64) + mixed.to64.coef 3) : B64).v = _ := s7.1
  have inf : XR.ninf * XR.fin (PyMath.q twoPiInv : Fl).val = .ninf := by
    change XR.infOf _ = _
    unfold XR.infOf
    rw [if_neg (by linarith), if_pos (by linarith)]
  rw [B64.add_v, B64.mul_v, div, tp, inf, xo, yo, key]
  rfl

end Oneka
