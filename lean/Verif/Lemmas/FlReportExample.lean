import Verif.Lemmas.FlReport

/-! # A field with two realizations, for the examples beside C102 and C103 -/

namespace Oneka

open PField

/-- A floating-point number given by an integer. -/
noncomputable def fi (n : ℤ) : Fl := Fl.of n

theorem fi_val (n : ℤ) (h : |n| ≤ 2 ^ 53 := by norm_num) : (fi n).val = n := by
  have := round53_exact n 0 h
  simpa [fi, Fl.of] using this

theorem fi_add (a b c : ℤ) (h : a + b = c := by norm_num) (h1 : |a| ≤ 2 ^ 53 := by norm_num) (h2 : |b| ≤ 2 ^ 53 := by norm_num) : fi a + fi b = fi c := by
  apply Fl.ext'
  rw [Fl.val_add, fi_val a h1, fi_val b h2, ← h]
  show _ = round53 _
  push_cast; rfl

theorem fi_sub (a b c : ℤ) (h : a - b = c := by norm_num) (h1 : |a| ≤ 2 ^ 53 := by norm_num) (h2 : |b| ≤ 2 ^ 53 := by norm_num) : fi a - fi b = fi c := by
  apply Fl.ext'
  rw [Fl.val_sub, fi_val a h1, fi_val b h2, ← h]
  show _ = round53 _
  push_cast; rfl

theorem fi_mul (a b c : ℤ) (h : a * b = c := by norm_num) (h1 : |a| ≤ 2 ^ 53 := by norm_num) (h2 : |b| ≤ 2 ^ 53 := by norm_num) : fi a * fi b = fi c := by
  apply Fl.ext'
  rw [Fl.val_mul, fi_val a h1, fi_val b h2, ← h]
  show _ = round53 _
  push_cast; rfl

theorem fi_div (a b c : ℤ) (h : a = c * b := by norm_num) (hb : b ≠ 0 := by norm_num) (h1 : |a| ≤ 2 ^ 53 := by norm_num) (h2 : |b| ≤ 2 ^ 53 := by norm_num) :
    fi a / fi b = fi c := by
  apply Fl.ext'
  rw [Fl.val_div, fi_val a h1, fi_val b h2, h]
  show _ = round53 _
  have : (b : ℝ) ≠ 0 := by exact_mod_cast hb
  push_cast
  rw [mul_div_assoc, div_self this, mul_one]

theorem fi_lt (a b : ℤ) (h1 : |a| ≤ 2 ^ 53 := by norm_num) (h2 : |b| ≤ 2 ^ 53 := by norm_num) : fi a < fi b ↔ a < b := by
  rw [Fl.lt_iff, fi_val a h1, fi_val b h2]; exact_mod_cast Iff.rfl

theorem fi_inj (a b : ℤ) (h1 : |a| ≤ 2 ^ 53 := by norm_num) (h2 : |b| ≤ 2 ^ 53 := by norm_num) : fi a = fi b ↔ a = b := by
  constructor
  · intro h
    have := congrArg Fl.val h
    rw [fi_val a h1, fi_val b h2] at this
    exact_mod_cast this
  · rintro rfl; rfl

theorem fi_floor (a : ℤ) (h1 : |a| ≤ 2 ^ 53 := by norm_num) : PyFloor.floor (fi a) = a := by
  show ⌊(fi a).val⌋ = a
  rw [fi_val a h1]; exact Int.floor_intCast a

theorem fi_zero : (0 : Fl) = fi 0 := by
  apply Fl.ext'
  rw [fi_val 0]; simp

theorem fi_cast (n : ℤ) : ((n : ℤ) : Fl) = fi n := rfl

/-- `ProbabilityField(10, 10, 0, 0)`; nothing is captured in the first realization; a track from (-10, 0) to (10, 0) in the second. -/
noncomputable def twoCalls : List (Call Fl) := [.register (fi 1), .insert (fi (-10)) (fi 0) (fi 10) (fi 0) (fi 10), .register (fi 1)]

theorem two_realizations : ∃ f0 f b, new (fi 10) (fi 10) (some (fi 0)) (some (fi 0)) = .ok f0 ∧ f0.run twoCalls = some f ∧ f.body = some b ∧
    f.nrows = 3 ∧ f.ncols = 3 ∧ b.totalWeight.val = 2 ∧ b.share 1 1 = 1/2 ∧ b.share 2 2 = 0 := by
  obtain ⟨f0, h0, hf0⟩ : ∃ f0, new (fi 10) (fi 10) (some (fi 0)) (some (fi 0)) = .ok f0 ∧
      f0 = { deltax := fi 10, deltay := fi 10, nrows := 3, ncols := 3,
             body := some { xmin := fi (-10), xmax := fi 10, ymin := fi (-10), ymax := fi 10, totalWeight := 0,
                            pgrid := Grid.full 3 3 0, rgrid := Grid.full 3 3 false } } := by
    unfold new
    rw [if_neg (by rw [Fl.le_iff, fi_val 10]; norm_num), if_neg (by rw [Fl.le_iff, fi_val 10]; norm_num)]
    simp only [fi_sub 0 10 (-10), fi_add 0 10 10]
    exact ⟨_, rfl, rfl⟩
  set b1 : Body Fl := { xmin := fi (-10), xmax := fi 10, ymin := fi (-10), ymax := fi 10, totalWeight := fi 1,
                            pgrid := Grid.full 3 3 0, rgrid := Grid.full 3 3 false } with hb1
  set f1 : PField Fl := { deltax := fi 10, deltay := fi 10, nrows := 3, ncols := 3, body := some b1 } with hf1
  have s1 : f0.step (.register (fi 1)) = some (f1, .ok ()) := by
    rw [hf0, hf1, hb1]
    simp [step, register, Grid.full, lift, fi_zero, fi_add 0 1 1]
  obtain ⟨g', e, r, c, v⟩ := insert_marks f1 b1 rfl rfl rfl (fi (-10)) (fi 0) (fi 10) (fi 0) (fi 10)
  have s2 : f1.step (.insert (fi (-10)) (fi 0) (fi 10) (fi 0) (fi 10)) = some ({ f1 with body := some { b1 with rgrid := g' } }, .ok ()) := by
    simp only [step, e]; rfl
  have two : (2 : Fl) = fi 2 := by
    apply Fl.ext'; rw [fi_val 2, Fl.val_two]; norm_num
  have minx : pyMin2 (fi (-10)) (fi 10) = fi (-10) := by unfold pyMin2; rw [if_neg (by rw [fi_lt 10 (-10)]; norm_num)]
  have maxx : pyMax2 (fi (-10)) (fi 10) = fi 10 := by unfold pyMax2; rw [if_pos (by rw [fi_lt (-10) 10]; norm_num)]
  have miny : pyMin2 (fi 0) (fi 0) = fi 0 := by unfold pyMin2; rw [if_neg (by rw [fi_lt 0 0]; norm_num)]
  have maxy : pyMax2 (fi 0) (fi 0) = fi 0 := by unfold pyMax2; rw [if_neg (by rw [fi_lt 0 0]; norm_num)]
  simp only [hf1, hb1, minx, maxx, miny, maxy, fi_sub (-10) 10 (-20), fi_sub (-20) (-10) (-10), fi_div (-10) 10 (-1), fi_floor (-1), fi_add 10 10 20,
    fi_sub 20 (-10) 30, fi_div 30 10 3, fi_floor 3, fi_sub 0 10 (-10), fi_sub (-10) (-10) 0, fi_div 0 10 0, fi_floor 0, fi_add 0 10 10, fi_sub 10 (-10) 20,
    fi_div 20 10 2, fi_floor 2, fi_mul 10 10 100, Marks, fi_cast, Grid.full] at v
  have m11 : g'.val 1 1 = true := by
    rw [v]
    refine Or.inr ⟨by rw [mem_intRange]; norm_num, by rw [mem_intRange]; norm_num, fi 0, ?_, by rw [fi_lt 0 100]; norm_num⟩
    simp only [Nat.cast_one, fi_mul 1 10 10, fi_add (-10) 10 0]
    unfold distancesquared
    simp only [fi_sub 10 (-10) 20, fi_sub 0 0 0, fi_sub 0 (-10) 10, fi_mul 20 0 0, fi_mul 0 10 0, fi_mul 20 10 200, fi_mul 0 0 0, fi_add 200 0 200, fi_mul 20 20 400,
      fi_add 400 0 400, fi_zero, fi_inj 400 0, fi_div 0 400 0, fi_mul 200 200 40000, fi_div 40000 400 100, fi_lt 200 0, fi_lt 400 100]
    norm_num
  have m22 : g'.val 2 2 = false := by
    rw [← Bool.not_eq_true, v]
    rintro (h | ⟨-, -, d2, h, hl⟩)
    · simp at h
    · simp only [Nat.cast_ofNat, fi_mul 2 10 20, fi_add (-10) 20 10] at h
      unfold distancesquared at h
      simp only [fi_sub 10 (-10) 20, fi_sub 0 0 0, fi_sub 10 0 10, fi_mul 20 10 200, fi_mul 0 20 0, fi_sub 200 0 200, fi_mul 20 20 400, fi_mul 0 10 0, fi_mul 0 0 0,
        fi_add 400 0 400, fi_zero, fi_inj 400 0, fi_mul 200 200 40000, fi_div 40000 400 100, fi_mul 400 400 160000, fi_div 160000 400 400, fi_lt 400 0, fi_lt 400 400] at h
      norm_num at h
      rw [← h, fi_lt 100 100] at hl
      norm_num at hl
  have s3 : PField.step { f1 with body := some { b1 with rgrid := g' } } (.register (fi 1)) =
      some ({ f1 with body := some { b1 with totalWeight := fi 1 + fi 1, pgrid := ⟨3, 3, fun i j => if g'.val i j then 0 + fi 1 else 0⟩,
                                             rgrid := { g' with val := fun _ _ => false } } }, .ok ()) := by
    simp only [hf1] at r c
    simp [step, register, r, c, hb1, hf1, Grid.full, lift]
  have s : f0.run twoCalls =
      some ({ f1 with body := some { b1 with totalWeight := fi 1 + fi 1, pgrid := ⟨3, 3, fun i j => if g'.val i j then 0 + fi 1 else 0⟩,
                                             rgrid := { g' with val := fun _ _ => false } } }) := by
    rw [twoCalls, run, s1]
    dsimp only
    rw [run, s2]
    dsimp only
    rw [run, s3]
    rfl
  refine ⟨f0, _, _, h0, s, rfl, rfl, rfl, ?_, ?_, ?_⟩
  · show (fi 1 + fi 1).val = 2
    rw [fi_add 1 1 2, fi_val 2]; norm_num
  · unfold Body.share
    dsimp only
    rw [if_pos m11, fi_zero, fi_add 0 1 1, fi_add 1 1 2, fi_val 1, fi_val 2]; norm_num
  · unfold Body.share
    dsimp only
    rw [m22, fi_zero]
    simp [fi_val 0]

end Oneka
