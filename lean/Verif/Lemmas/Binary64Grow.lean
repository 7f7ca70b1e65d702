import Verif.Lemmas.Binary64Aquifer
import Verif.Lemmas.FlDist
import Verif.Lemmas.FlAny

/-! # The growth loops, sums of weights and distances in binary64 arithmetic (C117) -/

namespace Oneka

section loops
variable {F : Type} [Add F] [Sub F] [LE F] [DecidableLE F]

theorem growLow_iter {x d : F} (m : ℕ) : ∀ (g : F) (n s : ℕ), (∀ i < m, x ≤ (fun g => g - d)^[i] g) → ¬ x ≤ (fun g => g - d)^[m] g →
    growLow x d g n s = some ((fun g => g - d)^[m] g, n + m, s + m) := by
  induction m with
  | zero =>
    intro g n s _ h
    rw [growLow, if_neg (show ¬ x ≤ g from h)]
    rfl
  | succ m ih =>
    intro g n s h1 h2
    rw [growLow, if_pos (show x ≤ g from h1 0 (by omega)), ih (g - d) (n + 1) (s + 1) (fun i hi => h1 (i + 1) (by omega)) h2]
    rw [Nat.add_right_comm, Nat.add_right_comm s]
    rfl

theorem growLow_iterated {x d g : F} {n s : ℕ} {r : F × ℕ × ℕ} (h : growLow x d g n s = some r) :
    ∃ m, r = ((fun g => g - d)^[m] g, n + m, s + m) ∧ (∀ i < m, x ≤ (fun g => g - d)^[i] g) ∧ ¬ x ≤ (fun g => g - d)^[m] g := by
  refine growLow.partial_correctness x d (fun g n s r => ∃ m, r = ((fun g => g - d)^[m] g, n + m, s + m) ∧ (∀ i < m, x ≤ (fun g => g - d)^[i] g) ∧ ¬ x ≤ (fun g => g - d)^[m] g) ?_ g n s r h
  intro rec ih g n s r h
  split_ifs at h with hc
  · obtain ⟨m, h1, h2, h3⟩ := ih _ _ _ _ h
    refine ⟨m + 1, ?_, ?_, h3⟩
    · rw [h1, Nat.add_right_comm, Nat.add_right_comm s]; rfl
    · intro i hi
      cases i with
      | zero => exact hc
      | succ i => exact h2 i (by omega)
  · obtain rfl := Option.some.inj h
    exact ⟨0, rfl, fun i hi => absurd hi (by omega), hc⟩

theorem growHigh_iter {x d : F} (m : ℕ) : ∀ (g : F) (n : ℕ), (∀ i < m, (fun g => g + d)^[i] g ≤ x) → ¬ (fun g => g + d)^[m] g ≤ x →
    growHigh x d g n = some ((fun g => g + d)^[m] g, n + m) := by
  induction m with
  | zero =>
    intro g n _ h
    rw [growHigh, if_neg (show ¬ g ≤ x from h)]
    rfl
  | succ m ih =>
    intro g n h1 h2
    rw [growHigh, if_pos (show g ≤ x from h1 0 (by omega)), ih (g + d) (n + 1) (fun i hi => h1 (i + 1) (by omega)) h2]
    rw [Nat.add_right_comm]
    rfl

theorem growHigh_iterated {x d g : F} {n : ℕ} {r : F × ℕ} (h : growHigh x d g n = some r) :
    ∃ m, r = ((fun g => g + d)^[m] g, n + m) ∧ (∀ i < m, (fun g => g + d)^[i] g ≤ x) ∧ ¬ (fun g => g + d)^[m] g ≤ x := by
  refine growHigh.partial_correctness x d (fun g n r => ∃ m, r = ((fun g => g + d)^[m] g, n + m) ∧ (∀ i < m, (fun g => g + d)^[i] g ≤ x) ∧ ¬ (fun g => g + d)^[m] g ≤ x) ?_ g n r h
  intro rec ih g n r h
  split_ifs at h with hc
  · obtain ⟨m, h1, h2, h3⟩ := ih _ _ _ h
    refine ⟨m + 1, ?_, ?_, h3⟩
    · rw [h1, Nat.add_right_comm]; rfl
    · intro i hi
      cases i with
      | zero => exact hc
      | succ i => exact h2 i (by omega)
  · obtain rfl := Option.some.inj h
    exact ⟨0, rfl, fun i hi => absurd hi (by omega), hc⟩

theorem iterate_stuck {α : Type} {φ : α → α} {g : α} {i : ℕ} (h : φ (φ^[i] g) = φ^[i] g) (j : ℕ) : φ^[i + j] g = φ^[i] g := by
  induction j with
  | zero => rfl
  | succ j ih => rw [← add_assoc, Function.iterate_succ_apply', ih, h]

end loops

/-- A grid line one spacing lower, as long as the point is not yet below it. -/
theorem Same.lower {bx bd bg : B64} {x d g : Fl} (hx : Same 92 40 bx x) (hd : Same 92 40 bd d) (d0 : 0 < d.val) (hg : Same 92 180 bg g) (h : x ≤ g) :
    Same 92 180 (bg - bd) (g - d) ∧ (g - d).val ≤ g.val := by
  have s := hg.sub (hd.mono (g' := 92) (k' := 180) (by norm_num) (by norm_num)) (by norm_num) (by norm_num)
  have up : (g - d).val ≤ g.val := by
    have := round53_mono (a := g.val - d.val) (b := g.val) (by linarith)
    rwa [g.isFloat] at this
  refine ⟨⟨s.1, s.2.1, ?_⟩, up⟩
  have h' : x.val ≤ g.val := h
  have lo := round53_mono (a := -2 ^ (41:ℤ)) (b := g.val - d.val) (by
    have a1 := (abs_le.mp hx.2.2).1
    have a2 := (abs_le.mp hd.2.2).2
    have : (2:ℝ) ^ (41:ℤ) = 2 ^ (40:ℤ) + 2 ^ (40:ℤ) := by norm_num
    linarith)
  rw [round53_neg, round53_zpow] at lo
  have lo' : -2 ^ (41:ℤ) ≤ (g - d).val := lo
  have c : (2:ℝ) ^ (41:ℤ) ≤ 2 ^ (180:ℤ) := two_zpow_le (by norm_num)
  rw [abs_le]
  exact ⟨by linarith, by linarith [(abs_le.mp hg.2.2).2]⟩

theorem Same.higher {bx bd bg : B64} {x d g : Fl} (hx : Same 92 40 bx x) (hd : Same 92 40 bd d) (d0 : 0 < d.val) (hg : Same 92 180 bg g) (h : g ≤ x) :
    Same 92 180 (bg + bd) (g + d) ∧ g.val ≤ (g + d).val := by
  have s := hg.add (hd.mono (g' := 92) (k' := 180) (by norm_num) (by norm_num)) (by norm_num) (by norm_num)
  have up : g.val ≤ (g + d).val := by
    have := round53_mono (a := g.val) (b := g.val + d.val) (by linarith)
    rwa [g.isFloat] at this
  refine ⟨⟨s.1, s.2.1, ?_⟩, up⟩
  have h' : g.val ≤ x.val := h
  have hi := round53_mono (b := 2 ^ (41:ℤ)) (a := g.val + d.val) (by
    have a1 := (abs_le.mp hx.2.2).2
    have a2 := (abs_le.mp hd.2.2).2
    have : (2:ℝ) ^ (41:ℤ) = 2 ^ (40:ℤ) + 2 ^ (40:ℤ) := by norm_num
    linarith)
  rw [round53_zpow] at hi
  have hi' : (g + d).val ≤ 2 ^ (41:ℤ) := hi
  have c : (2:ℝ) ^ (41:ℤ) ≤ 2 ^ (180:ℤ) := two_zpow_le (by norm_num)
  rw [abs_le]
  exact ⟨by linarith [(abs_le.mp hg.2.2).1], by linarith⟩

theorem Rng.gap {g k k' : ℤ} {x y : ℝ} (hx : Rng g k x) (hy : Rng g k' y) (h : x < y) : x + 2 ^ (-g) ≤ y := by
  obtain ⟨n, hn⟩ := hx.1
  obtain ⟨m, hm⟩ := hy.1
  have p := two_zpow_pos (-g)
  rw [hn, hm] at h ⊢
  have : n < m := by
    have := lt_of_mul_lt_mul_right h p.le
    exact_mod_cast this
  have : (n:ℝ) + 1 ≤ m := by exact_mod_cast this
  nlinarith

theorem OptAlike.weaken {α β : Type} {R S : α → β → Prop} {a : Option α} {b : Option β} (hr : OptAlike R a b) (h : ∀ a b, R a b → S a b) : OptAlike S a b := by
  cases a <;> cases b
  · exact hr
  · exact hr
  · exact hr
  · exact h _ _ hr

theorem OptAlike.of {α β : Type} {R : α → β → Prop} {a : Option α} {b : Option β} (h1 : ∀ y, b = some y → ∃ x, a = some x ∧ R x y) (h2 : ∀ x, a = some x → ∃ y, b = some y) : OptAlike R a b := by
  cases b with
  | some y =>
    obtain ⟨x, rfl, h⟩ := h1 y rfl
    exact h
  | none =>
    cases a with
    | none => trivial
    | some x => obtain ⟨y, hy⟩ := h2 x rfl; cases hy

theorem iterLow {bx bd bg : B64} {x d g : Fl} (hx : Same 92 40 bx x) (hd : Same 92 40 bd d) (d0 : 0 < d.val) (hg : Same 92 180 bg g) (m : ℕ)
    (h : ∀ i < m, x ≤ (fun g => g - d)^[i] g) : Same 92 180 ((fun g => g - bd)^[m] bg) ((fun g => g - d)^[m] g) := by
  induction m with
  | zero => exact hg
  | succ m ih =>
    rw [Function.iterate_succ_apply', Function.iterate_succ_apply']
    exact (Same.lower hx hd d0 (ih fun i hi => h i (by omega)) (h m (by omega))).1

theorem iterHigh {bx bd bg : B64} {x d g : Fl} (hx : Same 92 40 bx x) (hd : Same 92 40 bd d) (d0 : 0 < d.val) (hg : Same 92 180 bg g) (m : ℕ)
    (h : ∀ i < m, (fun g => g + d)^[i] g ≤ x) : Same 92 180 ((fun g => g + bd)^[m] bg) ((fun g => g + d)^[m] g) := by
  induction m with
  | zero => exact hg
  | succ m ih =>
    rw [Function.iterate_succ_apply', Function.iterate_succ_apply']
    exact (Same.higher hx hd d0 (ih fun i hi => h i (by omega)) (h m (by omega))).1

/-- The loop to the left does the same in both arithmetics; each turn that does not hang moves the line by a unit of `2^-92` at least. -/
theorem same_growLow {bx bd bg : B64} {x d g : Fl} (hx : Same 92 40 bx x) (hd : Same 92 40 bd d) (d0 : 0 < d.val) (hg : Same 92 180 bg g) (n s : ℕ) :
    OptAlike (fun b r => Same 92 180 b.1 r.1 ∧ b.2 = r.2 ∧ ∃ m : ℕ, r.2 = (n + m, s + m) ∧ r.1.val + m * 2 ^ (-92 : ℤ) ≤ g.val) (growLow bx bd bg n s) (growLow x d g n s) := by
  refine OptAlike.of (fun r hr => ?_) (fun r hr => ?_)
  · obtain ⟨m, rfl, h1, h2⟩ := growLow_iterated hr
    have it : ∀ i ≤ m, Same 92 180 ((fun g => g - bd)^[i] bg) ((fun g => g - d)^[i] g) := fun i hi => iterLow hx hd d0 hg i fun j hj => h1 j (by omega)
    refine ⟨_, growLow_iter m bg n s (fun i hi => (hx.le_iff (it i hi.le)).mpr (h1 i hi)) (fun h => h2 ((hx.le_iff (it m le_rfl)).mp h)), it m le_rfl, rfl, m, rfl, ?_⟩
    have dec : ∀ i ≤ m, ((fun g => g - d)^[i] g).val + i * 2 ^ (-92 : ℤ) ≤ g.val := by
      intro i
      induction i with
      | zero => intro _; simp
      | succ i ih =>
        intro hi
        have ih := ih (by omega)
        have lo := Same.lower hx hd d0 (it i (by omega)) (h1 i (by omega))
        have nx := Function.iterate_succ_apply' (fun g => g - d) i g
        have lt : ((fun g => g - d)^[i + 1] g).val < ((fun g => g - d)^[i] g).val := by
          rw [nx]
          refine lt_of_le_of_ne lo.2 fun e => h2 ?_
          have st := iterate_stuck (φ := fun g => g - d) (g := g) (i := i) (Fl.ext' e) (m - i)
          rw [Nat.add_sub_cancel' (by omega)] at st
          rw [st]
          exact h1 i (by omega)
        have := Rng.gap (it (i + 1) hi).2 (it i (by omega)).2 lt
        push_cast
        linarith
    exact dec m le_rfl
  · obtain ⟨m, rfl, h1, h2⟩ := growLow_iterated hr
    have it : ∀ i ≤ m, Same 92 180 ((fun g => g - bd)^[i] bg) ((fun g => g - d)^[i] g) ∧ ∀ j < i, x ≤ (fun g => g - d)^[j] g := by
      intro i
      induction i with
      | zero => exact fun _ => ⟨hg, fun j hj => absurd hj (by omega)⟩
      | succ i ih =>
        intro hi
        obtain ⟨a, b⟩ := ih (by omega)
        have c := (hx.le_iff a).mp (h1 i (by omega))
        have all : ∀ j < i + 1, x ≤ (fun g => g - d)^[j] g := fun j hj => by
          rcases Nat.lt_succ_iff_lt_or_eq.mp hj with hj | rfl
          · exact b j hj
          · exact c
        exact ⟨iterLow hx hd d0 hg _ all, all⟩
    obtain ⟨a, b⟩ := it m le_rfl
    exact ⟨_, growLow_iter m g n s b fun h => h2 ((hx.le_iff a).mpr h)⟩

theorem same_growHigh {bx bd bg : B64} {x d g : Fl} (hx : Same 92 40 bx x) (hd : Same 92 40 bd d) (d0 : 0 < d.val) (hg : Same 92 180 bg g) (n : ℕ) :
    OptAlike (fun b r => Same 92 180 b.1 r.1 ∧ b.2 = r.2 ∧ ∃ m : ℕ, r.2 = n + m ∧ g.val + m * 2 ^ (-92 : ℤ) ≤ r.1.val) (growHigh bx bd bg n) (growHigh x d g n) := by
  refine OptAlike.of (fun r hr => ?_) (fun r hr => ?_)
  · obtain ⟨m, rfl, h1, h2⟩ := growHigh_iterated hr
    have it : ∀ i ≤ m, Same 92 180 ((fun g => g + bd)^[i] bg) ((fun g => g + d)^[i] g) := fun i hi => iterHigh hx hd d0 hg i fun j hj => h1 j (by omega)
    refine ⟨_, growHigh_iter m bg n (fun i hi => ((it i hi.le).le_iff hx).mpr (h1 i hi)) (fun h => h2 (((it m le_rfl).le_iff hx).mp h)), it m le_rfl, rfl, m, rfl, ?_⟩
    have inc : ∀ i ≤ m, g.val + i * 2 ^ (-92 : ℤ) ≤ ((fun g => g + d)^[i] g).val := by
      intro i
      induction i with
      | zero => intro _; simp
      | succ i ih =>
        intro hi
        have ih := ih (by omega)
        have lo := Same.higher hx hd d0 (it i (by omega)) (h1 i (by omega))
        have nx := Function.iterate_succ_apply' (fun g => g + d) i g
        have lt : ((fun g => g + d)^[i] g).val < ((fun g => g + d)^[i + 1] g).val := by
          rw [nx]
          refine lt_of_le_of_ne lo.2 fun e => h2 ?_
          have st := iterate_stuck (φ := fun g => g + d) (g := g) (i := i) (Fl.ext' e.symm) (m - i)
          rw [Nat.add_sub_cancel' (by omega)] at st
          rw [st]
          exact h1 i (by omega)
        have := Rng.gap (it i (by omega)).2 (it (i + 1) hi).2 lt
        push_cast
        linarith
    exact inc m le_rfl
  · obtain ⟨m, rfl, h1, h2⟩ := growHigh_iterated hr
    have it : ∀ i ≤ m, Same 92 180 ((fun g => g + bd)^[i] bg) ((fun g => g + d)^[i] g) ∧ ∀ j < i, (fun g => g + d)^[j] g ≤ x := by
      intro i
      induction i with
      | zero => exact fun _ => ⟨hg, fun j hj => absurd hj (by omega)⟩
      | succ i ih =>
        intro hi
        obtain ⟨a, b⟩ := ih (by omega)
        have c := (a.le_iff hx).mp (h1 i (by omega))
        have all : ∀ j < i + 1, (fun g => g + d)^[j] g ≤ x := fun j hj => by
          rcases Nat.lt_succ_iff_lt_or_eq.mp hj with hj | rfl
          · exact b j hj
          · exact c
        exact ⟨iterHigh hx hd d0 hg _ all, all⟩
    obtain ⟨a, b⟩ := it m le_rfl
    exact ⟨_, growHigh_iter m g n b fun h => h2 ((a.le_iff hx).mpr h)⟩

/-- Sums of weights saturate before they overflow. -/
theorem Same.addWeight {a w : B64} {x y : Fl} (ha : Same 92 94 a x) (hw : Same 92 40 w y) : Same 92 94 (a + w) (x + y) := by
  have s := ha.add (hw.mono (g' := 92) (k' := 94) (by norm_num) (by norm_num)) (by norm_num) (by norm_num)
  refine ⟨s.1, s.2.1, ?_⟩
  change |round53 (x.val + y.val)| ≤ _
  have b : |x.val + y.val| ≤ 2 ^ (94:ℤ) + 2 ^ (40:ℤ) := (abs_add_le _ _).trans (add_le_add ha.2.2 hw.2.2)
  by_cases h : |x.val + y.val| ≤ 2 ^ (94:ℤ)
  · exact round53_le_zpow h
  obtain ⟨n, hn⟩ := round53_multiple (a := -94) (Or.inr (by simpa using (not_le.mp h).le))
  have acc := round53_accurate (x.val + y.val)
  have tri : |round53 (x.val + y.val)| ≤ |x.val + y.val| + |round53 (x.val + y.val) - (x.val + y.val)| := by
    have := abs_add_le (x.val + y.val) (round53 (x.val + y.val) - (x.val + y.val))
    simpa using this
  have lt : |round53 (x.val + y.val)| < 2 ^ (94:ℤ) + 2 ^ (42:ℤ) := by
    have e : (2:ℝ) ^ (-53:ℤ) = 1 / 9007199254740992 := by norm_num
    rw [e] at acc
    have e1 : (2:ℝ) ^ (94:ℤ) = 19807040628566084398385987584 := by norm_num
    have e2 : (2:ℝ) ^ (40:ℤ) = 1099511627776 := by norm_num
    have e3 : (2:ℝ) ^ (42:ℤ) = 4398046511104 := by norm_num
    rw [e1, e2] at b
    rw [e1, e3]
    linarith
  rw [hn] at lt ⊢
  have e : (2:ℝ) ^ (-((-94:ℤ) + 52)) = 2 ^ (42:ℤ) := by norm_num
  rw [e] at lt ⊢
  have p := two_zpow_pos 42
  rw [abs_mul, abs_of_pos p] at lt ⊢
  have e' : (2:ℝ) ^ (94:ℤ) = ((2 ^ 52 : ℤ) : ℝ) * 2 ^ (42:ℤ) := by norm_num
  rw [e'] at lt ⊢
  refine mul_le_mul_of_nonneg_right ?_ p.le
  have : ((|n| : ℤ) : ℝ) < ((2 ^ 52 + 1 : ℤ) : ℝ) := by
    push_cast
    refine lt_of_mul_lt_mul_right ?_ p.le
    push_cast at lt
    linarith
  have : |n| < 2 ^ 52 + 1 := by exact_mod_cast this
  have : |n| ≤ 2 ^ 52 := by omega
  have : ((|n| : ℤ) : ℝ) ≤ ((2 ^ 52 : ℤ) : ℝ) := by exact_mod_cast this
  rwa [Int.cast_abs] at this

/-- `distancesquared` does the same in both arithmetics. -/
theorem same_distancesquared (np : Bool) {bax bay bbx bby bcx bcy : B64} {ax ay bx by' cx cy : Fl} (hax : Same 92 40 bax ax) (hay : Same 92 40 bay ay) (hbx : Same 92 40 bbx bx) (hby : Same 92 40 bby by')
    (hcx : Same 92 315 bcx cx) (hcy : Same 92 315 bcy cy) :
    Alike (OptAlike fun b d => Same 503 910 b d) (distancesquared np bax bay bbx bby bcx bcy) (distancesquared np ax ay bx by' cx cy) := by
  have u := hbx.sub hax (by norm_num) (by norm_num)
  have v := hby.sub hay (by norm_num) (by norm_num)
  have p := hcx.sub (hax.mono (g' := 92) (k' := 315) (by norm_num) (by norm_num)) (by norm_num) (by norm_num)
  have q := hcy.sub (hay.mono (g' := 92) (k' := 315) (by norm_num) (by norm_num)) (by norm_num) (by norm_num)
  have perp := (u.mul q (by norm_num) (by norm_num)).sub (v.mul p (by norm_num) (by norm_num)) (by norm_num) (by norm_num)
  have dot := (u.mul p (by norm_num) (by norm_num)).add (v.mul q (by norm_num) (by norm_num)) (by norm_num) (by norm_num)
  have len := (u.mul u (by norm_num) (by norm_num)).add (v.mul v (by norm_num) (by norm_num)) (by norm_num) (by norm_num)
  have z : Same 0 0 (0 : B64) (0 : Fl) := Same.zero (by norm_num) (by norm_num)
  have two : Same 0 2 (2 : B64) (2 : Fl) := Same.nat 2 (by norm_num) (by norm_num)
  unfold distancesquared
  simp only []
  by_cases c0 : (bx - ax) * (bx - ax) + (by' - ay) * (by' - ay) = 0
  · rw [if_pos c0, if_pos ((len.eq_iff z).mpr c0)]
    cases np
    · rfl
    · trivial
  rw [if_neg c0, if_neg (fun h => c0 ((len.eq_iff z).mp h))]
  have ne : ((bx - ax) * (bx - ax) + (by' - ay) * (by' - ay) : Fl).val ≠ 0 := fun h => c0 (Fl.ext' (h.trans Fl.val_zero.symm))
  have a2 := ((perp.mul perp (by norm_num) (by norm_num)).div len ne (by norm_num) (by norm_num)).mono (g' := 503) (k' := 900) (by norm_num) (by norm_num)
  have b2 := ((dot.mul dot (by norm_num) (by norm_num)).div len ne (by norm_num) (by norm_num)).mono (g' := 503) (k' := 900) (by norm_num) (by norm_num)
  by_cases c1 : (bx - ax) * (cx - ax) + (by' - ay) * (cy - ay) < 0
  · rw [if_pos c1, if_pos ((dot.lt_iff z).mpr c1)]
    exact (a2.add b2 (by norm_num) (by norm_num)).mono (by norm_num) (by norm_num)
  rw [if_neg c1, if_neg (fun h => c1 ((dot.lt_iff z).mp h))]
  split_ifs with d1 d2 d2
  · exact (((a2.add b2 (by norm_num) (by norm_num)).sub ((two.mul dot (by norm_num) (by norm_num)).mono (by norm_num) (by norm_num)) (by norm_num) (by norm_num)).add
      (len.mono (by norm_num) (by norm_num)) (by norm_num) (by norm_num)).mono (by norm_num) (by norm_num)
  · exact absurd ((len.lt_iff b2).mp d1) d2
  · exact absurd ((len.lt_iff b2).mpr d2) d1
  · exact a2.mono (by norm_num) (by norm_num)

end Oneka
