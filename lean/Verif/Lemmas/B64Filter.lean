import Verif.Spec.B64Run
import Verif.Spec.FlUtilities
import Verif.Lemmas.Binary64Zone

/-! # Lemmas for C126: the filter in binary64 -/

namespace Oneka

section
variable [LibM] [LibObs] {g k g' k' : ℤ} {a b : B64} {x y : Fl}

omit [LibM] in
theorem Same.square (hl : LibObs.Accurate) (ha : Same g k a x) (hg : 2 * g + 1 ≤ 900) (hk : 2 * k + 1 ≤ 900) : Same (2 * g + 53) (2 * k + 1) (b64Square a) (LibObs.square x) := by
  have h := hl.square x
  have hb : b64Square a = B64.of (.fin (LibObs.square x).val) := by
    unfold b64Square
    rw [ha.1]
    simp only
    rw [show Fl.of x.val = x from Fl.ext' x.isFloat]
  rw [hb]
  have e : (2:ℝ) ^ (-52 : ℤ) ≤ 1/2 := by norm_num
  have h0 : |(LibObs.square x).val - x.val ^ 2| ≤ 1/2 * x.val ^ 2 := h.trans (by nlinarith [sq_nonneg x.val])
  have hup : |(LibObs.square x).val| ≤ 2 ^ (2 * k + 1) := by
    have := ha.2.2
    have h2 : x.val ^ 2 ≤ 2 ^ (2 * k) := by
      rw [← sq_abs, two_mul, two_zpow_add, pow_two]
      exact mul_le_mul this this (abs_nonneg _) (two_zpow_pos _).le
    rw [two_zpow_add, zpow_one]
    rw [abs_le] at h0 ⊢
    constructor <;> nlinarith [sq_nonneg x.val, two_zpow_pos (2 * k)]
  by_cases hx : x.val = 0
  · have : (LibObs.square x).val = 0 := by
      rw [hx] at h0
      simpa using h0
    exact Same.of_fl (by rw [this]; exact Rng.zero _ _) (by linarith) (by linarith)
  · have lo := ha.2.ge hx
    have h2 : (2:ℝ) ^ (-(2 * g)) ≤ x.val ^ 2 := by
      rw [← sq_abs, show -(2 * g) = -g + -g by ring, two_zpow_add, pow_two]
      exact mul_le_mul lo lo (two_zpow_pos _).le (abs_nonneg _)
    have lo' : (2:ℝ) ^ (-(2 * g + 1)) ≤ |(LibObs.square x).val| := by
      rw [show -(2 * g + 1) = -(2 * g) + -1 by ring, two_zpow_add, show (2:ℝ) ^ (-1 : ℤ) = 1/2 by norm_num]
      rw [abs_le] at h0
      refine le_trans ?_ (le_abs_self _)
      nlinarith
    have := Rng.of_val lo' hup
    refine (Same.of_fl this (by linarith) (by linarith)).mono (by linarith) le_rfl

omit [LibM] in
theorem Same.hypot (hl : LibObs.Accurate) (ha : Same g k a x) (hb : Same g k b y) (hg : g + 1 ≤ 900) (hk : k + 2 ≤ 900) : Same (g + 53) (k + 2) (b64Hypot a b) (LibObs.hypot x y) := by
  have h := hl.hypot x y
  have hb' : b64Hypot a b = B64.of (.fin (LibObs.hypot x y).val) := by
    unfold b64Hypot
    rw [ha.1, hb.1]
    simp only
    rw [show Fl.of x.val = x from Fl.ext' x.isFloat, show Fl.of y.val = y from Fl.ext' y.isFloat]
  rw [hb']
  have e : (2:ℝ) ^ (-52 : ℤ) ≤ 1/2 := by norm_num
  have s0 := Real.sqrt_nonneg (x.val ^ 2 + y.val ^ 2)
  have h0 : |(LibObs.hypot x y).val - √(x.val ^ 2 + y.val ^ 2)| ≤ 1/2 * √(x.val ^ 2 + y.val ^ 2) := h.trans (by nlinarith)
  have hup : |(LibObs.hypot x y).val| ≤ 2 ^ (k + 2) := by
    have h2 : √(x.val ^ 2 + y.val ^ 2) ≤ 2 * 2 ^ k := by
      have := ha.2.2
      have := hb.2.2
      refine Real.sqrt_le_iff.mpr ⟨by positivity, ?_⟩
      have e1 : x.val ^ 2 ≤ (2 ^ k) ^ 2 := by rw [← sq_abs]; gcongr
      have e2 : y.val ^ 2 ≤ (2 ^ k) ^ 2 := by rw [← sq_abs]; gcongr
      nlinarith
    rw [two_zpow_add, show (2:ℝ) ^ (2:ℤ) = 4 by norm_num]
    rw [abs_le] at h0 ⊢
    constructor <;> linarith
  by_cases hz : x.val = 0 ∧ y.val = 0
  · have : (LibObs.hypot x y).val = 0 := by
      rw [hz.1, hz.2] at h0
      simpa using h0
    exact Same.of_fl (by rw [this]; exact Rng.zero _ _) (by linarith) (by linarith)
  · have lo : (2:ℝ) ^ (-g) ≤ √(x.val ^ 2 + y.val ^ 2) := by
      refine Real.le_sqrt_of_sq_le ?_
      by_cases hx : x.val = 0
      · have hy : y.val ≠ 0 := fun hy => hz ⟨hx, hy⟩
        have := hb.2.ge hy
        have : (2 ^ (-g) : ℝ) ^ 2 ≤ |y.val| ^ 2 := by gcongr
        rw [sq_abs] at this
        nlinarith [sq_nonneg x.val]
      · have := ha.2.ge hx
        have : (2 ^ (-g) : ℝ) ^ 2 ≤ |x.val| ^ 2 := by gcongr
        rw [sq_abs] at this
        nlinarith [sq_nonneg y.val]
    have lo' : (2:ℝ) ^ (-(g + 1)) ≤ |(LibObs.hypot x y).val| := by
      rw [show -(g + 1) = -g + -1 by ring, two_zpow_add, show (2:ℝ) ^ (-1 : ℤ) = 1/2 by norm_num]
      rw [abs_le] at h0
      refine le_trans ?_ (le_abs_self _)
      linarith
    exact (Same.of_fl (Rng.of_val lo' hup) (by linarith) (by linarith)).mono (by linarith) le_rfl

omit [LibM] [LibObs] in
theorem one_same : Same 0 0 ((1 : ℕ) : B64) ((1 : ℕ) : Fl) := Same.nat 1 (by norm_num) (by norm_num)

end

namespace B64Util

variable [LibM] [LibObs]

omit [LibM] in
theorem away_same (hl : LibObs.Accurate) {buffer : Fl} (hb : buffer.Ordinary) {o : FlObs} (ho : o.Ordinary) (ws : List (Fl × Fl)) (hw : ∀ w ∈ ws, w.1.Ordinary ∧ w.2.Ordinary) :
    awayFromWells buffer.to64 o.to64 (ws.map fun w => (w.1.to64, w.2.to64)) = FlUtil.awayFromWells buffer o ws := by
  induction ws with
  | nil => rfl
  | cons w ws ih =>
    obtain ⟨h1, h2⟩ := hw w (by simp)
    have d := Same.hypot hl (ho.x.same.sub h1.same (by norm_num) (by norm_num)) (ho.y.same.sub h2.same (by norm_num) (by norm_num)) (by norm_num) (by norm_num)
    have e := d.le_iff hb.same
    simp only [List.map_cons, awayFromWells, FlUtil.awayFromWells]
    rw [ih fun w hw' => hw w (by simp [hw'])]
    exact if_congr e rfl rfl

omit [LibM] in
theorem near_same (hl : LibObs.Accurate) {buffer : Fl} (hb : buffer.Ordinary) (ws : List (Fl × Fl)) (hw : ∀ w ∈ ws, w.1.Ordinary ∧ w.2.Ordinary) (os : List FlObs) (ho : ∀ o ∈ os, o.Ordinary) :
    removeNear buffer.to64 (ws.map fun w => (w.1.to64, w.2.to64)) (os.map FlObs.to64) = (FlUtil.removeNear buffer ws os).map FlObs.to64 := by
  induction os with
  | nil => rfl
  | cons o os ih =>
    simp only [List.map_cons, removeNear, FlUtil.removeNear]
    rw [away_same hl hb (ho o (by simp)) ws hw, ih fun o ho' => ho o (by simp [ho'])]
    split_ifs <;> simp

omit [LibM] in
theorem near_sub (buffer : Fl) (ws : List (Fl × Fl)) (os : List FlObs) : ∀ o ∈ FlUtil.removeNear buffer ws os, o ∈ os := by
  induction os with
  | nil => simp [FlUtil.removeNear]
  | cons o os ih =>
    intro p hp
    simp only [FlUtil.removeNear] at hp
    split_ifs at hp
    · rcases List.mem_cons.mp hp with rfl | hp
      · simp
      · simp [ih p hp]
    · simp [ih p hp]

omit [LibM] in
theorem near_len (buffer : Fl) (ws : List (Fl × Fl)) (os : List FlObs) : (FlUtil.removeNear buffer ws os).length ≤ os.length := by
  induction os with
  | nil => simp [FlUtil.removeNear]
  | cons o os ih =>
    simp only [FlUtil.removeNear]
    split_ifs <;> simp <;> omega

omit [LibM] in
theorem square_same (hl : LibObs.Accurate) {o : FlObs} (ho : o.Ordinary) : Same 237 81 (b64Square o.to64.std) (LibObs.square o.std) ∧ 0 < (LibObs.square o.std).val := by
  refine ⟨Same.square hl ho.std.1.same (by norm_num) (by norm_num), ?_⟩
  have h := hl.square o.std
  have e : (2:ℝ) ^ (-52 : ℤ) ≤ 1/2 := by norm_num
  have p := ho.std.2
  rw [abs_le] at h
  have q := pow_pos p 2
  have := mul_le_mul_of_nonneg_right e q.le
  have h1 := (neg_le_neg this).trans h.1
  linarith

omit [LibM] in
theorem acc_same (hl : LibObs.Accurate) (os : List FlObs) (ho : ∀ o ∈ os, o.Ordinary) {j : ℕ} {n64 d64 : B64} {n d : Fl} (hn : Partial 225 277 j n64 n) (hd : Partial 133 237 j d64 d) (h0 : 0 ≤ d.val)
    (hj : j + os.length ≤ 2 ^ 41) :
    Alike (fun b x => Same 225 318 b.1 x.1 ∧ Same 133 278 b.2 x.2 ∧ (0 < d.val ∨ os ≠ [] → 0 < x.2.val)) (accumulate (os.map FlObs.to64) n64 d64) (FlUtil.accumulate os n d) := by
  induction os generalizing j n64 d64 n d with
  | nil => exact ⟨(hn.same (by simpa using hj)).mono (by norm_num) (by norm_num), (hd.same (by simpa using hj)).mono (by norm_num) (by norm_num), fun h => h.elim id fun h => (h rfl).elim⟩
  | cons o os ih =>
    obtain ⟨hs, hp⟩ := square_same hl (ho o (by simp))
    have hz := (ho o (by simp)).z.same.div hs hp.ne' (by norm_num) (by norm_num)
    have h1 := one_same.div hs hp.ne' (by norm_num) (by norm_num)
    simp only [List.map_cons, accumulate, FlUtil.accumulate]
    have e0 : ¬ b64Square o.to64.std = 0 := by
      have := hs.eq_iff (Same.zero (g := 0) (k := 0) (by norm_num) (by norm_num))
      rw [this]
      intro h
      rw [h, Fl.val_zero] at hp
      exact lt_irrefl _ hp
    rw [if_neg e0, if_neg hp.ne']
    simp only [List.length_cons] at hj
    have hd1 : 0 < (((1 : ℕ) : Fl) / LibObs.square o.std).val := by
      have : (((1 : ℕ) : Fl)).val = 1 := by have := Fl.of_nat 1 (by norm_num); rw [Nat.cast_one] at this; show (Fl.of ((1:ℕ):ℝ)).val = 1; rw [Nat.cast_one]; exact this
      show 0 < round53 (((1 : ℕ) : Fl).val / (LibObs.square o.std).val)
      rw [this]
      exact round53_pos (by positivity)
    have pos : 0 < (d + ((1 : ℕ) : Fl) / LibObs.square o.std).val := round53_pos (by linarith)
    refine (ih (fun o ho' => ho o (by simp [ho'])) (hn.add (hz.mono (by norm_num) (by norm_num)) (by omega) (by norm_num) (by norm_num))
      (hd.add (h1.mono (by norm_num) (by norm_num)) (by omega) (by norm_num) (by norm_num)) pos.le (by omega)).weaken ?_
    rintro b x ⟨r1, r2, r3⟩
    exact ⟨r1, r2, fun _ => r3 (.inl pos)⟩

theorem group_same (hl : LibObs.Accurate) {o : FlObs} (ho : o.Ordinary) (os : List FlObs) (hos : ∀ o ∈ os, o.Ordinary) (hn : os.length ≤ 2 ^ 40) :
    Alike IsObs64 (mergeGroup o.to64 (os.map FlObs.to64)) (FlUtil.mergeGroup o os) := by
  cases os with
  | nil => exact ⟨ho.x.same.1, ho.y.same.1, ho.z.same.1, ho.std.1.same.1⟩
  | cons p ps =>
    have z : ∀ g k : ℤ, g ≤ 1022 → k ≤ 1023 → Partial g k 1 ((0 : ℕ) : B64) ((0 : ℕ) : Fl) := fun g k hg hk => by
      have := (Same.of_rng (r := ((0:ℕ):ℝ)) (by rw [Nat.cast_zero]; exact Rng.zero g k) hg hk).partial
      exact this
    have h := acc_same hl (o :: p :: ps) (fun q hq => by rcases List.mem_cons.mp hq with rfl | hq; exacts [ho, hos q hq]) (z 225 277 (by norm_num) (by norm_num)) (z 133 237 (by norm_num) (by norm_num))
      (by rw [show (((0:ℕ):Fl)).val = 0 by show round53 ((0:ℕ):ℝ) = 0; rw [Nat.cast_zero, round53_zero]]) (by simp only [List.length_cons] at hn ⊢; omega)
    simp only [List.map_cons] at h ⊢
    simp only [mergeGroup, FlUtil.mergeGroup]
    revert h
    generalize accumulate (o.to64 :: p.to64 :: ps.map FlObs.to64) ((0 : ℕ) : B64) ((0 : ℕ) : B64) = s
    generalize FlUtil.accumulate (o :: p :: ps) ((0 : ℕ) : Fl) ((0 : ℕ) : Fl) = t
    intro h
    match s, t, h with
    | .error e, .error e', h => exact h
    | .ok (n64, d64), .ok (n, d), ⟨h1, h2, h3⟩ =>
      have hp : 0 < d.val := h3 (.inr (by simp))
      have q := one_same.div h2 hp.ne' (by norm_num) (by norm_num)
      have q0 : 0 ≤ (((1 : ℕ) : Fl) / d).val := by
        show 0 ≤ round53 (round53 ((1:ℕ):ℝ) / d.val)
        refine round53_nonneg (div_nonneg (round53_nonneg (by positivity)) hp.le)
      exact ⟨ho.x.same.1, ho.y.same.1, (h1.div h2 hp.ne' (by norm_num) (by norm_num)).1, (q.sqrt q0 (by norm_num) (by norm_num) (by norm_num) (by norm_num)).1⟩

omit [LibM] in
theorem close_same (hl : LibObs.Accurate) {o p : FlObs} (ho : o.Ordinary) (hp : p.Ordinary) :
    decide (b64Hypot (o.to64.x - p.to64.x) (o.to64.y - p.to64.y) < ((1 : ℕ) : B64)) = decide (LibObs.hypot (o.x - p.x) (o.y - p.y) < ((1 : ℕ) : Fl)) := by
  have d := Same.hypot hl (ho.x.same.sub hp.x.same (by norm_num) (by norm_num)) (ho.y.same.sub hp.y.same (by norm_num) (by norm_num)) (by norm_num) (by norm_num)
  exact decide_eq_decide.mpr (d.lt_iff one_same)

omit [LibM] [LibObs] in
theorem takeWhile_same {α β : Type} {f : α → β} {p : β → Bool} {q : α → Bool} : ∀ {l : List α}, (∀ a ∈ l, p (f a) = q a) → (l.map f).takeWhile p = (l.takeWhile q).map f ∧ (l.map f).dropWhile p = (l.dropWhile q).map f
  | [], _ => ⟨rfl, rfl⟩
  | a :: l, h => by
    obtain ⟨h1, h2⟩ := takeWhile_same (l := l) fun a ha => h a (by simp [ha])
    have e := h a (by simp)
    simp only [List.map_cons, List.takeWhile_cons, List.dropWhile_cons, e]
    cases q a <;> simp [h1, h2]

theorem runs_same (hl : LibObs.Accurate) : ∀ (n : ℕ) (l : List FlObs), l.length ≤ n → (∀ o ∈ l, o.Ordinary) → l.length ≤ 2 ^ 40 →
    Alike (List.Forall₂ IsObs64) (mergeRuns (l.map FlObs.to64)) (FlUtil.mergeRuns l)
  | _, [], _, _, _ => by rw [List.map_nil, mergeRuns, FlUtil.mergeRuns]; exact .nil
  | 0, _ :: _, h, _, _ => by simp at h
  | n + 1, o :: rest, h, ho, hn => by
    rw [List.map_cons, mergeRuns, FlUtil.mergeRuns]
    obtain ⟨t1, t2⟩ := takeWhile_same (f := FlObs.to64) (p := fun p => decide (b64Hypot (o.to64.x - p.x) (o.to64.y - p.y) < ((1 : ℕ) : B64))) (q := fun p => decide (LibObs.hypot (o.x - p.x) (o.y - p.y) < ((1 : ℕ) : Fl)))
      (l := rest) fun p hp => close_same hl (ho o (by simp)) (ho p (by simp [hp]))
    rw [t1, t2]
    simp only [List.length_cons] at h hn
    have l1 := (List.takeWhile_prefix (fun p : FlObs => decide (LibObs.hypot (o.x - p.x) (o.y - p.y) < ((1 : ℕ) : Fl))) (l := rest))
    have l2 := (List.dropWhile_suffix (fun p : FlObs => decide (LibObs.hypot (o.x - p.x) (o.y - p.y) < ((1 : ℕ) : Fl))) (l := rest))
    have g := group_same hl (ho o (by simp)) (rest.takeWhile fun p => decide (LibObs.hypot (o.x - p.x) (o.y - p.y) < ((1 : ℕ) : Fl))) (fun q hq => ho q (by simp [l1.subset hq]))
      (by have := l1.length_le; omega)
    have r := runs_same hl n (rest.dropWhile fun p => decide (LibObs.hypot (o.x - p.x) (o.y - p.y) < ((1 : ℕ) : Fl))) (by have := l2.length_le; omega) (fun q hq => ho q (by simp [l2.subset hq]))
      (by have := l2.length_le; omega)
    revert g r
    generalize mergeGroup _ _ = a
    generalize FlUtil.mergeGroup _ _ = b
    generalize mergeRuns _ = c
    generalize FlUtil.mergeRuns _ = d
    intro g r
    match a, b, g with
    | .error e, .error e', g => exact g
    | .ok u, .ok v, g =>
      match c, d, r with
      | .error e, .error e', r => exact r
      | .ok us, .ok vs, r => exact .cons g r

end B64Util

end Oneka
