import Verif.Spec.FlUtilities
import Verif.Lemmas.Utilities
import Verif.Lemmas.FlVariate

/-!
# `filter_obs` in floating-point arithmetic
-/

namespace Oneka

namespace FlUtil

theorem round_rel (x : ℝ) : (round53 x) ^ 2 ≤ (1 + eps) ^ 2 * x ^ 2 ∧ (1 - eps) ^ 2 * x ^ 2 ≤ (round53 x) ^ 2 := by
  have h : |round53 x - x| ≤ eps * |x| := round53_accurate x
  have p := eps_pos
  have e := eps_small
  have a := abs_le.mp h
  have h1 : |round53 x| ≤ (1 + eps) * |x| := by
    have := abs_add_le (round53 x - x) x
    rw [sub_add_cancel] at this
    linarith
  have h2 : (1 - eps) * |x| ≤ |round53 x| := by
    have := abs_sub_abs_le_abs_sub x (round53 x)
    rw [abs_sub_comm] at this
    linarith
  have x0 := abs_nonneg x
  constructor
  · have := mul_self_le_mul_self (abs_nonneg _) h1
    rw [abs_mul_abs_self] at this
    nlinarith [abs_mul_abs_self x]
  · have := mul_self_le_mul_self (mul_nonneg (by linarith) x0) h2
    rw [abs_mul_abs_self] at this
    nlinarith [abs_mul_abs_self x]

variable [LibObs]

theorem dist_near (hl : LibObs.Accurate) (o : FlObs) (x y : Fl) :
    |(LibObs.hypot (o.x - x) (o.y - y)).val - o.dist x y| ≤ 2 ^ (-51 : ℤ) * o.dist x y := by
  have p := eps_pos
  have e := eps_small
  have h := hl.hypot (o.x - x) (o.y - y)
  have c1 : (2:ℝ) ^ (-52 : ℤ) = 2 * eps := by unfold eps; norm_num
  have c2 : (2:ℝ) ^ (-51 : ℤ) = 4 * eps := by unfold eps; norm_num
  rw [c1] at h
  rw [c2]
  have ex : (o.x - x).val = round53 (o.x.val - x.val) := rfl
  have ey : (o.y - y).val = round53 (o.y.val - y.val) := rfl
  rw [ex, ey] at h
  obtain ⟨a1, a2⟩ := round_rel (o.x.val - x.val)
  obtain ⟨b1, b2⟩ := round_rel (o.y.val - y.val)
  have hd : o.dist x y = Real.sqrt ((o.x.val - x.val) ^ 2 + (o.y.val - y.val) ^ 2) := rfl
  have d0 : 0 ≤ o.dist x y := Real.sqrt_nonneg _
  have dd : o.dist x y ^ 2 = (o.x.val - x.val) ^ 2 + (o.y.val - y.val) ^ 2 := by rw [hd, Real.sq_sqrt (by positivity)]
  have u : Real.sqrt (round53 (o.x.val - x.val) ^ 2 + round53 (o.y.val - y.val) ^ 2) ≤ (1 + eps) * o.dist x y := by
    rw [Real.sqrt_le_left (by positivity)]
    rw [mul_pow, dd]
    linarith
  have l : (1 - eps) * o.dist x y ≤ Real.sqrt (round53 (o.x.val - x.val) ^ 2 + round53 (o.y.val - y.val) ^ 2) := by
    refine Real.le_sqrt_of_sq_le ?_
    rw [mul_pow, dd]
    linarith
  generalize Real.sqrt (round53 (o.x.val - x.val) ^ 2 + round53 (o.y.val - y.val) ^ 2) = r at *
  have g := abs_le.mp h
  have k : 2 * eps * r ≤ 2 * eps * ((1 + eps) * o.dist x y) := mul_le_mul_of_nonneg_left u (by linarith)
  have k2 : 2 * eps * ((1 + eps) * o.dist x y) ≤ 3 * eps * o.dist x y := by nlinarith [mul_nonneg p.le d0]
  rw [abs_le]
  constructor <;> nlinarith [mul_nonneg p.le d0]

omit [LibObs] in
theorem clear_iff {d d' b : ℝ} (hc : Clear d b) (hd : 0 ≤ d) (h : |d' - d| ≤ 2 ^ (-51 : ℤ) * d) : (d' ≤ b ↔ d ≤ b) ∧ (d' < b ↔ d < b) := by
  have g := abs_le.mp h
  have p : (0:ℝ) ≤ 2 ^ (-51 : ℤ) := by positivity
  have q : (2:ℝ) ^ (-51 : ℤ) ≤ 1 := by norm_num
  unfold Clear at hc
  generalize (2:ℝ) ^ (-51 : ℤ) = c at *
  rcases hc with rfl | hc | hc
  · have : d' = 0 := by simpa using h
    subst this
    exact ⟨Iff.rfl, Iff.rfl⟩
  · have h1 : d' < b := by linarith
    have h2 : d < b := by nlinarith
    exact ⟨⟨fun _ => h2.le, fun _ => h1.le⟩, ⟨fun _ => h2, fun _ => h1⟩⟩
  · have h1 : b < d' := by linarith
    have h2 : b < d := by nlinarith
    exact ⟨⟨fun h => absurd h h1.not_ge, fun h => absurd h h2.not_ge⟩, ⟨fun h => absurd h h1.le.not_gt, fun h => absurd h h2.le.not_gt⟩⟩

theorem away_iff (buffer : Fl) (o : FlObs) (ws : List (Fl × Fl)) :
    awayFromWells buffer o ws = true ↔ ∀ w ∈ ws, buffer.val < (LibObs.hypot (o.x - w.1) (o.y - w.2)).val := by
  induction ws with
  | nil => simp [awayFromWells]
  | cons w ws ih =>
    rw [awayFromWells]
    split_ifs with h
    · simp only [List.forall_mem_cons, false_iff, not_and]
      intro h'
      rw [Fl.le_iff] at h
      linarith
    · rw [ih, List.forall_mem_cons]
      rw [Fl.le_iff, not_le] at h
      exact ⟨fun g => ⟨h, g⟩, fun g => g.2⟩

theorem removeNear_filter (buffer : Fl) (ws : List (Fl × Fl)) (obs : List FlObs) : removeNear buffer ws obs = obs.filter fun o => awayFromWells buffer o ws := by
  induction obs with
  | nil => rfl
  | cons o os ih =>
    rw [removeNear, List.filter_cons, ih]

theorem removeNear_exact (hl : LibObs.Accurate) {buffer : Fl} {ws : List (Fl × Fl)} : ∀ {obs : List FlObs}, (∀ o ∈ obs, ∀ w ∈ ws, Clear (o.dist w.1 w.2) buffer.val) →
    (removeNear buffer ws obs).map FlObs.exact = Oneka.removeNear buffer.val (ws.map fun w => (w.1.val, w.2.val)) (obs.map FlObs.exact) := by
  intro obs
  induction obs with
  | nil => intro _; rfl
  | cons o os ih =>
    intro h
    rw [List.forall_mem_cons] at h
    rw [removeNear, List.map_cons, Oneka.removeNear, ← ih h.2]
    have e : awayFromWells buffer o ws = Oneka.awayFromWells buffer.val o.exact (ws.map fun w => (w.1.val, w.2.val)) := by
      rw [Bool.eq_iff_iff, away_iff, awayFromWells_iff, List.forall_mem_map]
      refine forall₂_congr fun w hw => ?_
      have := (clear_iff (h.1 w hw) (Real.sqrt_nonneg _) (dist_near hl o w.1 w.2)).1
      rw [← not_le, ← not_le]
      exact not_congr this
    rw [e]
    split_ifs <;> rfl

/-! ### groups -/

theorem square_err (hl : LibObs.Accurate) (x : Fl) : Err 2 |x.val ^ 2| (LibObs.square x).val (x.val ^ 2) := by
  refine ⟨?_, le_rfl⟩
  have := hl.square x
  rw [abs_of_nonneg (sq_nonneg x.val)]
  have c1 : (2:ℝ) ^ (-52 : ℤ) = 2 * eps := by unfold eps; norm_num
  rwa [c1] at this

theorem square_zero (hl : LibObs.Accurate) (x : Fl) : (LibObs.square x).val = 0 ↔ x.val = 0 := by
  have := hl.square x
  constructor
  · intro h
    rw [h, zero_sub, abs_neg, abs_of_nonneg (sq_nonneg _)] at this
    have q : (2:ℝ) ^ (-52 : ℤ) ≤ 1/2 := by norm_num
    have := sq_nonneg x.val
    have : x.val ^ 2 = 0 := by
      generalize (2:ℝ) ^ (-52 : ℤ) = c at *
      nlinarith
    exact pow_eq_zero_iff (two_ne_zero) |>.mp this
  · intro h
    rw [h] at this
    simpa using this

theorem accumulate_fold (hl : LibObs.Accurate) (l : List FlObs) : ∀ num den : Fl, (∀ o ∈ l, o.std.val ≠ 0) →
    accumulate l num den = .ok (l.foldl (fun a o => a + o.z / LibObs.square o.std) num, l.foldl (fun a o => a + ((1 : ℕ) : Fl) / LibObs.square o.std) den) := by
  induction l with
  | nil => intro _ _ _; rfl
  | cons o os ih =>
    intro num den h
    rw [List.forall_mem_cons] at h
    rw [accumulate, if_neg (by rw [square_zero hl]; exact h.1), ih _ _ h.2]
    rfl

theorem accumulate_zero (hl : LibObs.Accurate) (l : List FlObs) : ∀ num den : Fl, (∃ o ∈ l, o.std.val = 0) → accumulate l num den = .error .zeroDivisionError := by
  induction l with
  | nil => rintro _ _ ⟨o, h, -⟩; simp at h
  | cons o os ih =>
    intro num den h
    rw [accumulate]
    by_cases h0 : (LibObs.square o.std).val = 0
    · rw [if_pos h0]
    · rw [if_neg h0]
      refine ih _ _ ?_
      obtain ⟨p, hp, h⟩ := h
      rcases List.mem_cons.mp hp with rfl | hp
      · exact absurd ((square_zero hl _).mpr h) h0
      · exact ⟨p, hp, h⟩

omit [LibObs] in
theorem zero_val : (((0 : ℕ) : Fl)).val = 0 := by
  have : round53 ((0 : ℕ) : ℝ) = 0 := by rw [Nat.cast_zero, round53_zero]
  exact this

omit [LibObs] in
theorem abs_sum_le (l : List FlObs) {M : ℝ} (hM : ∀ o ∈ l, |o.z.val| ≤ M) : (l.map fun o => |o.z.val| / |o.std.val ^ 2|).sum ≤ M * (l.map fun o => 1 / o.std.val ^ 2).sum := by
  rw [← List.sum_map_mul_left]
  refine List.sum_le_sum fun o ho => ?_
  rw [abs_of_nonneg (sq_nonneg o.std.val), mul_one_div]
  exact div_le_div_of_nonneg_right (hM o ho) (sq_nonneg _)

/-- the weighted average of a group -/
theorem group_near (hl : LibObs.Accurate) {l : List FlObs} (hne : l ≠ []) (h0 : ∀ o ∈ l, o.std.val ≠ 0) {N : ℕ} (hN : l.length ≤ N) (hN2 : N ≤ 2 ^ 40) {M : ℝ} (hM : ∀ o ∈ l, |o.z.val| ≤ M) (x y : Fl) :
    ∃ num den, accumulate l ((0 : ℕ) : Fl) ((0 : ℕ) : Fl) = .ok (num, den) ∧ Oneka.accumulate (l.map FlObs.exact) 0 0 = .ok ((l.map fun o => o.z.val / o.std.val ^ 2).sum, (l.map fun o => 1 / o.std.val ^ 2).sum) ∧
      NearObs ((5 * N + 14) * 2 ^ (-53 : ℤ)) M ⟨x, y, num / den, flSqrt (((1 : ℕ) : Fl) / den)⟩
        ⟨x.val, y.val, (l.map fun o => o.z.val / o.std.val ^ 2).sum / (l.map fun o => 1 / o.std.val ^ 2).sum, Real.sqrt (1 / (l.map fun o => 1 / o.std.val ^ 2).sum)⟩ := by
  have p := eps_pos
  have e : eps ≤ 1 / 2 ^ 53 := by unfold eps; norm_num
  have hn : (l.length : ℝ) ≤ N := by exact_mod_cast hN
  have hn2 : (N : ℝ) ≤ 2 ^ 40 := by exact_mod_cast hN2
  have hn3 : (l.length : ℝ) * eps ≤ 1 / 2 ^ 13 := by
    have : (l.length : ℝ) * eps ≤ 2 ^ 40 * (1 / 2 ^ 53) := mul_le_mul (hn.trans hn2) e p.le (by norm_num)
    norm_num at this ⊢; linarith
  have nn : (0:ℝ) ≤ l.length := Nat.cast_nonneg _
  refine ⟨_, _, accumulate_fold hl l _ _ h0, ?_, ?_⟩
  · have := accumulate_ok (l.map FlObs.exact) 0 0 (by simpa [FlObs.exact] using h0)
    rw [this, zero_add, zero_add, List.map_map, List.map_map]
    rfl
  have e8 : eps ≤ 1/32 := by linarith [eps_small]
  have t1 : ∀ o ∈ l, Err 5 (1 / |o.std.val ^ 2|) (((1 : ℕ) : Fl) / LibObs.square o.std).val (1 / o.std.val ^ 2) := by
    intro o ho
    have w : Err 0 1 ((1 : ℕ) : Fl).val 1 := by rw [one_val]; simpa using Err.self 1
    exact (w.div (square_err hl o.std) le_rfl (by norm_num) (pow_ne_zero 2 (h0 o ho)) (by linarith)).mono (by norm_num) (by norm_num) le_rfl
  have t2 : ∀ o ∈ l, Err 5 (|o.z.val| / |o.std.val ^ 2|) (o.z / LibObs.square o.std).val (o.z.val / o.std.val ^ 2) := by
    intro o ho
    exact ((Err.self o.z.val).div (square_err hl o.std) le_rfl (by norm_num) (pow_ne_zero 2 (h0 o ho)) (by linarith)).mono (by norm_num) (by norm_num) le_rfl
  have z0 : Err (5 + 2 * (0 : ℕ)) 0 ((0 : ℕ) : Fl).val 0 := by rw [zero_val]; simp [Err]
  have lim : (5 + 2 * ((0 + l.length : ℕ) : ℝ)) * eps ≤ 1/4 := by
    push_cast
    linarith
  have s1 := Err.sum (by norm_num) l _ _ _ t1 ((0 : ℕ) : Fl) 0 0 0 z0 lim
  have s2 := Err.sum (by norm_num) l _ _ _ t2 ((0 : ℕ) : Fl) 0 0 0 z0 lim
  have W0 : 0 < (l.map fun o => 1 / o.std.val ^ 2).sum := by
    have := precision_pos (l := l.map FlObs.exact) (by simpa using hne) (by simpa [FlObs.exact] using h0)
    rw [List.map_map] at this
    exact this
  have ab : (l.map fun o => 1 / |o.std.val ^ 2|) = l.map fun o => 1 / o.std.val ^ 2 := by
    refine List.map_congr_left fun o _ => ?_
    rw [abs_of_nonneg (sq_nonneg _)]
  have SM := abs_sum_le l hM
  rw [zero_add, zero_add, ab, zero_add] at s1
  rw [zero_add, zero_add, zero_add] at s2
  generalize (l.map fun o => 1 / o.std.val ^ 2).sum = W at *
  generalize (l.map fun o => o.z.val / o.std.val ^ 2).sum = Z at *
  generalize (l.map fun o => |o.z.val| / |o.std.val ^ 2|).sum = S at *
  generalize (l.foldl (fun a o => a + ((1 : ℕ) : Fl) / LibObs.square o.std) ((0 : ℕ) : Fl)) = den at *
  generalize (l.foldl (fun a o => a + o.z / LibObs.square o.std) ((0 : ℕ) : Fl)) = num at *
  have s1' : Err (5 + 2 * l.length) |W| den.val W := by rw [abs_of_pos W0]; exact s1
  have hM0 : S / |W| ≤ M := by rw [abs_of_pos W0, div_le_iff₀ W0]; exact SM
  have S0 := s2.nonneg
  have M0 : 0 ≤ M := le_trans (by positivity) hM0
  refine ⟨rfl, rfl, ?_, ?_⟩
  · have q := (s2.div s1' (by positivity) (by positivity) W0.ne' (by linarith)).1
    refine q.trans ?_
    refine mul_le_mul ?_ hM0 (by positivity) (by positivity)
    change _ ≤ _ * eps
    refine mul_le_mul_of_nonneg_right ?_ p.le
    linarith
  · have w : Err 0 1 ((1 : ℕ) : Fl).val 1 := by rw [one_val]; simpa using Err.self 1
    have q := w.div s1' le_rfl (by positivity) W0.ne' (by linarith)
    have q' : Err (8 / 7 * (0 + (5 + 2 * (l.length : ℝ))) + 2) |1 / W| (((1 : ℕ) : Fl) / den).val (1 / W) := by
      rw [abs_div, abs_one]; exact q
    have r := (Err_sqrt' (by positivity) (by positivity) q').round (by linarith)
    refine r.1.trans ?_
    change _ ≤ (5 * (N:ℝ) + 14) * eps * |Real.sqrt (1 / W)|
    refine mul_le_mul_of_nonneg_right (mul_le_mul_of_nonneg_right ?_ p.le) (abs_nonneg _)
    linarith

/-- the observation that replaces a group -/
theorem mergeGroup_near (hl : LibObs.Accurate) (o : FlObs) (os : List FlObs) {N : ℕ} (hN : (o :: os).length ≤ N) (hN2 : N ≤ 2 ^ 40) {M : ℝ} (hM : ∀ p ∈ o :: os, |p.z.val| ≤ M) :
    (∀ err, mergeGroup o os = .error err ↔ Oneka.mergeGroup o.exact (os.map FlObs.exact) = .error err) ∧
    (∀ f, mergeGroup o os = .ok f → ∃ e, Oneka.mergeGroup o.exact (os.map FlObs.exact) = .ok e ∧ NearObs ((5 * N + 14) * 2 ^ (-53 : ℤ)) M f e) := by
  have M0 : 0 ≤ M := (abs_nonneg _).trans (hM o (by simp))
  cases os with
  | nil =>
    rw [List.map_nil, Oneka.mergeGroup, if_pos rfl, mergeGroup]
    refine ⟨fun err => by simp, ?_⟩
    rintro f h
    obtain rfl := Except.ok.inj h
    refine ⟨_, rfl, rfl, rfl, ?_, ?_⟩ <;> (simp only [FlObs.exact, sub_self, abs_zero]; positivity)
  | cons p ps =>
    rw [Oneka.mergeGroup, if_neg (by simp), mergeGroup]
    by_cases h0 : ∀ q ∈ o :: p :: ps, q.std.val ≠ 0
    · obtain ⟨num, den, e1, e2, e3⟩ := group_near hl (l := o :: p :: ps) (by simp) h0 hN hN2 hM o.x o.y
      rw [e1]
      rw [List.map_cons] at e2
      rw [e2]
      refine ⟨fun err => by simp, ?_⟩
      intro f h
      obtain rfl := Except.ok.inj h
      exact ⟨_, rfl, e3⟩
    · push Not at h0
      rw [accumulate_zero hl _ _ _ h0]
      have := accumulate_error ((o :: p :: ps).map FlObs.exact) 0 0 (by obtain ⟨q, h1, h2⟩ := h0; exact ⟨q.exact, List.mem_map_of_mem h1, h2⟩)
      rw [List.map_cons] at this
      rw [this]
      exact ⟨fun err => by simp, fun f h => by simp at h⟩

omit [LibObs] in
theorem takeWhile_map' {α β : Type} (f : α → β) (P : α → Bool) (Q : β → Bool) : ∀ l : List α, (∀ a ∈ l, P a = Q (f a)) →
    (l.takeWhile P).map f = (l.map f).takeWhile Q ∧ (l.dropWhile P).map f = (l.map f).dropWhile Q := by
  intro l
  induction l with
  | nil => intro _; exact ⟨rfl, rfl⟩
  | cons a l ih =>
    intro h
    rw [List.forall_mem_cons] at h
    rw [List.map_cons, List.takeWhile_cons, List.takeWhile_cons, List.dropWhile_cons, List.dropWhile_cons, h.1]
    obtain ⟨i1, i2⟩ := ih h.2
    cases Q (f a)
    · exact ⟨rfl, rfl⟩
    · exact ⟨by simp [i1], by simpa using i2⟩

theorem mergeRuns_near (hl : LibObs.Accurate) {N : ℕ} (hN2 : N ≤ 2 ^ 40) {M : ℝ} : ∀ (n : ℕ) (l : List FlObs), l.length ≤ n → l.length ≤ N → (∀ p ∈ l, |p.z.val| ≤ M) → (∀ o ∈ l, ∀ p ∈ l, Clear (o.dist p.x p.y) 1) →
    (∀ err, mergeRuns l = .error err ↔ Oneka.mergeRuns (l.map FlObs.exact) = .error err) ∧
    (∀ f, mergeRuns l = .ok f → ∃ e, Oneka.mergeRuns (l.map FlObs.exact) = .ok e ∧ List.Forall₂ (NearObs ((5 * N + 14) * 2 ^ (-53 : ℤ)) M) f e) := by
  intro n
  induction n with
  | zero =>
    intro l h _ _ _
    obtain rfl : l = [] := List.length_eq_zero_iff.mp (by omega)
    rw [List.map_nil, mergeRuns, Oneka.mergeRuns]
    refine ⟨fun err => by simp, ?_⟩
    intro f h
    obtain rfl := Except.ok.inj h
    exact ⟨[], rfl, .nil⟩
  | succ n ih =>
    intro l hn hN hM hc
    cases l with
    | nil =>
      rw [List.map_nil, mergeRuns, Oneka.mergeRuns]
      refine ⟨fun err => by simp, ?_⟩
      intro f h
      obtain rfl := Except.ok.inj h
      exact ⟨[], rfl, .nil⟩
    | cons o rest =>
      have hP : ∀ p ∈ rest, decide (LibObs.hypot (o.x - p.x) (o.y - p.y) < ((1 : ℕ) : Fl)) = decide (hypot (o.exact.x - p.exact.x) (o.exact.y - p.exact.y) < 1) := by
        intro p hp
        rw [decide_eq_decide, Fl.lt_iff, one_val, hypot_dist]
        exact (clear_iff (hc o (by simp) p (by simp [hp])) (Real.sqrt_nonneg _) (dist_near hl o p.x p.y)).2
      obtain ⟨m1, m2⟩ := takeWhile_map' FlObs.exact _ (fun p => decide (hypot (o.exact.x - p.x) (o.exact.y - p.y) < 1)) rest hP
      rw [List.map_cons, mergeRuns, Oneka.mergeRuns, ← m1, ← m2]
      have sub1 := (List.takeWhile_prefix (fun p : FlObs => decide (LibObs.hypot (o.x - p.x) (o.y - p.y) < ((1 : ℕ) : Fl))) (l := rest)).sublist
      have sub2 := (List.dropWhile_suffix (fun p : FlObs => decide (LibObs.hypot (o.x - p.x) (o.y - p.y) < ((1 : ℕ) : Fl))) (l := rest)).sublist
      generalize rest.takeWhile (fun p : FlObs => decide (LibObs.hypot (o.x - p.x) (o.y - p.y) < ((1 : ℕ) : Fl))) = tk at *
      generalize rest.dropWhile (fun p : FlObs => decide (LibObs.hypot (o.x - p.x) (o.y - p.y) < ((1 : ℕ) : Fl))) = dr at *
      have len1 := sub1.length_le
      have len2 := sub2.length_le
      rw [List.length_cons] at hn hN
      obtain ⟨g1, g2⟩ := mergeGroup_near hl o tk (N := N) (by rw [List.length_cons]; omega) hN2 (M := M)
        (fun p hp => hM p (by rcases List.mem_cons.mp hp with rfl | h <;> simp [*]; exact .inr (sub1.subset h)))
      obtain ⟨i1, i2⟩ := ih dr (by omega) (by omega) (fun p hp => hM p (List.mem_cons_of_mem _ (sub2.subset hp)))
        (fun a ha b hb => hc a (List.mem_cons_of_mem _ (sub2.subset ha)) b (List.mem_cons_of_mem _ (sub2.subset hb)))
      cases hg : mergeGroup o tk with
      | error e =>
        rw [(g1 e).mp hg]
        exact ⟨fun err => by simp, fun f h => by simp at h⟩
      | ok r =>
        obtain ⟨r', hr', hrr⟩ := g2 r hg
        rw [hr']
        cases hm : mergeRuns dr with
        | error e =>
          rw [(i1 e).mp hm]
          exact ⟨fun err => by simp, fun f h => by simp at h⟩
        | ok rs =>
          obtain ⟨rs', hrs', hf⟩ := i2 rs hm
          rw [hrs']
          refine ⟨fun err => by simp, ?_⟩
          intro f h
          obtain rfl := Except.ok.inj h
          exact ⟨_, rfl, .cons hrr hf⟩

/-- the places of the observations returned -/
theorem mergeGroup_place {o : FlObs} {os : List FlObs} {r : FlObs} (h : mergeGroup o os = .ok r) : r.x = o.x ∧ r.y = o.y := by
  cases os with
  | nil =>
    obtain rfl := Except.ok.inj h
    exact ⟨rfl, rfl⟩
  | cons p ps =>
    rw [mergeGroup] at h
    split at h
    · simp at h
    · obtain rfl := Except.ok.inj h
      exact ⟨rfl, rfl⟩

theorem mergeRuns_places (hl : LibObs.Accurate) : ∀ (n : ℕ) (l out : List FlObs), l.length ≤ n → mergeRuns l = .ok out →
    (∀ r ∈ out, ∃ o ∈ l, r.x = o.x ∧ r.y = o.y) ∧ (∀ o ∈ l, ∃ r ∈ out, (1 - 2 ^ (-51 : ℤ)) * r.dist o.x o.y < 1) ∧
    out.IsChain (fun a b => 1 ≤ (1 + 2 ^ (-51 : ℤ)) * a.dist b.x b.y) ∧ (∀ r ∈ out.head?, ∃ o ∈ l.head?, r.x = o.x ∧ r.y = o.y) := by
  intro n
  induction n with
  | zero =>
    intro l out h hm
    obtain rfl : l = [] := List.length_eq_zero_iff.mp (by omega)
    rw [mergeRuns] at hm
    obtain rfl := Except.ok.inj hm
    simp
  | succ n ih =>
    intro l out hn hm
    cases l with
    | nil =>
      rw [mergeRuns] at hm
      obtain rfl := Except.ok.inj hm
      simp
    | cons o rest =>
      rw [mergeRuns] at hm
      have split := List.takeWhile_append_dropWhile (p := fun p : FlObs => decide (LibObs.hypot (o.x - p.x) (o.y - p.y) < ((1 : ℕ) : Fl))) (l := rest)
      have near : ∀ p ∈ rest.takeWhile (fun p : FlObs => decide (LibObs.hypot (o.x - p.x) (o.y - p.y) < ((1 : ℕ) : Fl))), LibObs.hypot (o.x - p.x) (o.y - p.y) < ((1 : ℕ) : Fl) :=
        fun p hp => by simpa using List.mem_takeWhile_imp hp
      have far : ∀ p ∈ (rest.dropWhile (fun p : FlObs => decide (LibObs.hypot (o.x - p.x) (o.y - p.y) < ((1 : ℕ) : Fl)))).head?, ¬ LibObs.hypot (o.x - p.x) (o.y - p.y) < ((1 : ℕ) : Fl) := by
        intro p hp
        have := List.head?_dropWhile_not (fun p : FlObs => decide (LibObs.hypot (o.x - p.x) (o.y - p.y) < ((1 : ℕ) : Fl))) rest
        rw [Option.mem_def.mp hp] at this
        simpa using this
      generalize rest.takeWhile (fun p : FlObs => decide (LibObs.hypot (o.x - p.x) (o.y - p.y) < ((1 : ℕ) : Fl))) = tk at *
      generalize rest.dropWhile (fun p : FlObs => decide (LibObs.hypot (o.x - p.x) (o.y - p.y) < ((1 : ℕ) : Fl))) = dr at *
      subst split
      cases hg : mergeGroup o tk with
      | error e => rw [hg] at hm; simp at hm
      | ok r =>
        rw [hg] at hm
        dsimp only at hm
        cases hr : mergeRuns dr with
        | error e => rw [hr] at hm; simp at hm
        | ok rs =>
          rw [hr] at hm
          obtain rfl := Except.ok.inj hm
          obtain ⟨px, py⟩ := mergeGroup_place hg
          obtain ⟨i1, i2, i3, i4⟩ := ih dr rs (by simp only [List.length_cons, List.length_append] at hn; omega) hr
          have rd : ∀ x y, r.dist x y = o.dist x y := by intro x y; unfold FlObs.dist; rw [px, py]
          refine ⟨?_, ?_, ?_, ?_⟩
          · intro q hq
            rcases List.mem_cons.mp hq with rfl | hq
            · exact ⟨o, by simp, px, py⟩
            · obtain ⟨p, hp, h⟩ := i1 q hq
              exact ⟨p, by simp [hp], h⟩
          · intro q hq
            rcases List.mem_cons.mp hq with rfl | hq
            · refine ⟨r, by simp, ?_⟩
              rw [rd]
              simp [FlObs.dist]
            rcases List.mem_append.mp hq with hq | hq
            · refine ⟨r, by simp, ?_⟩
              rw [rd]
              have h1 := near q hq
              rw [Fl.lt_iff, one_val] at h1
              have h2 := (abs_le.mp (dist_near hl o q.x q.y)).1
              linarith
            · obtain ⟨p, hp, h⟩ := i2 q hq
              exact ⟨p, by simp [hp], h⟩
          · rw [List.isChain_cons]
            refine ⟨?_, i3⟩
            intro q hq
            obtain ⟨p, hp, e1, e2⟩ := i4 q hq
            have h1 := far p hp
            rw [Fl.lt_iff, one_val, not_lt] at h1
            have h2 := (abs_le.mp (dist_near hl o p.x p.y)).2
            rw [rd, e1, e2]
            linarith
          · intro q hq
            obtain rfl : r = q := by simpa using hq
            exact ⟨o, by simp, px, py⟩

end FlUtil

end Oneka
