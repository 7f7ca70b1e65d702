import Verif.Lemmas.FlAny
import Verif.Lemmas.FlHistory
import Verif.Lemmas.PropsReach

/-! # Bounds that survive rounding: weights, and the coordinates of the grid -/

namespace Oneka

theorem Fl.not_lt_of_le {a b : Fl} (h : a.val ≤ b.val) : ¬ b < a := by rw [Fl.lt_iff]; exact not_lt.mpr h

namespace PField

/-! ### one call: shapes, exceptions, weights -/

/-- The shapes are as announced and, if `P`, no entry is negative or exceeds the total weight. -/
structure Held (P : Prop) (f : PField Fl) : Prop where
  shaped : f.Shaped
  body : P → ∀ b, f.body = some b → 0 ≤ b.totalWeight.val ∧ ∀ i j, i < f.nrows → j < f.ncols →
    0 ≤ (b.pgrid.val i j).val ∧ (b.pgrid.val i j).val ≤ b.totalWeight.val

variable {P : Prop}

theorem new_held {dx dy : Fl} {xo yo : Option Fl} {f : PField Fl} (h : new dx dy xo yo = .ok f) : f.Held P := by
  refine ⟨new_shaped h, fun _ => ?_⟩
  unfold new at h
  split_ifs at h
  split at h
  · obtain rfl := Except.ok.inj h
    intro b hb
    obtain rfl := Option.some.inj hb
    refine ⟨by simp, fun i j _ _ => ?_⟩
    simp [Grid.full]
  · obtain rfl := Except.ok.inj h
    simp

theorem expand_held {f : PField Fl} (hf : f.Held P) {x0 x1 y0 y1 : Fl} {R : Except PyErr (PField Fl)} (h : f.expand x0 x1 y0 y1 = some R) :
    (R = .error .rangeError ∧ (x1.val < x0.val ∨ y1.val < y0.val)) ∨
      ∃ f' b', R = .ok f' ∧ f'.Held P ∧ f'.body = some b' ∧ f.exact.total ≤ b'.totalWeight.val := by
  rcases expand_shaped hf.shaped h with ⟨e, hr⟩ | ⟨f', e, _, _⟩
  · exact Or.inl ⟨e, hr⟩
  · right
    by_cases hx : x1 < x0
    · unfold expand at h; rw [if_pos hx, e] at h; simp at h
    by_cases hy : y1 < y0
    · unfold expand at h; rw [if_neg hx, if_pos hy, e] at h; simp at h
    cases hb : f.body with
    | none =>
      obtain ⟨f2, b', e2, hb', _, _, t, p, _, s⟩ := expand_fresh f hf.shaped hb x0 x1 y0 y1 hx hy
      rw [e2] at h
      refine ⟨f2, b', (Option.some.inj h).symm, ⟨s, ?_⟩, hb', ?_⟩
      · intro _ c hc
        obtain rfl := Option.some.inj (hb'.symm.trans hc)
        rw [t]
        refine ⟨by simp, fun i j _ _ => ?_⟩
        rw [p]; simp
      · rw [t]; simp [total, exact, hb]
    | some b =>
      obtain ⟨f2, b', r, c, e2, g⟩ := expand_grown f b hf.shaped hb x0 x1 y0 y1 hx hy h
      refine ⟨f2, b', e2, ⟨g.shaped, ?_⟩, g.body, ?_⟩
      · intro hP c' hc'
        obtain ⟨t0, hp⟩ := hf.body hP b hb
        obtain rfl := Option.some.inj (g.body.symm.trans hc')
        rw [g.total]
        refine ⟨t0, fun i j hi hj => ?_⟩
        rw [g.pval i j hi hj]
        split_ifs with hc
        · exact hp _ _ (by omega) (by omega)
        · simp [t0]
      · rw [g.total]; simp [total, exact_body hb, Body.exact]

theorem insert_held {f f' : PField Fl} (hf : f.Held P) (s : f'.Shaped) {b : Body Fl} {g' : Grid Bool} (hb : f.body = some b)
    (e : f' = { f with body := some { b with rgrid := g' } }) : f'.Held P ∧ f'.exact.total = f.exact.total := by
  refine ⟨⟨s, ?_⟩, ?_⟩
  · intro hP c hc
    rw [e] at hc ⊢
    obtain rfl := Option.some.inj hc
    exact hf.body hP b hb
  · simp [total, e, exact, hb, Body.exact]

/-- One call on a field: what is kept, and what may be raised. -/
theorem step_held {f : PField Fl} (hf : f.Held P) (c : Call Fl) (hw : P → ∀ w, c = .register w → 0 ≤ w.val) {f' : PField Fl} {r : Except PyErr Unit}
    (h : f.step c = some (f', r)) : f'.Held P ∧ (P → f.exact.total ≤ f'.exact.total) ∧ ∀ e, r = .error e → f.MayRaise c e := by
  cases c with
  | expand x0 x1 y0 y1 =>
    simp only [step, Option.map_eq_some_iff] at h
    obtain ⟨R, hR, h⟩ := h
    rcases expand_held hf hR with ⟨rfl, hr⟩ | ⟨f2, b2, rfl, h2, hb2, ht⟩
    · obtain ⟨rfl, rfl⟩ := Prod.mk.inj h
      exact ⟨hf, fun _ => le_refl _, fun e he => by obtain rfl := Except.error.inj he; exact ⟨rfl, hr⟩⟩
    · obtain ⟨rfl, rfl⟩ := Prod.mk.inj h
      refine ⟨h2, fun _ => ?_, fun e he => by simp at he⟩
      unfold total at ht ⊢
      rw [exact_body hb2]; exact ht
  | insert ax ay bx by' u =>
    simp only [step, Option.some.injEq] at h
    rcases insert_shaped hf.shaped ax ay bx by' u rfl with ⟨e, hn⟩ | ⟨f2, b, g', hb, e1, e2, s⟩
    · rw [e] at h
      obtain ⟨rfl, rfl⟩ := Prod.mk.inj h
      exact ⟨hf, fun _ => le_refl _, fun e he => by obtain rfl := Except.error.inj he; exact ⟨rfl, hn⟩⟩
    · rw [e2] at h
      obtain ⟨rfl, rfl⟩ := Prod.mk.inj h
      obtain ⟨h1, h2⟩ := insert_held hf s hb e1
      exact ⟨h1, fun _ => h2.ge, fun e he => by simp at he⟩
  | rasterize x y u =>
    simp only [step] at h
    unfold rasterize at h
    by_cases hx : x = []
    · subst hx
      simp only [pyMin, Option.some.injEq] at h
      obtain ⟨rfl, rfl⟩ := Prod.mk.inj h
      exact ⟨hf, fun _ => le_refl _, fun e he => by obtain rfl := Except.error.inj he; exact Or.inl ⟨rfl, Or.inl rfl⟩⟩
    by_cases hy : y = []
    · subst hy
      have : some (f, Except.error PyErr.valueError) = some (f', r) := by
        rw [← h]
        cases pyMin x <;> cases pyMax x <;> rfl
      obtain ⟨rfl, rfl⟩ := Prod.mk.inj (Option.some.inj this)
      exact ⟨hf, fun _ => le_refl _, fun e he => by obtain rfl := Except.error.inj he; exact Or.inl ⟨rfl, Or.inr rfl⟩⟩
    obtain ⟨x0, ex0, mx0, lx0⟩ := pyMin_val x hx
    obtain ⟨x1, ex1, mx1, lx1⟩ := pyMax_val x hx
    obtain ⟨y0, ey0, my0, ly0⟩ := pyMin_val y hy
    obtain ⟨y1, ey1, my1, ly1⟩ := pyMax_val y hy
    rw [ex0, ex1, ey0, ey1] at h
    dsimp only at h
    cases hE : f.expand x0 x1 y0 y1 with
    | none => rw [hE] at h; simp at h
    | some R =>
      rw [hE] at h
      rcases expand_held hf hE with ⟨_, hr⟩ | ⟨f2, b2, rfl, h2, hb2, ht⟩
      · have := lx0 _ mx1
        have := ly0 _ my1
        exfalso
        rcases hr with hr | hr <;> linarith
      · simp only [Option.some.injEq] at h
        obtain ⟨s, ⟨g', e⟩, hr⟩ := rasterLoop_shaped x y u _ f2 b2 h2.shaped hb2 (fun i hi => by rw [List.mem_range] at hi; omega) h
        obtain ⟨k1, k2⟩ := insert_held h2 s hb2 e
        refine ⟨k1, fun _ => ?_, ?_⟩
        · rw [k2]; unfold total at ht ⊢; rw [exact_body hb2]; exact ht
        · intro e he
          rcases hr with hr | ⟨hr, hl⟩
          · rw [hr] at he; simp at he
          · rw [hr] at he; obtain rfl := Except.error.inj he
            exact Or.inr ⟨rfl, hl⟩
  | register w =>
    simp only [step, Option.some.injEq] at h
    cases hb : f.body with
    | none =>
      unfold register at h; rw [hb] at h
      obtain ⟨rfl, rfl⟩ := Prod.mk.inj h
      exact ⟨hf, fun _ => le_refl _, fun e he => by obtain rfl := Except.error.inj he; exact ⟨rfl, hb⟩⟩
    | some b =>
      obtain ⟨hr3, hc3, hpr, hpc, hrr, hrc⟩ := hf.shaped.grid b hb
      unfold register at h; rw [hb] at h
      simp only [hrr, hpr, hrc, hpc, and_self, if_true, lift] at h
      obtain ⟨rfl, rfl⟩ := Prod.mk.inj h
      have up : P → ∀ z : Fl, z.val ≤ round53 (z.val + w.val) := fun hP z => by
        have w0 := hw hP w rfl
        have := round53_mono (by linarith : z.val ≤ z.val + w.val)
        rw [z.isFloat] at this; exact this
      refine ⟨⟨⟨by simp, ?_⟩, ?_⟩, ?_, fun e he => by simp at he⟩
      · intro c hc
        obtain rfl := Option.some.inj hc
        exact ⟨hr3, hc3, rfl, rfl, rfl, rfl⟩
      · intro hP c hc
        obtain rfl := Option.some.inj hc
        obtain ⟨t0, hp⟩ := hf.body hP b hb
        refine ⟨t0.trans (up hP _), fun i j hi hj => ?_⟩
        obtain ⟨p1, p2⟩ := hp i j hi hj
        dsimp only
        split_ifs
        · exact ⟨p1.trans (up hP _), round53_mono (by linarith)⟩
        · exact ⟨p1, p2.trans (up hP _)⟩
      · intro hP
        simp only [total, exact, hb, Option.map_some, Body.exact]
        exact up hP _
  | reset =>
    simp only [step, Option.some.injEq] at h
    cases hb : f.body with
    | none =>
      unfold reset at h; rw [hb] at h
      obtain ⟨rfl, rfl⟩ := Prod.mk.inj h
      exact ⟨hf, fun _ => le_refl _, fun e he => by obtain rfl := Except.error.inj he; exact ⟨rfl, hb⟩⟩
    | some b =>
      obtain ⟨hr3, hc3, hpr, hpc, hrr, hrc⟩ := hf.shaped.grid b hb
      unfold reset at h; rw [hb] at h
      obtain ⟨rfl, rfl⟩ := Prod.mk.inj h
      refine ⟨⟨⟨by simp, ?_⟩, ?_⟩, ?_, fun e he => by simp at he⟩
      · intro c hc
        obtain rfl := Option.some.inj hc
        exact ⟨hr3, hc3, hpr, hpc, hrr, hrc⟩
      · intro hP c hc
        obtain rfl := Option.some.inj hc
        exact hf.body hP b hb
      · simp [total, exact, hb, Body.exact]

theorem run_held (cs : List (Call Fl)) : ∀ f : PField Fl, f.Held P → (P → ∀ w, Call.register w ∈ cs → 0 ≤ w.val) → ∀ {f'}, f.run cs = some f' →
    f'.Held P ∧ (P → f.exact.total ≤ f'.exact.total) := by
  induction cs with
  | nil => intro f hf _ f' h; obtain rfl := Option.some.inj h; exact ⟨hf, fun _ => le_refl _⟩
  | cons c cs ih =>
    intro f hf hw f' h
    simp only [run] at h
    cases e : f.step c with
    | none => rw [e] at h; simp at h
    | some q =>
      obtain ⟨f1, r⟩ := q
      rw [e] at h
      obtain ⟨h1, t1, _⟩ := step_held hf c (fun hP w hc => hw hP w (by simp [hc])) e
      obtain ⟨h2, t2⟩ := ih f1 h1 (fun hP w hc => hw hP w (by simp [hc])) h
      exact ⟨h2, fun hP => (t1 hP).trans (t2 hP)⟩

/-! ### the growth loops return -/

theorem round53_near {x P s : ℝ} (hx : |x| ≤ P) (hs : eps * P ≤ s) : x - s ≤ round53 x ∧ round53 x ≤ x + s := by
  have h := round53_accurate x
  change |round53 x - x| ≤ eps * |x| at h
  have h2 : eps * |x| ≤ eps * P := mul_le_mul_of_nonneg_left hx eps_pos.le
  obtain ⟨h3, h4⟩ := abs_le.mp h
  constructor <;> linarith

theorem growLow_returns {x d : Fl} {P : ℝ} (d0 : 0 < d.val) (hs : 4 * (eps * (P + d.val)) ≤ d.val) (hx : -P ≤ x.val) (m : ℕ) : ∀ (g : Fl) (n s : ℕ),
    g.val ≤ P → g.val - x.val < m * (3 / 4 * d.val) → ∃ r, growLow x d g n s = some r ∧ r.1.val ≤ g.val ∧ (r.1 = g ∨ x.val - 5 / 4 * d.val ≤ r.1.val) := by
  induction m with
  | zero =>
    intro g n s _ h
    rw [growLow, if_neg (by rw [Fl.le_iff]; simp at h; linarith)]
    exact ⟨_, rfl, le_refl _, Or.inl rfl⟩
  | succ m ih =>
    intro g n s hg h
    rw [growLow]
    by_cases hc : x ≤ g
    · rw [if_pos hc]
      have hc' : x.val ≤ g.val := hc
      obtain ⟨h1, h2⟩ := round53_near (x := g.val - d.val) (P := P + d.val) (s := d.val / 4) (by rw [abs_le]; constructor <;> linarith) (by linarith)
      have hv : (g - d).val = round53 (g.val - d.val) := rfl
      push_cast at h
      obtain ⟨r, e, k1, k2⟩ := ih (g - d) (n + 1) (s + 1) (by rw [hv]; linarith) (by rw [hv]; linarith)
      rw [hv] at k1
      refine ⟨r, e, by linarith, Or.inr ?_⟩
      rcases k2 with k2 | k2
      · rw [k2, hv]; linarith
      · exact k2
    · rw [if_neg hc]
      exact ⟨_, rfl, le_refl _, Or.inl rfl⟩

theorem growHigh_returns {x d : Fl} {P : ℝ} (d0 : 0 < d.val) (hs : 4 * (eps * (P + d.val)) ≤ d.val) (hx : x.val ≤ P) (m : ℕ) : ∀ (g : Fl) (n : ℕ),
    -P ≤ g.val → x.val - g.val < m * (3 / 4 * d.val) → ∃ r, growHigh x d g n = some r ∧ g.val ≤ r.1.val ∧ (r.1 = g ∨ r.1.val ≤ x.val + 5 / 4 * d.val) := by
  induction m with
  | zero =>
    intro g n _ h
    rw [growHigh, if_neg (by rw [Fl.le_iff]; simp at h; linarith)]
    exact ⟨_, rfl, le_refl _, Or.inl rfl⟩
  | succ m ih =>
    intro g n hg h
    rw [growHigh]
    by_cases hc : g ≤ x
    · rw [if_pos hc]
      have hc' : g.val ≤ x.val := hc
      obtain ⟨h1, h2⟩ := round53_near (x := g.val + d.val) (P := P + d.val) (s := d.val / 4) (by rw [abs_le]; constructor <;> linarith) (by linarith)
      have hv : (g + d).val = round53 (g.val + d.val) := rfl
      push_cast at h
      obtain ⟨r, e, k1, k2⟩ := ih (g + d) (n + 1) (by rw [hv]; linarith) (by rw [hv]; linarith)
      rw [hv] at k1
      refine ⟨r, e, by linarith, Or.inr ?_⟩
      rcases k2 with k2 | k2
      · rw [k2, hv]; linarith
      · exact k2
    · rw [if_neg hc]
      exact ⟨_, rfl, le_refl _, Or.inl rfl⟩

theorem exists_steps (z : ℝ) {d : ℝ} (d0 : 0 < d) : ∃ m : ℕ, z < m * (3 / 4 * d) := by
  obtain ⟨m, hm⟩ := exists_nat_gt (z / (3 / 4 * d))
  exact ⟨m, by rwa [div_lt_iff₀ (by positivity)] at hm⟩

theorem first_edge_sum {s d m q p r M : ℝ} (d0 : 0 < d) (s0 : 0 ≤ s) (es : eps * s ≤ d / 8) (r1 : r ≤ (1 + eps) * s) (qd : q * d ≤ (1 + eps) * r)
    (hM : M ≤ q + 2) (m1 : m ≤ (1 + eps) * M) (p1 : p ≤ (1 + eps) * (m * d)) : p ≤ s + 11 / 4 * d := by
  have e0 := eps_pos
  have e1 := eps_small
  have o : 0 ≤ 1 + eps := by linarith
  have b1 : m * d ≤ (1 + eps) * (q * d + 2 * d) := by
    have h1 : m ≤ (1 + eps) * (q + 2) := m1.trans (mul_le_mul_of_nonneg_left hM o)
    have h2 := mul_le_mul_of_nonneg_right h1 d0.le
    linarith [h2, (by ring : (1 + eps) * (q + 2) * d = (1 + eps) * (q * d + 2 * d))]
  have b2 : q * d ≤ (1 + eps) * ((1 + eps) * s) := qd.trans (mul_le_mul_of_nonneg_left r1 o)
  have b3 : p ≤ (1 + eps) * ((1 + eps) * ((1 + eps) * ((1 + eps) * s) + 2 * d)) :=
    p1.trans (mul_le_mul_of_nonneg_left (b1.trans (mul_le_mul_of_nonneg_left (by linarith) o)) o)
  have k1 : (1 + eps) * ((1 + eps) * ((1 + eps) * ((1 + eps) * s) + 2 * d)) = s + (4 + 6 * eps + 4 * eps ^ 2 + eps ^ 3) * (eps * s) + 2 * (1 + eps) ^ 2 * d := by ring
  have q2 : eps ^ 2 ≤ 1 / 1000 := by
    have := pow_le_pow_left₀ e0.le e1 2
    exact this.trans (by norm_num)
  have q3 : eps ^ 3 ≤ 1 / 1000 := by
    have := pow_le_pow_left₀ e0.le e1 3
    exact this.trans (by norm_num)
  have k2 : 4 + 6 * eps + 4 * eps ^ 2 + eps ^ 3 ≤ 5 := by linarith
  have k3 : 2 * (1 + eps) ^ 2 ≤ 21 / 10 := by
    have : 2 * (1 + eps) ^ 2 = 2 + 4 * eps + 2 * eps ^ 2 := by ring
    linarith
  have k4 : (4 + 6 * eps + 4 * eps ^ 2 + eps ^ 3) * (eps * s) ≤ 5 * (d / 8) :=
    mul_le_mul k2 es (by positivity) (by norm_num)
  have k5 : 2 * (1 + eps) ^ 2 * d ≤ 21 / 10 * d := mul_le_mul_of_nonneg_right k3 d0.le
  rw [k1] at b3
  linarith

/-- The far edge of the first grid around a box. -/
theorem first_edge {Q d x0 x1 a : ℝ} (d0 : 0 < d) (Q0 : 0 ≤ Q) (hs : 16 * (eps * (Q + 8 * d)) ≤ d) (h01 : x0 ≤ x1) (hx0 : |x0| ≤ Q) (hx1 : |x1| ≤ Q)
    (ha : a = round53 (x0 - d)) {N : ℕ} (hN : (N : ℤ) = max 3 (⌈round53 (round53 (x1 - a) / d)⌉ + 2)) :
    |a| ≤ Q + 4 * d ∧ |round53 (a + round53 (round53 (((N : ℤ) - 1 : ℤ) : ℝ) * d))| ≤ Q + 4 * d := by
  have e0 := eps_pos
  have e1 := eps_small
  obtain ⟨l0, u0⟩ := abs_le.mp hx0
  obtain ⟨l1, u1⟩ := abs_le.mp hx1
  have c1 : eps * Q + 8 * (eps * d) ≤ d / 16 := by nlinarith
  have c2 : 0 ≤ eps * Q := by positivity
  have c3 : 0 < eps * d := by positivity
  obtain ⟨a1, a2⟩ := round53_near (x := x0 - d) (P := Q + d) (s := d / 16) (by rw [abs_le]; constructor <;> linarith) (by nlinarith)
  rw [← ha] at a1 a2
  have fa : round53 a = a := by rw [ha, round53_idem]
  set s := x1 - a with hsd
  have s0 : 0 ≤ s := by linarith
  have sW : s ≤ 2 * Q + 2 * d := by linarith
  have es : eps * s ≤ d / 8 := by nlinarith
  have up : ∀ z : ℝ, 0 ≤ z → 0 ≤ round53 z ∧ round53 z ≤ (1 + eps) * z := fun z hz => by
    have h1 := round53_mono hz
    rw [round53_zero] at h1
    have h2 := round53_accurate z
    rw [abs_of_nonneg hz] at h2
    have h3 := (abs_le.mp h2).2
    change _ ≤ eps * z at h3
    exact ⟨h1, by linarith⟩
  obtain ⟨r0, r1⟩ := up s s0
  set r := round53 s
  obtain ⟨q0, q1⟩ := up (r / d) (by positivity)
  set q := round53 (r / d)
  have qd : q * d ≤ (1 + eps) * r := by
    have := mul_le_mul_of_nonneg_right q1 d0.le
    rwa [mul_assoc, div_mul_cancel₀ _ d0.ne'] at this
  have cq := Int.ceil_lt_add_one q
  have hM : (((N : ℤ) - 1 : ℤ) : ℝ) ≤ q + 2 ∧ 0 ≤ (((N : ℤ) - 1 : ℤ) : ℝ) := by
    rw [hN]
    constructor
    · rcases le_total (3 : ℤ) (⌈q⌉ + 2) with h | h
      · rw [max_eq_right h]; push_cast; linarith
      · rw [max_eq_left h]; push_cast; linarith
    · have : (3 : ℤ) ≤ max 3 (⌈q⌉ + 2) := le_max_left _ _
      have : (0 : ℤ) ≤ max 3 (⌈q⌉ + 2) - 1 := by omega
      exact_mod_cast this
  set M := (((N : ℤ) - 1 : ℤ) : ℝ)
  obtain ⟨m0, m1⟩ := up M hM.2
  set m := round53 M
  obtain ⟨p0, p1⟩ := up (m * d) (by positivity)
  set p := round53 (m * d)
  have b4 : p ≤ s + 11 / 4 * d := first_edge_sum d0 s0 es r1 qd hM.1 m1 p1
  refine ⟨by rw [abs_le]; constructor <;> linarith, ?_⟩
  have lo := round53_mono (by linarith : a ≤ a + p)
  rw [fa] at lo
  obtain ⟨_, hi⟩ := round53_near (x := a + p) (P := Q + 3 * d) (s := d / 16) (by rw [abs_le]; constructor <;> linarith) (by nlinarith)
  rw [abs_le]
  constructor <;> linarith

/-- The spacings are not lost and the grid stays near the coordinates up to `Q`. -/
structure Near (Qx Qy : ℝ) (f : PField Fl) : Prop where
  shaped : f.Shaped
  dx0 : 0 < f.deltax.val
  dy0 : 0 < f.deltay.val
  sx : 16 * (eps * (Qx + 8 * f.deltax.val)) ≤ f.deltax.val
  sy : 16 * (eps * (Qy + 8 * f.deltay.val)) ≤ f.deltay.val
  body : ∀ b, f.body = some b → |b.xmin.val| ≤ Qx + 4 * f.deltax.val ∧ |b.xmax.val| ≤ Qx + 4 * f.deltax.val ∧
    |b.ymin.val| ≤ Qy + 4 * f.deltay.val ∧ |b.ymax.val| ≤ Qy + 4 * f.deltay.val

theorem Near.same {Qx Qy : ℝ} {f f' : PField Fl} (h : f.Near Qx Qy) (s : f'.Shaped) {b : Body Fl} {b' : Body Fl} (hb : f.body = some b)
    (e : f' = { f with body := some b' }) (x : b'.xmin = b.xmin ∧ b'.xmax = b.xmax ∧ b'.ymin = b.ymin ∧ b'.ymax = b.ymax) : f'.Near Qx Qy := by
  obtain ⟨x1, x2, x3, x4⟩ := x
  refine ⟨s, by rw [e]; exact h.dx0, by rw [e]; exact h.dy0, by rw [e]; exact h.sx, by rw [e]; exact h.sy, ?_⟩
  intro c hc
  rw [e] at hc ⊢
  obtain rfl := Option.some.inj hc
  rw [x1, x2, x3, x4]
  exact h.body b hb

/-- One side of `expand`. -/
theorem sides {x0 x1 d lo hi : Fl} {Q : ℝ} (d0 : 0 < d.val) (hs : 16 * (eps * (Q + 8 * d.val)) ≤ d.val) (h0 : |x0.val| ≤ Q) (h1 : |x1.val| ≤ Q)
    (hlo : |lo.val| ≤ Q + 4 * d.val) (hhi : |hi.val| ≤ Q + 4 * d.val) (n : ℕ) :
    (∃ r, growLow x0 d lo n 0 = some r ∧ |r.1.val| ≤ Q + 4 * d.val) ∧ ∀ n, ∃ r, growHigh x1 d hi n = some r ∧ |r.1.val| ≤ Q + 4 * d.val := by
  have e0 := eps_pos
  obtain ⟨a1, a2⟩ := abs_le.mp h0
  obtain ⟨b1, b2⟩ := abs_le.mp h1
  obtain ⟨c1, c2⟩ := abs_le.mp hlo
  obtain ⟨g1, g2⟩ := abs_le.mp hhi
  have Q0 : 0 ≤ Q := (abs_nonneg _).trans h0
  have s' : 4 * (eps * (Q + 4 * d.val + d.val)) ≤ d.val := by nlinarith [mul_pos e0 d0]
  constructor
  · obtain ⟨m, hm⟩ := exists_steps (lo.val - x0.val) d0
    obtain ⟨r, e, k1, k2⟩ := growLow_returns (P := Q + 4 * d.val) d0 s' (by linarith) m lo n 0 c2 hm
    refine ⟨r, e, abs_le.mpr ⟨?_, by linarith⟩⟩
    rcases k2 with k2 | k2
    · rw [k2]; exact c1
    · linarith
  · intro n
    obtain ⟨m, hm⟩ := exists_steps (x1.val - hi.val) d0
    obtain ⟨r, e, k1, k2⟩ := growHigh_returns (P := Q + 4 * d.val) d0 s' (by linarith) m hi n (by linarith) hm
    refine ⟨r, e, abs_le.mpr ⟨by linarith, ?_⟩⟩
    rcases k2 with k2 | k2
    · rw [k2]; exact g2
    · linarith

theorem expand_near {Qx Qy : ℝ} {f : PField Fl} (h : f.Near Qx Qy) {x0 x1 y0 y1 : Fl} (q1 : |x0.val| ≤ Qx) (q2 : |x1.val| ≤ Qx) (q3 : |y0.val| ≤ Qy)
    (q4 : |y1.val| ≤ Qy) : ∃ R, f.expand x0 x1 y0 y1 = some R ∧ ∀ f', R = .ok f' → f'.Near Qx Qy := by
  have Qx0 : 0 ≤ Qx := (abs_nonneg _).trans q1
  have Qy0 : 0 ≤ Qy := (abs_nonneg _).trans q3
  by_cases hx : x1 < x0
  · exact ⟨_, by unfold expand; rw [if_pos hx], fun f' e => by simp at e⟩
  by_cases hy : y1 < y0
  · exact ⟨_, by unfold expand; rw [if_neg hx, if_pos hy], fun f' e => by simp at e⟩
  cases hb : f.body with
  | none =>
    obtain ⟨hn, hc⟩ := h.shaped.empty hb
    obtain ⟨f', b', e, hb', _, _, _, _, _, s⟩ := expand_fresh f h.shaped hb x0 x1 y0 y1 hx hy
    refine ⟨_, e, fun f2 e2 => ?_⟩
    obtain rfl := Except.ok.inj e2
    unfold expand at e
    rw [if_neg hx, if_neg hy, if_pos (Or.inl hc)] at e
    have e' := Except.ok.inj (Option.some.inj e)
    refine ⟨s, by rw [← e']; exact h.dx0, by rw [← e']; exact h.dy0, by rw [← e']; exact h.sx, by rw [← e']; exact h.sy, ?_⟩
    intro c hc'
    rw [← e'] at hc' ⊢
    obtain rfl := Option.some.inj hc'
    have k1 := first_edge (x0 := x0.val) (x1 := x1.val) h.dx0 Qx0 h.sx (by rw [Fl.lt_iff] at hx; linarith) q1 q2 rfl
      (N := (max 3 (PyFloor.ceil ((x1 - (x0 - f.deltax)) / f.deltax) + 2)).toNat) (by rw [Int.toNat_of_nonneg (by omega)]; rfl)
    have k2 := first_edge (x0 := y0.val) (x1 := y1.val) h.dy0 Qy0 h.sy (by rw [Fl.lt_iff] at hy; linarith) q3 q4 rfl
      (N := (max 3 (PyFloor.ceil ((y1 - (y0 - f.deltay)) / f.deltay) + 2)).toNat) (by rw [Int.toNat_of_nonneg (by omega)]; rfl)
    exact ⟨k1.1, k1.2, k2.1, k2.2⟩
  | some b =>
    obtain ⟨p1, p2, p3, p4⟩ := h.body b hb
    obtain ⟨hr3, hc3, hpr, hpc, hrr, hrc⟩ := h.shaped.grid b hb
    obtain ⟨⟨⟨G1, n1, c⟩, e1, k1⟩, K2⟩ := sides h.dx0 h.sx q1 q2 p1 p2 f.ncols
    obtain ⟨⟨G2, n2⟩, e2, k2⟩ := K2 n1
    obtain ⟨⟨⟨G3, n3, r⟩, e3, k3⟩, K4⟩ := sides h.dy0 h.sy q3 q4 p3 p4 f.nrows
    obtain ⟨⟨G4, n4⟩, e4, k4⟩ := K4 n3
    have hne : ¬ (f.ncols = 0 ∨ f.nrows = 0) := by omega
    obtain ⟨R, hR⟩ : ∃ R, f.expand x0 x1 y0 y1 = some R := by
      unfold expand
      rw [if_neg hx, if_neg hy, if_neg hne, hb]
      simp only [e1, e2, e3, e4]
      split_ifs
      · split <;> exact ⟨_, rfl⟩
      · exact ⟨_, rfl⟩
    refine ⟨R, hR, fun f' e => ?_⟩
    obtain ⟨f2, b2, r', c', e', g⟩ := expand_grown f b h.shaped hb x0 x1 y0 y1 hx hy hR
    obtain rfl := Except.ok.inj (e.symm.trans e')
    refine ⟨g.shaped, by rw [g.dx]; exact h.dx0, by rw [g.dy]; exact h.dy0, by rw [g.dx]; exact h.sx, by rw [g.dy]; exact h.sy, ?_⟩
    intro c2 hc2
    obtain rfl := Option.some.inj (g.body.symm.trans hc2)
    rw [g.dx, g.dy]
    rw [e] at hR
    unfold expand at hR
    rw [if_neg hx, if_neg hy, if_neg hne, hb] at hR
    simp only [e1, e2, e3, e4] at hR
    have hb2 := g.body
    split_ifs at hR
    · split at hR
      · have := Except.ok.inj (Option.some.inj hR)
        rw [← this] at hb2
        obtain rfl := Option.some.inj hb2
        exact ⟨k1, k2, k3, k4⟩
      · simp at hR
      · simp at hR
    · have := Except.ok.inj (Option.some.inj hR)
      rw [← this] at hb2
      obtain rfl := Option.some.inj hb2
      exact ⟨k1, k2, k3, k4⟩

theorem step_near {Qx Qy : ℝ} {f : PField Fl} (h : f.Near Qx Qy) (c : Call Fl) (hc : c.Within Qx Qy) :
    ∃ f' r, f.step c = some (f', r) ∧ f'.Near Qx Qy := by
  cases c with
  | expand x0 x1 y0 y1 =>
    obtain ⟨q1, q2, q3, q4⟩ := hc
    obtain ⟨R, e, k⟩ := expand_near h q1 q2 q3 q4
    simp only [step, e, Option.map_some]
    cases R with
    | error err => exact ⟨f, _, rfl, h⟩
    | ok f' => exact ⟨f', _, rfl, k f' rfl⟩
  | insert ax ay bx by' u =>
    rcases insert_shaped h.shaped ax ay bx by' u rfl with ⟨e, _⟩ | ⟨f2, b, g', hb, e1, e2, s⟩
    · simp only [step, e]; exact ⟨f, _, rfl, h⟩
    · simp only [step, e2]; exact ⟨f2, _, rfl, h.same s hb e1 ⟨rfl, rfl, rfl, rfl⟩⟩
  | rasterize x y u =>
    obtain ⟨hx, hy⟩ := hc
    simp only [step]
    unfold rasterize
    by_cases nx : x = []
    · subst nx
      exact ⟨f, _, rfl, h⟩
    by_cases ny : y = []
    · subst ny
      refine ⟨f, .error .valueError, ?_, h⟩
      cases pyMin x <;> cases pyMax x <;> rfl
    obtain ⟨x0, ex0, mx0, _⟩ := pyMin_val x nx
    obtain ⟨x1, ex1, mx1, _⟩ := pyMax_val x nx
    obtain ⟨y0, ey0, my0, _⟩ := pyMin_val y ny
    obtain ⟨y1, ey1, my1, _⟩ := pyMax_val y ny
    rw [ex0, ex1, ey0, ey1]
    dsimp only
    have bx : ∀ z ∈ x.map Fl.val, |z| ≤ Qx := fun z hz => by obtain ⟨v, hv, rfl⟩ := List.mem_map.mp hz; exact hx v hv
    have by' : ∀ z ∈ y.map Fl.val, |z| ≤ Qy := fun z hz => by obtain ⟨v, hv, rfl⟩ := List.mem_map.mp hz; exact hy v hv
    obtain ⟨R, e, k⟩ := expand_near h (bx _ mx0) (bx _ mx1) (by' _ my0) (by' _ my1)
    rw [e]
    cases R with
    | error err => exact ⟨f, _, rfl, h⟩
    | ok f1 =>
      have n1 := k f1 rfl
      rcases expand_shaped h.shaped e with ⟨e', _⟩ | ⟨f1', e', _, hb⟩
      · simp at e'
      obtain rfl := Except.ok.inj e'
      obtain ⟨b, hb⟩ := Option.ne_none_iff_exists'.mp hb
      dsimp only
      obtain ⟨s, ⟨g', e2⟩, _⟩ := rasterLoop_shaped x y u (List.range (x.length - 1)) f1 b n1.shaped hb (fun i hi => by rw [List.mem_range] at hi; omega) rfl
      exact ⟨_, _, rfl, n1.same s hb e2 ⟨rfl, rfl, rfl, rfl⟩⟩
  | register w =>
    simp only [step]
    unfold register
    cases hb : f.body with
    | none => exact ⟨f, _, rfl, h⟩
    | some b =>
      obtain ⟨hr3, hc3, hpr, hpc, hrr, hrc⟩ := h.shaped.grid b hb
      dsimp only
      rw [if_pos ⟨hrr.trans hpr.symm, hrc.trans hpc.symm⟩]
      refine ⟨_, _, rfl, h.same ⟨by simp, ?_⟩ hb rfl ⟨rfl, rfl, rfl, rfl⟩⟩
      intro c hc
      obtain rfl := Option.some.inj hc
      exact ⟨hr3, hc3, hpr, hpc, hrr, hrc⟩
  | reset =>
    simp only [step]
    unfold reset
    cases hb : f.body with
    | none => exact ⟨f, _, rfl, h⟩
    | some b =>
      obtain ⟨hr3, hc3, hpr, hpc, hrr, hrc⟩ := h.shaped.grid b hb
      refine ⟨_, _, rfl, h.same ⟨by simp, ?_⟩ hb rfl ⟨rfl, rfl, rfl, rfl⟩⟩
      intro c hc
      obtain rfl := Option.some.inj hc
      exact ⟨hr3, hc3, hpr, hpc, hrr, hrc⟩

theorem run_near {Qx Qy : ℝ} (cs : List (Call Fl)) : ∀ f : PField Fl, f.Near Qx Qy → (∀ c ∈ cs, c.Within Qx Qy) → ∃ f', f.run cs = some f' ∧ f'.Near Qx Qy := by
  induction cs with
  | nil => intro f hf _; exact ⟨f, rfl, hf⟩
  | cons c cs ih =>
    intro f hf hc
    obtain ⟨f1, r, e, h1⟩ := step_near hf c (hc c (by simp))
    simp only [run, e]
    exact ih f1 h1 (fun c' hc' => hc c' (by simp [hc']))

theorem new_near {dx dy : Fl} {xo yo : Option Fl} {f : PField Fl} (h : new dx dy xo yo = .ok f) {Qx Qy : ℝ} (hx : ∀ x, xo = some x → |x.val| ≤ Qx)
    (hy : ∀ y, yo = some y → |y.val| ≤ Qy) (sx : 16 * (eps * (Qx + 8 * dx.val)) ≤ dx.val) (sy : 16 * (eps * (Qy + 8 * dy.val)) ≤ dy.val) : f.Near Qx Qy := by
  have s := new_shaped h
  have e0 := eps_pos
  unfold new at h
  split_ifs at h with h1 h2
  have d1 : 0 < dx.val := by rw [Fl.le_iff] at h1; simpa using h1
  have d2 : 0 < dy.val := by rw [Fl.le_iff] at h2; simpa using h2
  split at h
  · rename_i x y
    obtain ⟨a1, a2⟩ := abs_le.mp (hx x rfl)
    obtain ⟨b1, b2⟩ := abs_le.mp (hy y rfl)
    have px := mul_pos e0 d1
    have py := mul_pos e0 d2
    have k1 : eps * (Qx + dx.val) ≤ dx.val / 16 := by nlinarith
    have k2 : eps * (Qy + dy.val) ≤ dy.val / 16 := by nlinarith
    obtain ⟨l1, u1⟩ := round53_near (x := x.val - dx.val) (P := Qx + dx.val) (s := dx.val / 16) (by rw [abs_le]; constructor <;> linarith) k1
    obtain ⟨l2, u2⟩ := round53_near (x := x.val + dx.val) (P := Qx + dx.val) (s := dx.val / 16) (by rw [abs_le]; constructor <;> linarith) k1
    obtain ⟨l3, u3⟩ := round53_near (x := y.val - dy.val) (P := Qy + dy.val) (s := dy.val / 16) (by rw [abs_le]; constructor <;> linarith) k2
    obtain ⟨l4, u4⟩ := round53_near (x := y.val + dy.val) (P := Qy + dy.val) (s := dy.val / 16) (by rw [abs_le]; constructor <;> linarith) k2
    obtain rfl := Except.ok.inj h
    refine ⟨s, d1, d2, sx, sy, ?_⟩
    intro b hb
    obtain rfl := Option.some.inj hb
    simp only [Fl.val_sub, Fl.val_add, abs_le]
    refine ⟨⟨?_, ?_⟩, ⟨?_, ?_⟩, ⟨?_, ?_⟩, ⟨?_, ?_⟩⟩ <;> linarith
  · obtain rfl := Except.ok.inj h
    exact ⟨s, d1, d2, sx, sy, by simp⟩

/-! ### the constructor, exactly -/

theorem new_good {A B : Axis} {dx dy xo yo : Fl} (d1 : 0 < dx.val) (d2 : 0 < dy.val) (hA : A.Fits xo.val dx.val) (hB : B.Fits yo.val dy.val) :
    ∃ f, new dx dy (some xo) (some yo) = .ok f ∧ Good A B xo.val yo.val [] f ∧ f.deltax = dx ∧ f.deltay = dy ∧ f.exact.total = 0 ∧
      (∀ X Y, f.exact.weightAt X Y = 0) ∧ ∀ X Y, ¬ f.exact.markedAt X Y := by
  have edge : ∀ {A : Axis} {o d : Fl}, 0 < d.val → A.Fits o.val d.val → (o - d).val = o.val - d.val ∧ (o + d).val = o.val + d.val := by
    intro A o d d0 h
    have m := h.d_mul.coarse h.units
    obtain ⟨l, u⟩ := abs_le.mp h.o_le
    refine ⟨(h.o_mul.sub m).exact (le_trans ?_ h.position), (h.o_mul.add m).exact (le_trans ?_ h.position)⟩ <;> rw [abs_le] <;> constructor <;> linarith
  obtain ⟨e1, e2⟩ := edge d1 hA
  obtain ⟨e3, e4⟩ := edge d2 hB
  have hf : new dx dy (some xo) (some yo) = .ok
      { deltax := dx, deltay := dy, nrows := 3, ncols := 3,
        body := some { xmin := xo - dx, xmax := xo + dx, ymin := yo - dy, ymax := yo + dy, totalWeight := 0,
                       pgrid := Grid.full 3 3 0, rgrid := Grid.full 3 3 false } } := by
    unfold new
    rw [if_neg (by rw [Fl.le_iff]; simpa using d1), if_neg (by rw [Fl.le_iff]; simpa using d2)]
  obtain ⟨f, ef⟩ : ∃ f : PField Fl, f =
      { deltax := dx, deltay := dy, nrows := 3, ncols := 3,
        body := some { xmin := xo - dx, xmax := xo + dx, ymin := yo - dy, ymax := yo + dy, totalWeight := 0,
                       pgrid := Grid.full 3 3 0, rgrid := Grid.full 3 3 false } } := ⟨_, rfl⟩
  rw [← ef] at hf
  have hr : new dx.val dy.val (some xo.val) (some yo.val) = .ok f.exact := by
    unfold new
    rw [if_neg (not_le.mpr d1), if_neg (not_le.mpr d2), ef]
    simp only [exact, Body.exact, Option.map_some, e1, e2, e3, e4, Grid.full, Fl.val_zero]
  have dx' : f.deltax = dx := by rw [ef]
  have dy' : f.deltay = dy := by rw [ef]
  refine ⟨f, hf, ⟨.start hr, by rw [dx']; exact hA, by rw [dy']; exact hB, by simp⟩, dx', dy', by simp [ef, total, exact, Body.exact], fun X Y => (weight_zero hr X Y).1, fun X Y => (weight_zero hr X Y).2⟩

/-! ### umbras a little smaller or larger -/

theorem drawnGroups_shift (dx dy xo yo X Y δ δ' : ℝ) (es : List (Event Fl)) : ∀ (s : List (ℝ × ℝ)) (p p' : List (Drawn ℝ)),
    (∀ vs u, Event.track vs u ∈ es → NearTrack (vs.map pairVal) (u.val + δ) X Y → NearTrack (vs.map pairVal) (u.val + δ') X Y) →
    (Records xo yo dx dy p X Y → Records xo yo dx dy p' X Y) →
    List.Forall₂ (fun g g' => g.2 = g'.2 ∧ (Records xo yo dx dy g.1 X Y → Records xo yo dx dy g'.1 X Y))
      (drawnGroups (es.map (Event.exact δ)) s p) (drawnGroups (es.map (Event.exact δ')) s p') := by
  induction es with
  | nil => intro s p p' _ _; exact .nil
  | cons e es ih =>
    intro s p p' H hp
    have H' := fun vs u h => H vs u (List.mem_cons_of_mem e h)
    cases e with
    | track vs u =>
      refine ih _ _ _ H' ?_
      rintro ⟨t, ht, hn, hr⟩
      rcases List.mem_append.mp ht with ht | ht
      · obtain ⟨t', ht', h'⟩ := hp ⟨t, ht, hn, hr⟩
        exact ⟨t', List.mem_append_left _ ht', h'⟩
      · obtain rfl := List.mem_singleton.mp ht
        exact ⟨_, List.mem_append_right _ (List.mem_singleton.mpr rfl), H vs u (by simp) hn, hr⟩
    | register w => exact .cons ⟨rfl, hp⟩ (ih _ _ _ H' id)
    | reset => exact ih _ _ _ H' id
    | expand => exact ih _ _ _ H' hp

open Classical in
theorem recordedWeight_mono (dx dy xo yo X Y : ℝ) (gs gs' : List (List (Drawn ℝ) × ℝ))
    (h : List.Forall₂ (fun g g' => g.2 = g'.2 ∧ (Records xo yo dx dy g.1 X Y → Records xo yo dx dy g'.1 X Y)) gs gs') (h0 : ∀ g ∈ gs, 0 ≤ g.2) :
    recordedWeight xo yo dx dy gs X Y ≤ recordedWeight xo yo dx dy gs' X Y := by
  induction h with
  | nil => exact le_refl _
  | @cons g g' gs gs' hg _ ih =>
    have := ih (fun g hg => h0 g (by simp [hg]))
    unfold recordedWeight at this ⊢
    simp only [List.map_cons, List.sum_cons]
    refine add_le_add ?_ this
    have g0 := h0 g (by simp)
    split_ifs with c1 c2 c2
    · exact hg.1.le
    · exact absurd (hg.2 c1) c2
    · rw [← hg.1]; exact g0
    · exact le_refl _

theorem drawnGroups_nonneg (δ : ℝ) (es : List (Event Fl)) : ∀ (s : List (ℝ × ℝ)) (p : List (Drawn ℝ)), (∀ x ∈ registeredWeights es, 0 ≤ x.val) →
    ∀ g ∈ drawnGroups (es.map (Event.exact δ)) s p, 0 ≤ g.2 := by
  induction es with
  | nil => intro s p _ g hg; simp [drawnGroups] at hg
  | cons e es ih =>
    intro s p h g hg
    cases e with
    | track vs u => exact ih _ _ h g hg
    | register w =>
      rcases List.mem_cons.mp hg with rfl | hg
      · exact h w (by simp [registeredWeights])
      · exact ih _ _ (fun x hx => h x (by simp only [registeredWeights, List.filterMap_cons] at hx ⊢; simp [hx])) g hg
    | reset => exact ih _ _ h g hg
    | expand => exact ih _ _ h g hg

theorem registered_nonneg {A B : Axis} {S η : ℝ} {es : List (Event Fl)} (h : ∀ e ∈ es, e.Moderate A B S η) : ∀ x ∈ registeredWeights es, 0 ≤ x.val := by
  intro x hx
  obtain ⟨e, he, h'⟩ := List.mem_filterMap.mp hx
  cases e with
  | register w => simp only [Option.some.injEq] at h'; rw [← h']; exact h _ he
  | track => simp at h'
  | reset => simp at h'
  | expand => simp at h'

/-- A float of at least `2^(e-1)` is a multiple of `2^(e-53)`. -/
theorem float_multiple (x : Fl) {e : ℤ} (h : (2 : ℝ) ^ (e - 1) ≤ |x.val|) : MultipleOf (e - 53) x.val := by
  have hx : x.val ≠ 0 := by
    intro h0; rw [h0, abs_zero] at h
    exact absurd h (not_le.mpr (zpow_pos (by norm_num) _))
  have l : e - 1 ≤ Int.log 2 |x.val| := by
    rw [← Int.zpow_le_iff_le_log (by norm_num) (abs_pos.mpr hx)]
    exact_mod_cast h
  refine MultipleOf.coarse (m := Int.log 2 |x.val| - 52) (by omega) ⟨roundEven (x.val / ulp x.val), ?_⟩
  exact x.isFloat.symm

end PField
end Oneka
