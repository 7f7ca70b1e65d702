import Verif.Lemmas.Format
import Verif.Spec.Oneka

/-!
# Lemmas about the entry point
-/

namespace Oneka

/-! ## Sequencing -/

namespace Prog
variable {α β : Type}

theorem bind_def (p : Prog α) (f : α → Prog β) : p >>= f = p.andThen f := rfl

theorem bind_ret {p : Prog α} {a : α} (h : p.ending = .returns a) (f : α → Prog β) :
    p >>= f = ⟨p.events ++ (f a).events, (f a).ending⟩ := by
  rw [bind_def, andThen, h]

theorem bind_raise {p : Prog α} {e : PyErr} (h : p.ending = .raises e) (f : α → Prog β) :
    p >>= f = ⟨p.events, .raises e⟩ := by
  rw [bind_def, andThen, h]

theorem bind_div {p : Prog α} (h : p.ending = .diverges) (f : α → Prog β) :
    p >>= f = ⟨p.events, .diverges⟩ := by
  rw [bind_def, andThen, h]

theorem lift_ok {x : Except PyErr α} {a : α} (h : x = .ok a) (f : α → Prog β) : lift x >>= f = f a := by
  subst h; rw [bind_ret (a := a) rfl]; rfl

theorem lift_error {x : Except PyErr α} {e : PyErr} (h : x = .error e) (f : α → Prog β) : lift x >>= f = ⟨[], .raises e⟩ := by
  subst h; rfl

theorem bind_returns {p : Prog α} {f : α → Prog β} {b : β} :
    (p >>= f).ending = .returns b ↔ ∃ a, p.ending = .returns a ∧ (f a).ending = .returns b := by
  constructor
  · intro h
    cases hp : p.ending with
    | returns a => rw [bind_ret hp] at h; exact ⟨a, rfl, h⟩
    | raises e => rw [bind_raise hp] at h; simp at h
    | diverges => rw [bind_div hp] at h; simp at h
  · rintro ⟨a, h1, h2⟩
    rw [bind_ret h1]; exact h2

theorem lift_returns {x : Except PyErr α} {a : α} : (lift x).ending = .returns a ↔ x = .ok a := by
  cases x <;> simp [lift]

theorem lift_events (x : Except PyErr α) : (lift x).events = [] := by cases x <;> rfl

/-- every effect has the property -/
def All (P : Effect → Prop) (p : Prog α) : Prop := ∀ e ∈ p.events, P e

theorem All.bind {P : Effect → Prop} {p : Prog α} {f : α → Prog β} (hp : p.All P) (hf : ∀ a, (f a).All P) : (p >>= f).All P := by
  cases h : p.ending with
  | returns a =>
    rw [bind_ret h]
    intro e he
    rcases List.mem_append.mp he with he | he
    · exact hp e he
    · exact hf a e he
  | raises e => rw [bind_raise h]; exact hp
  | diverges => rw [bind_div h]; exact hp

theorem all_lift {P : Effect → Prop} (x : Except PyErr α) : (lift x).All P := by
  intro e he; rw [lift_events] at he; simp at he

theorem all_pure {P : Effect → Prop} (a : α) : (pure a : Prog α).All P := by
  intro e he; simp [pure] at he

theorem all_emit {P : Effect → Prop} {e : Effect} (h : P e) : (emit e).All P := by
  intro e' he
  obtain rfl : e' = e := by simpa [emit] using he
  exact h

theorem all_infos {P : Effect → Prop} {l : List LogLine} (h : ∀ x ∈ l, P (.log x)) : (infos l).All P := by
  intro e' he
  obtain ⟨x, hx, rfl⟩ := List.mem_map.mp he
  exact h x hx

/-- the effects of the first statement come first -/
theorem events_prefix (p : Prog α) (f : α → Prog β) : p.events <+: (p >>= f).events := by
  cases h : p.ending with
  | returns a => rw [bind_ret h]; exact List.prefix_append _ _
  | raises e => rw [bind_raise h]
  | diverges => rw [bind_div h]

end Prog

/-! ## Argument checks -/

theorem pyAssert_ok {c : Except PyErr Bool} : pyAssert c = .ok () ↔ c = .ok true := by
  rcases c with e | b
  · simp [pyAssert]
  · cases b <;> simp [pyAssert]

theorem pyAnd_true {a b : Except PyErr Bool} : pyAnd a b = .ok true ↔ a = .ok true ∧ b = .ok true := by
  rcases a with e | x
  · simp [pyAnd]
  · cases x <;> simp [pyAnd]

theorem ok_bool {b : Bool} : (Except.ok b : Except PyErr Bool) = .ok true ↔ b = true := by simp

theorem isNumber_iff {v : PyVal} : v.isNumber = true ↔ v.NumberWith fun _ => True := by
  cases v <;> simp [PyVal.isNumber, PyVal.isInt, PyVal.isFloat, PyVal.NumberWith, PyVal.num]

theorem isStr_iff {v : PyVal} : v.isStr = true ↔ ∃ s, v = .str s := by
  cases v <;> simp [PyVal.isStr]

theorem isBool_iff {v : PyVal} : v.isBool = true ↔ ∃ b, v = .bool b := by
  cases v <;> simp [PyVal.isBool]

theorem lt_true {a b : PyVal} : PyVal.lt a b = .ok true ↔ ∃ x y, a.num = some x ∧ b.num = some y ∧ x < y := by
  unfold PyVal.lt
  cases a.num <;> cases b.num <;> simp

theorem le_true {a b : PyVal} : PyVal.le a b = .ok true ↔ ∃ x y, a.num = some x ∧ b.num = some y ∧ x ≤ y := by
  unfold PyVal.le
  cases a.num <;> cases b.num <;> simp

theorem positiveCheck_iff {v : PyVal} : positiveCheck v = .ok true ↔ v.NumberWith fun x => .fin 0 < x := by
  unfold positiveCheck
  rw [pyAnd_true, ok_bool, isNumber_iff, lt_true]
  simp only [PyVal.NumberWith, PyVal.num, Int.cast_zero]
  constructor
  · rintro ⟨_, x, y, hx, hy, h⟩
    obtain rfl : XR.fin 0 = x := by simpa using hx
    exact ⟨y, hy, h⟩
  · rintro ⟨y, hy, h⟩
    exact ⟨⟨y, hy, trivial⟩, _, y, rfl, hy, h⟩

theorem durationCheck_iff {v : PyVal} : durationCheck v = .ok true ↔ v.NumberWith fun x => x ≠ .fin 0 := by
  unfold durationCheck pyNeZero
  rw [pyAnd_true, ok_bool, isNumber_iff]
  unfold PyVal.NumberWith
  cases hv : v.num with
  | none => simp
  | some x =>
    have : (XR.fin 0 ≤ x ∧ x ≤ XR.fin 0) ↔ x = .fin 0 := by
      constructor
      · rintro ⟨h1, h2⟩
        cases x with
        | fin r => rw [XR.fin_le] at h1 h2; rw [le_antisymm h2 h1]
        | _ => first | exact h1.elim | exact h2.elim
      · rintro rfl
        exact ⟨le_refl (0 : ℝ), le_refl (0 : ℝ)⟩
    rw [ok_bool, ← Bool.decide_and, ← decide_not, decide_eq_true_iff, this]
    simp

theorem chainLe_nil (a : PyVal) : PyVal.chainLe [a] = .ok true := rfl

theorem chainLe_cons {a b : PyVal} {l : List PyVal} :
    PyVal.chainLe (a :: b :: l) = .ok true ↔ PyVal.le a b = .ok true ∧ PyVal.chainLe (b :: l) = .ok true := by
  rw [PyVal.chainLe]
  rcases PyVal.le a b with e | x
  · simp
  · cases x <;> simp

theorem num_not_seq {v : PyVal} {x : XR} (h : v.num = some x) : v.isInt = true ∨ v.isFloat = true := by
  cases v <;> simp_all [PyVal.num, PyVal.isInt, PyVal.isFloat]

theorem isdistribution_iff {v : PyVal} {lb ub : XR} : isdistribution v lb ub = .ok true ↔ v.DistIn lb ub := by
  unfold isdistribution
  split
  · rename_i hn
    rw [chainLe_cons, chainLe_cons, le_true, le_true]
    constructor
    · rintro ⟨⟨x, y, hx, hy, h1⟩, ⟨x', y', hx', hy', h2⟩, -⟩
      obtain rfl : lb = x := by simpa [PyVal.num] using hx
      obtain rfl : ub = y' := by simpa [PyVal.num] using hy'
      obtain rfl : y = x' := by rw [hy] at hx'; exact Option.some.inj hx'
      exact .inl ⟨y, hy, h1, h2⟩
    · rintro (⟨x, hx, h1, h2⟩ | ⟨a, b, x, y, hv, -⟩ | ⟨a, m, b, x, c, y, hv, -⟩)
      · exact ⟨⟨_, x, rfl, hx, h1⟩, ⟨x, _, hx, rfl, h2⟩, rfl⟩
      · rcases hv with rfl | rfl <;> simp [PyVal.isInt, PyVal.isFloat] at hn
      · rcases hv with rfl | rfl <;> simp [PyVal.isInt, PyVal.isFloat] at hn
  · rename_i hn
    have nn : ∀ x, v.num ≠ some x := by
      intro x hx
      rcases num_not_seq hx with h | h <;> simp [h] at hn
    have pair : ∀ a b, PyVal.chainLe [.float lb, a, b, .float ub] = .ok true ↔
        ∃ x y, a.num = some x ∧ b.num = some y ∧ lb ≤ x ∧ x ≤ y ∧ y ≤ ub := by
      intro a b
      rw [chainLe_cons, chainLe_cons, chainLe_cons, le_true, le_true, le_true]
      constructor
      · rintro ⟨⟨x, y, hx, hy, h1⟩, ⟨x', y', hx', hy', h2⟩, ⟨x'', y'', hx'', hy'', h3⟩, -⟩
        obtain rfl : lb = x := by simpa [PyVal.num] using hx
        obtain rfl : ub = y'' := by simpa [PyVal.num] using hy''
        obtain rfl : y = x' := by rw [hy] at hx'; exact Option.some.inj hx'
        obtain rfl : y' = x'' := by rw [hy'] at hx''; exact Option.some.inj hx''
        exact ⟨y, y', hy, hy', h1, h2, h3⟩
      · rintro ⟨x, y, hx, hy, h1, h2, h3⟩
        exact ⟨⟨_, x, rfl, hx, h1⟩, ⟨x, y, hx, hy, h2⟩, ⟨y, _, hy, rfl, h3⟩, rfl⟩
    have triple : ∀ a m b, PyVal.chainLe [.float lb, a, m, b, .float ub] = .ok true ↔
        ∃ x c y, a.num = some x ∧ m.num = some c ∧ b.num = some y ∧ lb ≤ x ∧ x ≤ c ∧ c ≤ y ∧ y ≤ ub := by
      intro a m b
      rw [chainLe_cons, chainLe_cons, chainLe_cons, chainLe_cons, le_true, le_true, le_true, le_true]
      constructor
      · rintro ⟨⟨x, y, hx, hy, h1⟩, ⟨x', y', hx', hy', h2⟩, ⟨x'', y'', hx'', hy'', h3⟩, ⟨x3, y3, hx3, hy3, h4⟩, -⟩
        obtain rfl : lb = x := by simpa [PyVal.num] using hx
        obtain rfl : ub = y3 := by simpa [PyVal.num] using hy3
        obtain rfl : y = x' := by rw [hy] at hx'; exact Option.some.inj hx'
        obtain rfl : y' = x'' := by rw [hy'] at hx''; exact Option.some.inj hx''
        obtain rfl : y'' = x3 := by rw [hy''] at hx3; exact Option.some.inj hx3
        exact ⟨y, y', y'', hy, hy', hy'', h1, h2, h3, h4⟩
      · rintro ⟨x, c, y, hx, hc, hy, h1, h2, h3, h4⟩
        exact ⟨⟨_, x, rfl, hx, h1⟩, ⟨x, c, hx, hc, h2⟩, ⟨c, y, hc, hy, h3⟩, ⟨y, _, hy, rfl, h4⟩, rfl⟩
    unfold PyVal.DistIn PyVal.NumberWith
    split
    · rename_i a b
      rw [pair]
      constructor
      · rintro ⟨x, y, h⟩
        exact .inr (.inl ⟨a, b, x, y, .inl rfl, h⟩)
      · rintro (⟨x, hx, -⟩ | ⟨a', b', x, y, hv, h⟩ | ⟨a', m', b', x, c, y, hv, h⟩)
        · exact absurd hx (nn x)
        · rcases hv with hv | hv <;> simp at hv
          obtain ⟨rfl, rfl⟩ := hv
          exact ⟨x, y, h⟩
        · rcases hv with hv | hv <;> simp at hv
    · rename_i a m b
      rw [triple]
      constructor
      · rintro ⟨x, c, y, h⟩
        exact .inr (.inr ⟨a, m, b, x, c, y, .inl rfl, h⟩)
      · rintro (⟨x, hx, -⟩ | ⟨a', b', x, y, hv, h⟩ | ⟨a', m', b', x, c, y, hv, h⟩)
        · exact absurd hx (nn x)
        · rcases hv with hv | hv <;> simp at hv
        · rcases hv with hv | hv <;> simp at hv
          obtain ⟨rfl, rfl, rfl⟩ := hv
          exact ⟨x, c, y, h⟩
    · rename_i a b
      rw [pair]
      constructor
      · rintro ⟨x, y, h⟩
        exact .inr (.inl ⟨a, b, x, y, .inr rfl, h⟩)
      · rintro (⟨x, hx, -⟩ | ⟨a', b', x, y, hv, h⟩ | ⟨a', m', b', x, c, y, hv, h⟩)
        · exact absurd hx (nn x)
        · rcases hv with hv | hv <;> simp at hv
          obtain ⟨rfl, rfl⟩ := hv
          exact ⟨x, y, h⟩
        · rcases hv with hv | hv <;> simp at hv
    · rename_i a m b
      rw [triple]
      constructor
      · rintro ⟨x, c, y, h⟩
        exact .inr (.inr ⟨a, m, b, x, c, y, .inr rfl, h⟩)
      · rintro (⟨x, hx, -⟩ | ⟨a', b', x, y, hv, h⟩ | ⟨a', m', b', x, c, y, hv, h⟩)
        · exact absurd hx (nn x)
        · rcases hv with hv | hv <;> simp at hv
        · rcases hv with hv | hv <;> simp at hv
          obtain ⟨rfl, rfl, rfl⟩ := hv
          exact ⟨x, c, y, h⟩
    · rename_i h1 h2 h3 h4
      simp only [Except.ok.injEq, Bool.false_eq_true, false_iff]
      rintro (⟨x, hx, -⟩ | ⟨a', b', x, y, hv, h⟩ | ⟨a', m', b', x, c, y, hv, h⟩)
      · exact absurd hx (nn x)
      · rcases hv with hv | hv
        · exact h1 _ _ hv
        · exact h3 _ _ hv
      · rcases hv with hv | hv
        · exact h2 _ _ _ hv
        · exact h4 _ _ _ hv

theorem itemIs_tuple {l : List PyVal} {i : ℕ} {x : PyVal} (h : l[i]? = some x) (c : PyVal → Except PyErr Bool) :
    (PyVal.tuple l).itemIs i c = c x := by
  simp [PyVal.itemIs, PyVal.item, h]

theorem itemIs_list {l : List PyVal} {i : ℕ} {x : PyVal} (h : l[i]? = some x) (c : PyVal → Except PyErr Bool) :
    (PyVal.list l).itemIs i c = c x := by
  simp [PyVal.itemIs, PyVal.item, h]

theorem length_four {α : Type} {l : List α} (h : l.length = 4) : ∃ a b c d, l = [a, b, c, d] := by
  match l, h with
  | [a, b, c, d], _ => exact ⟨a, b, c, d, rfl⟩

/-- an object of length four whose first item is a number -/
theorem four_items {v : PyVal}
    (h1 : (match v.len with
    | .error e => .error e
    | .ok n => .ok (n == 4) : Except PyErr Bool) = .ok true) (h2 : v.itemIs 0 (fun v => .ok v.isNumber) = .ok true) :
    ∃ x y z w, v = .tuple [x, y, z, w] ∨ v = .list [x, y, z, w] := by
  cases v with
  | tuple l =>
    obtain ⟨a, b, c, d, rfl⟩ := length_four (l := l) (by simpa [PyVal.len] using h1)
    exact ⟨a, b, c, d, .inl rfl⟩
  | list l =>
    obtain ⟨a, b, c, d, rfl⟩ := length_four (l := l) (by simpa [PyVal.len] using h1)
    exact ⟨a, b, c, d, .inr rfl⟩
  | str s =>
    exfalso
    unfold PyVal.itemIs PyVal.item at h2
    cases hs : s.toList[0]? <;> simp [hs, PyVal.isNumber, PyVal.isInt, PyVal.isFloat] at h2
  | _ => simp [PyVal.len] at h1

theorem pos_iff {v : PyVal} : PyVal.lt (.int 0) v = .ok true ↔ v.NumberWith fun x => .fin 0 < x := by
  rw [lt_true]
  constructor
  · rintro ⟨x, y, hx, hy, h⟩
    obtain rfl : XR.fin 0 = x := by simpa [PyVal.num] using hx
    exact ⟨y, hy, h⟩
  · rintro ⟨y, hy, h⟩
    exact ⟨.fin 0, y, by simp [PyVal.num], hy, h⟩

theorem nonneg_iff {v : PyVal} : PyVal.le (.int 0) v = .ok true ↔ v.NumberWith fun x => .fin 0 ≤ x := by
  rw [le_true]
  constructor
  · rintro ⟨x, y, hx, hy, h⟩
    obtain rfl : XR.fin 0 = x := by simpa [PyVal.num] using hx
    exact ⟨y, hy, h⟩
  · rintro ⟨y, hy, h⟩
    exact ⟨.fin 0, y, by simp [PyVal.num], hy, h⟩

theorem PyVal.NumberWith.number {v : PyVal} {p : XR → Prop} (h : v.NumberWith p) : v.NumberWith fun _ => True := by
  obtain ⟨x, hx, -⟩ := h; exact ⟨x, hx, trivial⟩

theorem wellCheck_iff {v : PyVal} : wellCheck v = .ok true ↔ v.IsWell := by
  unfold wellCheck
  rw [pyAnd_true, pyAnd_true, pyAnd_true, pyAnd_true, pyAnd_true]
  constructor
  · rintro ⟨h, h0, h1, h2, h2', h3⟩
    obtain ⟨x, y, r, q, rfl | rfl⟩ := four_items h h0
    · rw [itemIs_tuple rfl, ok_bool, isNumber_iff] at h0 h1
      rw [itemIs_tuple rfl, pos_iff] at h2'
      rw [itemIs_tuple rfl, isdistribution_iff] at h3
      exact ⟨x, y, r, q, .inl rfl, h0, h1, h2', h3⟩
    · rw [itemIs_list rfl, ok_bool, isNumber_iff] at h0 h1
      rw [itemIs_list rfl, pos_iff] at h2'
      rw [itemIs_list rfl, isdistribution_iff] at h3
      exact ⟨x, y, r, q, .inr rfl, h0, h1, h2', h3⟩
  · rintro ⟨x, y, r, q, rfl | rfl, h0, h1, h2, h3⟩
    · rw [itemIs_tuple rfl, itemIs_tuple rfl, itemIs_tuple rfl, itemIs_tuple rfl, itemIs_tuple rfl, ok_bool, ok_bool, ok_bool, isNumber_iff,
        isNumber_iff, isNumber_iff, pos_iff, isdistribution_iff]
      exact ⟨rfl, h0, h1, PyVal.NumberWith.number h2, h2, h3⟩
    · rw [itemIs_list rfl, itemIs_list rfl, itemIs_list rfl, itemIs_list rfl, itemIs_list rfl, ok_bool, ok_bool, ok_bool, isNumber_iff,
        isNumber_iff, isNumber_iff, pos_iff, isdistribution_iff]
      exact ⟨rfl, h0, h1, PyVal.NumberWith.number h2, h2, h3⟩

theorem obsCheck_iff {v : PyVal} : obsCheck v = .ok true ↔ v.IsObs := by
  unfold obsCheck
  rw [pyAnd_true, pyAnd_true, pyAnd_true, pyAnd_true, pyAnd_true]
  constructor
  · rintro ⟨h, h0, h1, h2, h3', h3⟩
    obtain ⟨x, y, r, q, rfl | rfl⟩ := four_items h h0
    · rw [itemIs_tuple rfl, ok_bool, isNumber_iff] at h0 h1 h2
      rw [itemIs_tuple rfl, nonneg_iff] at h3
      exact ⟨x, y, r, q, .inl rfl, h0, h1, h2, h3⟩
    · rw [itemIs_list rfl, ok_bool, isNumber_iff] at h0 h1 h2
      rw [itemIs_list rfl, nonneg_iff] at h3
      exact ⟨x, y, r, q, .inr rfl, h0, h1, h2, h3⟩
  · rintro ⟨x, y, r, q, rfl | rfl, h0, h1, h2, h3⟩
    · rw [itemIs_tuple rfl, itemIs_tuple rfl, itemIs_tuple rfl, itemIs_tuple rfl, itemIs_tuple rfl, ok_bool, ok_bool, ok_bool, ok_bool, isNumber_iff,
        isNumber_iff, isNumber_iff, isNumber_iff, nonneg_iff]
      exact ⟨rfl, h0, h1, h2, PyVal.NumberWith.number h3, h3⟩
    · rw [itemIs_list rfl, itemIs_list rfl, itemIs_list rfl, itemIs_list rfl, itemIs_list rfl, ok_bool, ok_bool, ok_bool, ok_bool, isNumber_iff,
        isNumber_iff, isNumber_iff, isNumber_iff, nonneg_iff]
      exact ⟨rfl, h0, h1, h2, PyVal.NumberWith.number h3, h3⟩

theorem assertAll_ok {c : PyVal → Except PyErr Bool} : ∀ {l : List PyVal}, assertAll c l = .ok () ↔ ∀ x ∈ l, c x = .ok true
  | [] => by simp [assertAll]
  | x :: l => by
    rw [assertAll]
    cases hc : pyAssert (c x) with
    | error e =>
      have : ¬ c x = .ok true := by rw [← pyAssert_ok, hc]; simp
      simp [this]
    | ok u =>
      have : c x = .ok true := by rw [← pyAssert_ok, hc]
      simp [this, assertAll_ok (l := l)]

theorem listCheck_ok {v : PyVal} {n : ℕ} {c : PyVal → Except PyErr Bool} :
    listCheck v n c = .ok () ↔ ∃ l, v = .list l ∧ n ≤ l.length ∧ ∀ x ∈ l, c x = .ok true := by
  unfold listCheck
  cases v with
  | list l =>
    simp only [PyVal.list.injEq, exists_eq_left']
    split
    · rename_i h; simp [h, assertAll_ok]
    · rename_i h; simp [h]
  | _ => simp

theorem except_bind_ok {f : Unit → Except PyErr Unit} {x : Except PyErr Unit} :
    (x >>= f) = .ok () ↔ x = .ok () ∧ f () = .ok () := by
  rcases x with e | u
  · simp [bind, Except.bind]
  · simp [bind, Except.bind]

theorem targetCheck_iff {t : PyVal} {ws : List PyVal} : targetCheck t (.list ws) = .ok true ↔
    ∃ k : ℤ, (t = .int k ∨ ∃ b : Bool, t = .bool b ∧ k = b.toInt) ∧ 0 ≤ k ∧ k < ws.length := by
  unfold targetCheck
  rw [pyAnd_true, pyAnd_true, ok_bool]
  simp only [PyVal.len]
  rw [le_true, lt_true]
  cases t with
  | int n =>
    simp only [PyVal.isInt, PyVal.num, Option.some.injEq, true_and, PyVal.int.injEq, reduceCtorEq, false_and, exists_false, or_false]
    constructor
    · rintro ⟨⟨x, y, rfl, rfl, h⟩, x, y, rfl, rfl, h'⟩
      rw [XR.fin_le] at h
      rw [XR.fin_lt] at h'
      exact ⟨n, rfl, by exact_mod_cast h, by exact_mod_cast h'⟩
    · rintro ⟨k, rfl, h, h'⟩
      exact ⟨⟨_, _, rfl, rfl, by rw [XR.fin_le]; exact_mod_cast h⟩, _, _, rfl, rfl, by rw [XR.fin_lt]; exact_mod_cast h'⟩
  | bool b =>
    cases b <;> simp [PyVal.isInt, PyVal.num, XR.fin_le, XR.fin_lt, Bool.toInt]
  | _ => simp [PyVal.isInt]

theorem npathsCheck_iff {v : PyVal} : pyAnd (.ok v.isInt) (PyVal.lt (.int 0) v) = .ok true ↔
    (∃ n : ℤ, v = .int n ∧ 0 < n) ∨ v = .bool true := by
  rw [pyAnd_true, ok_bool, lt_true]
  cases v with
  | int n => simp [PyVal.isInt, PyVal.num]
  | bool b => cases b <;> simp [PyVal.isInt, PyVal.num]
  | _ => simp [PyVal.isInt]

/-- The checks pass exactly for acceptable arguments. -/
theorem validate_ok {a : PyArgs} : validate a = .ok () ↔ Acceptable a := by
  unfold validate
  simp only [except_bind_ok, pyAssert_ok, ok_bool, isStr_iff, isBool_iff, isNumber_iff, positiveCheck_iff, durationCheck_iff,
    isdistribution_iff, listCheck_ok, wellCheck_iff, obsCheck_iff, npathsCheck_iff]
  constructor
  · rintro ⟨h1, h2, h3, h4, h5, h6, h7, h8, h9, ⟨ws, hw, hw1, hw2⟩, h11, h12, h13, h14, h15, h16, h17, h18⟩
    rw [hw, targetCheck_iff] at h3
    exact ⟨h1, h2, ⟨ws, hw, hw2, h3⟩, h4, h5, h6, h7, h8, h9, h11, h12, h13, h14, h15, h16, h17, h18⟩
  · rintro ⟨h1, h2, ⟨ws, hw, hw2, h3⟩, h4, h5, h6, h7, h8, h9, h11, h12, h13, h14, h15, h16, h17, h18⟩
    refine ⟨h1, h2, ?_, h4, h5, h6, h7, h8, h9, ⟨ws, hw, ?_, hw2⟩, h11, h12, h13, h14, h15, h16, h17, h18⟩
    · rw [hw, targetCheck_iff]; exact h3
    · obtain ⟨k, -, h, h'⟩ := h3; omega

/-! ### Which exceptions the checks raise -/

/-- an AssertionError or a TypeError, if any -/
def Plain {α : Type} (c : Except PyErr α) : Prop := ∀ e, c = .error e → e = .assertionError ∨ e = .typeError

theorem Plain.ok {α : Type} (a : α) : Plain (.ok a) := by intro e h; simp at h

theorem Plain.assert {c : Except PyErr Bool} (h : Plain c) : Plain (pyAssert c) := by
  intro e he
  rcases c with e' | b
  · rw [pyAssert] at he
    exact h e (by simpa using he)
  · cases b <;> simp [pyAssert] at he
    exact .inl he.symm

theorem Plain.and {a b : Except PyErr Bool} (ha : Plain a) (hb : a = .ok true → Plain b) : Plain (pyAnd a b) := by
  intro e he
  rcases a with e' | x
  · exact ha e (by simpa [pyAnd] using he)
  · cases x <;> simp [pyAnd] at he
    exact hb rfl e he

theorem Plain.le (a b : PyVal) : Plain (PyVal.le a b) := by
  intro e he
  unfold PyVal.le at he
  split at he
  · simp at he
  · simp at he; exact .inr he.symm

theorem Plain.lt (a b : PyVal) : Plain (PyVal.lt a b) := by
  intro e he
  unfold PyVal.lt at he
  split at he
  · simp at he
  · simp at he; exact .inr he.symm

theorem Plain.chain : ∀ l : List PyVal, Plain (PyVal.chainLe l)
  | [] => Plain.ok _
  | [_] => Plain.ok _
  | a :: b :: l => by
    intro e he
    rw [PyVal.chainLe] at he
    have := Plain.le a b
    rcases hc : PyVal.le a b with e' | x
    · rw [hc] at he; exact this e (by rw [hc]; simpa using he)
    · rw [hc] at he
      cases x
      · simp at he
      · exact Plain.chain (b :: l) e he

theorem Plain.dist (v : PyVal) (lb ub : XR) : Plain (isdistribution v lb ub) := by
  unfold isdistribution
  split
  · exact Plain.chain _
  · split <;> first | exact Plain.chain _ | exact Plain.ok _

theorem Plain.len (v : PyVal) : Plain v.len := by
  intro e he
  cases v <;> simp [PyVal.len] at he <;> exact .inr he.symm

theorem Plain.bind {x : Except PyErr Unit} {f : Unit → Except PyErr Unit} (hx : Plain x) (hf : ∀ u, Plain (f u)) : Plain (x >>= f) := by
  intro e he
  rcases x with e' | u
  · exact hx e (by simpa [Bind.bind, Except.bind] using he)
  · exact hf u e (by simpa [Bind.bind, Except.bind] using he)

theorem Plain.len4 (v : PyVal) : Plain (match v.len with
    | .error e => .error e
    | .ok n => .ok (n == 4) : Except PyErr Bool) := by
  intro e he
  have := Plain.len v
  rcases h : v.len with e' | n
  · rw [h] at he; exact this e (by rw [h]; simpa using he)
  · rw [h] at he; simp at he

theorem Plain.item {v : PyVal} {x y z w : PyVal} (hv : v = .tuple [x, y, z, w] ∨ v = .list [x, y, z, w]) {i : ℕ} (hi : i < 4)
    {c : PyVal → Except PyErr Bool} (hc : ∀ v, Plain (c v)) : Plain (v.itemIs i c) := by
  obtain ⟨u, hu⟩ : ∃ u, ([x, y, z, w] : List PyVal)[i]? = some u := ⟨_, List.getElem?_eq_getElem (by simpa using hi)⟩
  rcases hv with rfl | rfl
  · rw [itemIs_tuple hu]; exact hc u
  · rw [itemIs_list hu]; exact hc u

theorem Plain.item0 {v : PyVal} (h : (match v.len with
    | .error e => .error e
    | .ok n => .ok (n == 4) : Except PyErr Bool) = .ok true) : Plain (v.itemIs 0 fun v => .ok v.isNumber) := by
  intro e he
  cases v with
  | tuple l =>
    obtain ⟨a, b, c, d, rfl⟩ := length_four (l := l) (by simpa [PyVal.len] using h)
    simp [PyVal.itemIs, PyVal.item] at he
  | list l =>
    obtain ⟨a, b, c, d, rfl⟩ := length_four (l := l) (by simpa [PyVal.len] using h)
    simp [PyVal.itemIs, PyVal.item] at he
  | str s =>
    have hl : s.toList.length = 4 := by rw [String.length_toList]; simpa [PyVal.len] using h
    obtain ⟨a, b, c, d, hs⟩ := length_four hl
    simp [PyVal.itemIs, PyVal.item, hs] at he
  | _ => simp [PyVal.len] at h

theorem Plain.well (v : PyVal) : Plain (wellCheck v) := by
  unfold wellCheck
  refine (Plain.len4 v).and fun h => (Plain.item0 h).and fun h0 => ?_
  obtain ⟨x, y, r, q, hv⟩ := four_items h h0
  exact (Plain.item hv (by norm_num) fun _ => Plain.ok _).and fun _ => (Plain.item hv (by norm_num) fun _ => Plain.ok _).and fun _ =>
    (Plain.item hv (by norm_num) fun _ => Plain.lt _ _).and fun _ => Plain.item hv (by norm_num) fun _ => Plain.dist _ _ _

theorem Plain.obs (v : PyVal) : Plain (obsCheck v) := by
  unfold obsCheck
  refine (Plain.len4 v).and fun h => (Plain.item0 h).and fun h0 => ?_
  obtain ⟨x, y, r, q, hv⟩ := four_items h h0
  exact (Plain.item hv (by norm_num) fun _ => Plain.ok _).and fun _ => (Plain.item hv (by norm_num) fun _ => Plain.ok _).and fun _ =>
    (Plain.item hv (by norm_num) fun _ => Plain.ok _).and fun _ => Plain.item hv (by norm_num) fun _ => Plain.le _ _

theorem Plain.all {c : PyVal → Except PyErr Bool} (hc : ∀ v, Plain (c v)) : ∀ l, Plain (assertAll c l)
  | [] => Plain.ok _
  | x :: l => by
    intro e he
    rw [assertAll] at he
    rcases h : pyAssert (c x) with e' | u
    · rw [h] at he
      exact (hc x).assert e (by rw [h]; simpa using he)
    · rw [h] at he
      exact Plain.all hc l e he

theorem Plain.list {c : PyVal → Except PyErr Bool} (hc : ∀ v, Plain (c v)) (v : PyVal) (n : ℕ) : Plain (listCheck v n c) := by
  unfold listCheck
  intro e he
  split at he
  · split at he
    · exact Plain.all hc _ e he
    · simp at he; exact .inl he.symm
  · simp at he; exact .inl he.symm

theorem Plain.target (t w : PyVal) : Plain (targetCheck t w) := by
  unfold targetCheck
  refine (Plain.ok _).and fun _ => (Plain.le _ _).and fun _ => ?_
  intro e he
  have := Plain.len w
  rcases h : w.len with e' | n
  · rw [h] at he; exact this e (by rw [h]; simpa using he)
  · rw [h] at he; exact Plain.lt _ _ e he

theorem Plain.positive (v : PyVal) : Plain (positiveCheck v) := (Plain.ok _).and fun _ => Plain.lt _ _

theorem Plain.duration (v : PyVal) : Plain (durationCheck v) := by
  refine (Plain.ok _).and fun _ => ?_
  unfold pyNeZero
  split <;> exact Plain.ok _

/-- The checks raise only AssertionErrors and TypeErrors. -/
theorem validate_plain (a : PyArgs) : Plain (validate a) := by
  unfold validate
  exact (Plain.ok _).assert.bind fun _ => (Plain.ok _).assert.bind fun _ => (Plain.target _ _).assert.bind fun _ =>
    ((Plain.ok _).and fun _ => Plain.lt _ _).assert.bind fun _ => (Plain.duration _).assert.bind fun _ => (Plain.ok _).assert.bind fun _ =>
    (Plain.dist _ _ _).assert.bind fun _ => (Plain.dist _ _ _).assert.bind fun _ => (Plain.dist _ _ _).assert.bind fun _ =>
    (Plain.list Plain.well _ _).bind fun _ => (Plain.list Plain.obs _ _).bind fun _ => (Plain.positive _).assert.bind fun _ =>
    (Plain.positive _).assert.bind fun _ => (Plain.positive _).assert.bind fun _ => (Plain.positive _).assert.bind fun _ =>
    (Plain.ok _).assert.bind fun _ => (Plain.positive _).assert.bind fun _ => (Plain.positive _).assert

end Oneka

namespace Oneka

/-! ## The shape of a call -/

/-- an effect that touches no file -/
def Quiet (e : Effect) : Prop := ¬ e.OnFiles ∧ e ≠ .shown

theorem quiet_log (l : LogLine) : Quiet (.log l) := ⟨id, by simp⟩
theorem quiet_figure (f : Figure) : Quiet (.figure f) := ⟨id, by simp⟩

theorem quiet_info (l : LogLine) : (Prog.info l).All Quiet := Prog.all_emit (quiet_log l)
theorem quiet_infos (l : List LogLine) : (Prog.infos l).All Quiet := Prog.all_infos fun x _ => quiet_log x

theorem quiet_logV (s : String) (v : PyVal) : (logV s v).All Quiet := quiet_info _
theorem quiet_logD (s : String) (v : PyVal) : (logD s v).All Quiet := (Prog.all_lift _).bind fun _ => quiet_info _
theorem quiet_logF (s : String) (v : PyVal) : (logF s v).All Quiet := (Prog.all_lift _).bind fun _ => quiet_info _
theorem quiet_logSeq (s : String) (v : PyVal) : (logSeq s v).All Quiet := by
  unfold logSeq
  split <;> first | exact quiet_infos _ | exact Prog.all_lift _

theorem quiet_logTheRun (a : PyArgs) : (logTheRun a).All Quiet := by
  unfold logTheRun
  repeat' first
    | exact quiet_info _
    | exact quiet_infos _
    | exact quiet_logV _ _
    | exact quiet_logD _ _
    | exact quiet_logF _ _
    | exact quiet_logSeq _ _
    | exact Prog.all_lift _
    | refine Prog.All.bind ?_ fun _ => ?_

theorem quiet_runProg (E : List RealizationLog) (r : Option RunResult) : (runProg E r).All Quiet := by
  intro e he
  cases r with
  | none =>
    obtain ⟨l, -, rfl⟩ := List.mem_map.mp he
    exact quiet_log _
  | some r =>
    obtain ⟨l, -, rfl⟩ := List.mem_map.mp he
    exact quiet_log _

theorem quiet_compute (n : Inputs) (env : CallEnv) : (compute n env).All Quiet := by
  unfold compute
  refine (quiet_infos _).bind fun _ => (Prog.all_lift _).bind fun _ => (Prog.all_lift _).bind fun _ => (Prog.all_lift _).bind fun _ => (quiet_info _).bind fun _ =>
    (quiet_info _).bind fun _ => ?_
  split
  · exact (quiet_runProg _ _).bind fun _ => (Prog.all_lift _).bind fun _ => (Prog.all_emit (quiet_figure _)).bind fun _ =>
      (Prog.all_lift _).bind fun _ => (Prog.all_emit (quiet_figure _)).bind fun _ => (quiet_infos _).bind fun _ => (Prog.all_lift _).bind fun _ =>
      (quiet_infos _).bind fun _ => (quiet_info _).bind fun _ => Prog.all_pure _
  · exact (quiet_runProg _ _).bind fun _ => (Prog.all_lift _).bind fun _ => (Prog.all_emit (quiet_figure _)).bind fun _ =>
      (quiet_info _).bind fun _ => (quiet_info _).bind fun _ => (quiet_info _).bind fun _ => (quiet_info _).bind fun _ => Prog.all_pure _

/-- everything between logging the arguments and writing the archive -/
noncomputable def stage (a : PyArgs) (env : CallEnv) : Prog FieldVal :=
  match a.inputs with
  | some n => compute n env
  | none => ⟨(env.unmodelled a).1.map effect, (env.unmodelled a).2⟩

theorem quiet_stage (a : PyArgs) (env : CallEnv) : (stage a env).All Quiet := by
  unfold stage
  split
  · exact quiet_compute _ _
  · intro e he
    obtain ⟨x, -, rfl⟩ := List.mem_map.mp he
    cases x
    · exact quiet_log _
    · exact quiet_figure _

theorem oneka_eq (a : PyArgs) (env : CallEnv) : oneka a env =
    (Prog.lift (validate a) >>= fun _ => logTheRun a >>= fun _ => stage a env >>= fun f => dumpOneka a f env >>= fun _ =>
      Prog.emit .shown >>= fun _ => pure .none) := rfl

/-- The ways in which a call can go. -/
inductive Course (a : PyArgs) (env : CallEnv) : Prop
  | rejected (e : PyErr) : ¬ Acceptable a → e = .assertionError ∨ e = .typeError → oneka a env = ⟨[], .raises e⟩ → Course a env
  | unlogged (e : PyErr) : Acceptable a → (logTheRun a).ending = .raises e → oneka a env = ⟨(logTheRun a).events, .raises e⟩ → Course a env
  | failed (e : PyErr) : Acceptable a → (logTheRun a).ending = .returns () → (stage a env).ending = .raises e →
      oneka a env = ⟨(logTheRun a).events ++ (stage a env).events, .raises e⟩ → Course a env
  | endless : Acceptable a → (logTheRun a).ending = .returns () → (stage a env).ending = .diverges →
      oneka a env = ⟨(logTheRun a).events ++ (stage a env).events, .diverges⟩ → Course a env
  | unopened (f : FieldVal) (e : PyErr) : Acceptable a → (logTheRun a).ending = .returns () → (stage a env).ending = .returns f → env.openError = some e →
      oneka a env = ⟨(logTheRun a).events ++ (stage a env).events, .raises e⟩ → Course a env
  | unwritten (f : FieldVal) (e : PyErr) : Acceptable a → (logTheRun a).ending = .returns () → (stage a env).ending = .returns f → env.openError = none →
      env.writeError = some e →
      oneka a env = ⟨(logTheRun a).events ++ (stage a env).events ++ [.opened env.now.archiveName], .raises e⟩ → Course a env
  | returned (f : FieldVal) : Acceptable a → (logTheRun a).ending = .returns () → (stage a env).ending = .returns f → env.openError = none →
      env.writeError = none →
      oneka a env = ⟨(logTheRun a).events ++ (stage a env).events ++
        [.opened env.now.archiveName, .wrote env.now.archiveName (archiveDict a f), .shown], .returns .none⟩ → Course a env

theorem formatD_int {v : PyVal} (h : v.isInt = true) : formatD v = .ok () := by
  cases v <;> simp [PyVal.isInt] at h <;> rfl

theorem prog_ext_bind {α β : Type} {p : Prog α} {a : α} {q : Prog β} {f : α → Prog β} (h : p.ending = .returns a) (hq : f a = q) :
    p >>= f = ⟨p.events ++ q.events, q.ending⟩ := by
  rw [Prog.bind_ret h, hq]

/-- logging never runs forever -/
theorem logTheRun_ends (a : PyArgs) : (logTheRun a).ending ≠ .diverges := by
  have key : ∀ {α β : Type} {p : Prog α} {f : α → Prog β}, p.ending ≠ .diverges → (∀ x, (f x).ending ≠ .diverges) → (p >>= f).ending ≠ .diverges := by
    intro α β p f hp hf
    cases h : p.ending with
    | returns x => rw [Prog.bind_ret h]; exact hf x
    | raises e => rw [Prog.bind_raise h]; simp
    | diverges => exact absurd h hp
  have hl : ∀ {α : Type} (x : Except PyErr α), (Prog.lift x).ending ≠ .diverges := by intro α x; cases x <;> simp [Prog.lift]
  have hi : ∀ l, (Prog.info l).ending ≠ .diverges := fun l => by simp [Prog.info, Prog.emit]
  have his : ∀ l, (Prog.infos l).ending ≠ .diverges := fun l => by simp [Prog.infos]
  have hS : ∀ s v, (logSeq s v).ending ≠ .diverges := by
    intro s v
    unfold logSeq
    split <;> first | exact his _ | exact hl _
  unfold logTheRun logD logF logV
  repeat' first
    | exact hi _
    | exact his _
    | exact hS _ _
    | exact hl _
    | refine key ?_ fun _ => ?_

theorem course (a : PyArgs) (env : CallEnv) : Course a env := by
  cases hv : validate a with
  | error e =>
    refine .rejected e (fun h => ?_) (validate_plain a e hv) ?_
    · rw [validate_ok.mpr h] at hv; simp at hv
    · rw [oneka_eq, Prog.lift_error hv]
  | ok u =>
    have hacc := validate_ok.mp hv
    have e1 : oneka a env = (logTheRun a >>= fun _ => stage a env >>= fun f => dumpOneka a f env >>= fun _ =>
      Prog.emit .shown >>= fun _ => pure .none) := by rw [oneka_eq, Prog.lift_ok hv]
    cases hl : (logTheRun a).ending with
    | raises e => exact .unlogged e hacc hl (by rw [e1, Prog.bind_raise hl])
    | diverges => exact absurd hl (logTheRun_ends a)
    | returns u' =>
      have hl' : (logTheRun a).ending = .returns () := hl
      rw [Prog.bind_ret hl'] at e1
      cases hs : (stage a env).ending with
      | raises e => exact .failed e hacc hl' hs (by rw [e1, Prog.bind_raise hs])
      | diverges => exact .endless hacc hl' hs (by rw [e1, Prog.bind_div hs])
      | returns f =>
        rw [Prog.bind_ret hs] at e1
        cases ho : env.openError with
        | some e =>
          have hd : dumpOneka a f env = ⟨[], .raises e⟩ := by unfold dumpOneka; rw [ho]
          refine .unopened f e hacc hl' hs ho ?_
          rw [e1, hd, Prog.bind_raise rfl]
          simp
        | none =>
          cases hw : env.writeError with
          | some e =>
            have hd : dumpOneka a f env = ⟨[.opened env.now.archiveName], .raises e⟩ := by unfold dumpOneka; rw [ho]; simp only [hw]
            refine .unwritten f e hacc hl' hs ho hw ?_
            rw [e1, hd, Prog.bind_raise rfl]
            simp
          | none =>
            have hd : dumpOneka a f env = ⟨[.opened env.now.archiveName, .wrote env.now.archiveName (archiveDict a f)], .returns ()⟩ := by
              unfold dumpOneka; rw [ho]; simp only [hw]
            refine .returned f hacc hl' hs ho hw ?_
            rw [e1, hd, Prog.bind_ret (a := ()) rfl, Prog.bind_ret (a := ()) rfl]
            simp [Prog.emit, pure]

/-- quiet effects do not change the files -/
theorem quiet_files {l : List Effect} (h : ∀ e ∈ l, Quiet e) (fs : Files) : l.foldl Effect.apply fs = fs := by
  induction l generalizing fs with
  | nil => rfl
  | cons e l ih =>
    rw [List.foldl_cons]
    have : e.apply fs = fs := by
      have := (h e (by simp)).1
      cases e <;> first | rfl | exact absurd trivial this
    rw [this]
    exact ih (fun e he => h e (by simp [he])) fs

theorem quiet_both (a : PyArgs) (env : CallEnv) : ∀ e ∈ (logTheRun a).events ++ (stage a env).events, Quiet e := by
  intro e he
  rcases List.mem_append.mp he with he | he
  · exact quiet_logTheRun a e he
  · exact quiet_stage a env e he

/-! ## File names -/

theorem archiveName_inj {s t : DateTime} (hs : s.Valid) (ht : t.Valid) (h : s.archiveName = t.archiveName) : s = t := by
  have h1 : s.stamp = t.stamp := by
    unfold DateTime.archiveName at h
    have := String.ofList_injective h
    simpa using this
  obtain ⟨a1, a2, a3, a4, a5, a6⟩ := hs
  obtain ⟨b1, b2, b3, b4, b5, b6⟩ := ht
  unfold DateTime.stamp at h1
  obtain ⟨h1, e6⟩ := List.append_inj h1 (by simp [padded_length])
  obtain ⟨h1, e5⟩ := List.append_inj h1 (by simp [padded_length])
  obtain ⟨h1, e4⟩ := List.append_inj h1 (by simp [padded_length])
  obtain ⟨h1, -⟩ := List.append_inj h1 (by simp [padded_length])
  obtain ⟨h1, e3⟩ := List.append_inj h1 (by simp [padded_length])
  obtain ⟨e1, e2⟩ := List.append_inj h1 (by simp [padded_length])
  have e1 := padded_inj (by omega) (by omega) e1
  have e2 := padded_inj (by omega) (by omega) e2
  have e3 := padded_inj (by omega) (by omega) e3
  have e4 := padded_inj (by omega) (by omega) e4
  have e5 := padded_inj (by omega) (by omega) e5
  have e6 := padded_inj (by omega) (by omega) e6
  cases s; cases t
  simp_all

end Oneka
