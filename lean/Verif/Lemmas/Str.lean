import Verif.Spec.Str
import Verif.Lemmas.Text

/-!
# Printed forms can be read in one way only
-/

namespace Oneka

variable {p : PyText}

/-- the rest of a text after an object -/
def Ends (r : List Char) : Prop := r = [] ∨ ∃ c s, r = c :: s ∧ (c = ',' ∨ c = ')' ∨ c = ']')

/-- not a character that separates objects -/
def Inner (c : Char) : Prop := c ≠ ',' ∧ c ≠ ')' ∧ c ≠ ']' ∧ c ≠ '(' ∧ c ≠ '['

theorem word_unique {w w' r r' : List Char} (hw : ∀ c ∈ w, Inner c) (hw' : ∀ c ∈ w', Inner c) (hr : Ends r) (hr' : Ends r') (h : w ++ r = w' ++ r') : w = w' ∧ r = r' := by
  induction w generalizing w' with
  | nil =>
    cases w' with
    | nil => exact ⟨rfl, h⟩
    | cons c' s' =>
      rcases hr with rfl | ⟨c, s, rfl, hc⟩
      · simp at h
      · simp only [List.nil_append, List.cons_append, List.cons.injEq] at h
        obtain ⟨i1, i2, i3, -, -⟩ := hw' c' (by simp)
        rw [← h.1] at i1 i2 i3
        rcases hc with hc | hc | hc <;> contradiction
  | cons c s ih =>
    cases w' with
    | nil =>
      rcases hr' with rfl | ⟨c', s', rfl, hc⟩
      · simp at h
      · simp only [List.nil_append, List.cons_append, List.cons.injEq] at h
        obtain ⟨i1, i2, i3, -, -⟩ := hw c (by simp)
        rw [h.1] at i1 i2 i3
        rcases hc with hc | hc | hc <;> contradiction
    | cons c' s' =>
      simp only [List.cons_append, List.cons.injEq] at h
      obtain ⟨e1, e2⟩ := ih (fun c hc => hw c (by simp [hc])) (fun c hc => hw' c (by simp [hc])) h.2
      exact ⟨by rw [h.1, e1], e2⟩

theorem digit_inner {c : Char} (h : c.isDigit = true) : Inner c := by
  refine ⟨?_, ?_, ?_, ?_, ?_⟩ <;> rintro rfl <;> revert h <;> decide

theorem intDigits_chars (n : ℤ) : ∀ c ∈ intDigits n, c.isDigit = true ∨ c = '-' := by
  intro c hc
  unfold intDigits at hc
  rw [List.mem_append] at hc
  rcases hc with hc | hc
  · split_ifs at hc with h
    · simp at hc; exact .inr hc
    · simp at hc
  · exact .inl (all_digit (natDigits_digits _) hc)

theorem intDigits_ne_nil (n : ℤ) : intDigits n ≠ [] := by
  intro h
  have := readInt_intDigits n
  rw [h] at this
  simp [readInt, readNat] at this

theorem intDigits_inj {m n : ℤ} (h : intDigits m = intDigits n) : m = n := by
  have := readInt_intDigits m
  rw [h, readInt_intDigits] at this
  exact (Option.some.inj this).symm

/-- an object without parts -/
inductive PyVal.Atom : PyVal → Prop
  | none : Atom .none
  | bool (b : Bool) : Atom (.bool b)
  | int (n : ℤ) : Atom (.int n)
  | float (x : XR) : Atom (.float x)

/-- a text that looks like no number: it has a letter other than `e` -/
theorem not_int_text {s : List Char} {c : Char} (hc : c ∈ s) (h1 : c.isDigit = false) (h2 : c ≠ '-') (n : ℤ) : intDigits n ≠ s := by
  rintro rfl
  rcases intDigits_chars n c hc with h | h
  · rw [h1] at h; cases h
  · exact h2 h

theorem not_float_text (hp : p.Faithful) {s : List Char} {c : Char} (hc : c ∈ s) (h1 : c.isDigit = false) (h2 : c ≠ '-' ∧ c ≠ '.' ∧ c ≠ 'e' ∧ c ≠ '+') {x : ℝ}
    (hx : toBinary64 (.fin x) = .fin x) : p.num x ≠ s := by
  rintro rfl
  rcases hp.chars x hx c hc with h | h | h | h | h
  · rw [h1] at h; cases h
  · exact h2.2.1 h
  · exact h2.2.2.1 h
  · exact h2.2.2.2 h
  · exact h2.1 h

theorem int_ne_float (hp : p.Faithful) (n : ℤ) {x : ℝ} (hx : toBinary64 (.fin x) = .fin x) : intDigits n ≠ p.num x := by
  rcases hp.mark x hx with h | h
  · exact not_int_text h (by decide) (by decide) n
  · exact not_int_text h (by decide) (by decide) n

theorem machine_float {x : XR} (h : PyVal.Machine (.float x)) : toBinary64 x = x := by cases h; assumption

theorem atom_inner (hp : p.Faithful) {v : PyVal} (hv : v.Atom) (hm : v.Machine) : ∀ c ∈ p.repr v, Inner c := by
  cases hv with
  | none => simp only [PyText.repr]; intro c hc; revert c; simp [Inner]
  | bool b => cases b <;> · simp only [PyText.repr]; intro c hc; revert c; simp [Inner]
  | int n =>
    simp only [PyText.repr]
    intro c hc
    rcases intDigits_chars n c hc with h | rfl
    · exact digit_inner h
    · simp [Inner]
  | float x =>
    simp only [PyText.repr]
    cases x with
    | fin x =>
      intro c hc
      rcases hp.chars x (machine_float hm) c hc with h | rfl | rfl | rfl | rfl
      · exact digit_inner h
      all_goals simp [Inner]
    | pinf => intro c hc; revert c; simp [Inner, PyText.float]
    | ninf => intro c hc; revert c; simp [Inner, PyText.float]
    | nan => intro c hc; revert c; simp [Inner, PyText.float]

theorem atom_ne_nil (hp : p.Faithful) {v : PyVal} (hv : v.Atom) (hm : v.Machine) : p.repr v ≠ [] := by
  cases hv with
  | none => simp [PyText.repr]
  | bool b => cases b <;> simp [PyText.repr]
  | int n => simp only [PyText.repr]; exact intDigits_ne_nil n
  | float x =>
    simp only [PyText.repr]
    cases x with
    | fin x =>
      intro h
      simp only [PyText.float] at h
      rcases hp.mark x (machine_float hm) with h' | h' <;> · rw [h] at h'; simp at h'
    | pinf => simp [PyText.float]
    | ninf => simp [PyText.float]
    | nan => simp [PyText.float]

theorem atom_injective (hp : p.Faithful) {v w : PyVal} (hv : v.Atom) (hw : w.Atom) (mv : v.Machine) (mw : w.Machine) (h : p.repr v = p.repr w) : v = w := by
  have key : ∀ {v w : PyVal}, v.Atom → w.Atom → v.Machine → w.Machine → p.repr v = p.repr w → (∀ x, v = .float (.fin x) → ∃ y, w = .float (.fin y)) ∧ (∀ n, v = .int n → ∃ m, w = .int m) := by
    intro v w hv hw mv mw h
    constructor
    · rintro x rfl
      have hx := machine_float mv
      cases hw with
      | none => exact absurd h (not_float_text hp (c := 'N') (by simp [PyText.repr]) (by decide) (by decide) hx)
      | bool b =>
        cases b with
        | false => exact absurd h (not_float_text hp (c := 'F') (by simp [PyText.repr]) (by decide) (by decide) hx)
        | true => exact absurd h (not_float_text hp (c := 'T') (by simp [PyText.repr]) (by decide) (by decide) hx)
      | int n => exact absurd h.symm (int_ne_float hp n hx)
      | float y =>
        cases y with
        | fin y => exact ⟨y, rfl⟩
        | pinf => exact absurd h (not_float_text hp (c := 'n') (by simp [PyText.repr, PyText.float]) (by decide) (by decide) hx)
        | ninf => exact absurd h (not_float_text hp (c := 'n') (by simp [PyText.repr, PyText.float]) (by decide) (by decide) hx)
        | nan => exact absurd h (not_float_text hp (c := 'n') (by simp [PyText.repr, PyText.float]) (by decide) (by decide) hx)
    · rintro n rfl
      cases hw with
      | none => exact absurd h (not_int_text (c := 'N') (by simp [PyText.repr]) (by decide) (by decide) n)
      | bool b =>
        cases b with
        | false => exact absurd h (not_int_text (c := 'F') (by simp [PyText.repr]) (by decide) (by decide) n)
        | true => exact absurd h (not_int_text (c := 'T') (by simp [PyText.repr]) (by decide) (by decide) n)
      | int m => exact ⟨m, rfl⟩
      | float y =>
        cases y with
        | fin y => exact absurd h (int_ne_float hp n (machine_float mw))
        | pinf => exact absurd h (not_int_text (c := 'n') (by simp [PyText.repr, PyText.float]) (by decide) (by decide) n)
        | ninf => exact absurd h (not_int_text (c := 'n') (by simp [PyText.repr, PyText.float]) (by decide) (by decide) n)
        | nan => exact absurd h (not_int_text (c := 'n') (by simp [PyText.repr, PyText.float]) (by decide) (by decide) n)
  obtain ⟨k1, k2⟩ := key hv hw mv mw h
  obtain ⟨k3, k4⟩ := key hw hv mw mv h.symm
  by_cases f1 : ∃ x, v = .float (.fin x)
  · obtain ⟨x, rfl⟩ := f1
    obtain ⟨y, rfl⟩ := k1 x rfl
    have := hp.injective x y (machine_float mv) (machine_float mw) h
    rw [this]
  by_cases f2 : ∃ n, v = .int n
  · obtain ⟨n, rfl⟩ := f2
    obtain ⟨m, rfl⟩ := k2 n rfl
    simp only [PyText.repr] at h
    rw [intDigits_inj h]
  have f3 : ¬ ∃ x, w = .float (.fin x) := fun ⟨x, hx⟩ => f1 (k3 x hx)
  have f4 : ¬ ∃ n, w = .int n := fun ⟨n, hn⟩ => f2 (k4 n hn)
  cases hv with
  | int n => exact absurd ⟨n, rfl⟩ f2
  | none =>
    cases hw with
    | int n => exact absurd ⟨n, rfl⟩ f4
    | none => rfl
    | bool b => cases b <;> simp [PyText.repr] at h
    | float y =>
      cases y with
      | fin y => exact absurd ⟨y, rfl⟩ f3
      | _ => simp [PyText.repr, PyText.float] at h
  | bool b =>
    cases hw with
    | int n => exact absurd ⟨n, rfl⟩ f4
    | none => cases b <;> simp [PyText.repr] at h
    | bool b' => cases b <;> cases b' <;> simp [PyText.repr] at h ⊢
    | float y =>
      cases y with
      | fin y => exact absurd ⟨y, rfl⟩ f3
      | _ => cases b <;> simp [PyText.repr, PyText.float] at h
  | float x =>
    cases x with
    | fin x => exact absurd ⟨x, rfl⟩ f1
    | _ =>
      cases hw with
      | int n => exact absurd ⟨n, rfl⟩ f4
      | none => simp [PyText.repr, PyText.float] at h
      | bool b' => cases b' <;> simp [PyText.repr, PyText.float] at h
      | float y =>
        cases y with
        | fin y => exact absurd ⟨y, rfl⟩ f3
        | _ => simp [PyText.repr, PyText.float] at h ⊢

/-! ## Tuples and lists -/

theorem reprs_eq (p : PyText) (l : List PyVal) : p.reprs l = l.map p.repr := by
  induction l with
  | nil => simp [PyText.reprs]
  | cons v l ih => simp [PyText.reprs, ih]

/-- what follows the first element -/
def tailText (p : PyText) (l : List PyVal) : List Char := (l.map fun v => ',' :: ' ' :: p.repr v).flatten

theorem commaSep_cons (p : PyText) (v : PyVal) (l : List PyVal) : commaSep ((v :: l).map p.repr) = p.repr v ++ tailText p l := by
  unfold commaSep tailText
  induction l generalizing v with
  | nil => simp [List.intercalate]
  | cons w l ih =>
    have := ih w
    simp only [List.intercalate, List.map_cons, List.intersperse_cons_cons, List.flatten_cons] at this ⊢
    rw [this]
    simp

/-- the first character of an object -/
def Begins (s : List Char) : Prop := ∃ c r, s = c :: r ∧ c ≠ ',' ∧ c ≠ ')' ∧ c ≠ ']'

theorem numeric_cases {v : PyVal} (hv : v.Numeric) : v.Atom ∨ (∃ l, v = .tuple l) ∨ ∃ l, v = .list l := by
  cases hv with
  | none => exact .inl .none
  | bool b => exact .inl (.bool b)
  | int n => exact .inl (.int n)
  | float x => exact .inl (.float x)
  | tuple l h => exact .inr (.inl ⟨l, rfl⟩)
  | list l h => exact .inr (.inr ⟨l, rfl⟩)

theorem tupleText_cons (l : List (List Char)) : ∃ r, tupleText l = '(' :: r := by
  unfold tupleText
  split
  · exact ⟨_, rfl⟩
  · exact ⟨_, rfl⟩

theorem repr_begins (hp : p.Faithful) {v : PyVal} (hv : v.Numeric) (hm : v.Machine) : Begins (p.repr v) := by
  rcases numeric_cases hv with ha | ⟨l, rfl⟩ | ⟨l, rfl⟩
  · have h1 := atom_ne_nil hp ha hm
    have h2 := atom_inner hp ha hm
    cases hs : p.repr v with
    | nil => exact absurd hs h1
    | cons c r =>
      rw [hs] at h2
      obtain ⟨i1, i2, i3, -⟩ := h2 c (by simp)
      exact ⟨c, r, rfl, i1, i2, i3⟩
  · simp only [PyText.repr]
    obtain ⟨r, hr⟩ := tupleText_cons (p.reprs l)
    rw [hr]
    exact ⟨'(', r, rfl, by decide, by decide, by decide⟩
  · exact ⟨'[', _, by simp only [PyText.repr, listText]; rfl, by decide, by decide, by decide⟩

theorem ends_tail (l : List PyVal) {c : Char} (hc : c = ')' ∨ c = ']') (r : List Char) : Ends (tailText p l ++ c :: r) := by
  cases l with
  | nil => exact .inr ⟨c, r, by simp [tailText], .inr hc⟩
  | cons v l => exact .inr ⟨',', _, by simp [tailText]; rfl, .inl rfl⟩

theorem tail_unique (hp : p.Faithful) {l l' : List PyVal} (ih : ∀ v ∈ l, v.Machine → ∀ w : PyVal, w.Numeric → w.Machine → ∀ r r', Ends r → Ends r' → p.repr v ++ r = p.repr w ++ r' → v = w ∧ r = r')
    (ml : ∀ v ∈ l, v.Machine) (nl' : ∀ v ∈ l', v.Numeric) (ml' : ∀ v ∈ l', v.Machine) {c c' : Char} (hc : c = ')' ∨ c = ']') (hc' : c' = ')' ∨ c' = ']') {r r' : List Char}
    (h : tailText p l ++ c :: r = tailText p l' ++ c' :: r') : l = l' ∧ c = c' ∧ r = r' := by
  induction l generalizing l' with
  | nil =>
    cases l' with
    | nil => simp [tailText] at h; exact ⟨rfl, h.1, h.2⟩
    | cons v l' =>
      simp [tailText] at h
      rw [h.1] at hc
      rcases hc with hc | hc <;> cases hc
  | cons v l ihl =>
    cases l' with
    | nil =>
      simp [tailText] at h
      rw [← h.1] at hc'
      rcases hc' with hc' | hc' <;> cases hc'
    | cons v' l' =>
      have e : p.repr v ++ (tailText p l ++ c :: r) = p.repr v' ++ (tailText p l' ++ c' :: r') := by
        simpa [tailText] using h
      obtain ⟨e1, e2⟩ := ih v (by simp) (ml v (by simp)) v' (nl' v' (by simp)) (ml' v' (by simp)) _ _ (ends_tail l hc r) (ends_tail l' hc' r') e
      obtain ⟨e3, e4, e5⟩ := ihl (fun w hw => ih w (by simp [hw])) (fun w hw => ml w (by simp [hw])) (fun w hw => nl' w (by simp [hw])) (fun w hw => ml' w (by simp [hw])) e2
      exact ⟨by rw [e1, e3], e4, e5⟩

theorem tuple_parts {l : List PyVal} (h : PyVal.Machine (.tuple l)) : ∀ v ∈ l, v.Machine := by cases h; assumption
theorem list_parts {l : List PyVal} (h : PyVal.Machine (.list l)) : ∀ v ∈ l, v.Machine := by cases h; assumption
theorem tuple_numeric {l : List PyVal} (h : PyVal.Numeric (.tuple l)) : ∀ v ∈ l, v.Numeric := by cases h; assumption
theorem list_numeric {l : List PyVal} (h : PyVal.Numeric (.list l)) : ∀ v ∈ l, v.Numeric := by cases h; assumption

/-- the texts of tuples and lists, after the opening bracket -/
theorem repr_tuple (p : PyText) (l : List PyVal) : p.repr (.tuple l) = match l with
    | [] => ['(', ')']
    | [v] => '(' :: (p.repr v ++ [',', ')'])
    | v :: w :: l => '(' :: (p.repr v ++ (tailText p (w :: l) ++ [')'])) := by
  simp only [PyText.repr, reprs_eq]
  match l with
  | [] => simp [tupleText, commaSep, List.intercalate]
  | [v] => simp [tupleText]
  | v :: w :: l =>
    have := commaSep_cons p v (w :: l)
    simp only [List.map_cons] at this
    simp only [List.map_cons, tupleText, this]
    simp

theorem repr_list (p : PyText) (l : List PyVal) : p.repr (.list l) = match l with
    | [] => ['[', ']']
    | v :: l => '[' :: (p.repr v ++ (tailText p l ++ [']'])) := by
  simp only [PyText.repr, reprs_eq, listText]
  match l with
  | [] => simp [commaSep, List.intercalate]
  | v :: l =>
    rw [commaSep_cons p v l]
    simp

theorem ends_cons {c : Char} (h : c = ',' ∨ c = ')' ∨ c = ']') (s : List Char) : Ends (c :: s) := .inr ⟨c, s, rfl, h⟩

/-- A text can be read in one way only: as an object and a rest. -/
theorem repr_unique (hp : p.Faithful) {v : PyVal} (hv : v.Numeric) (mv : v.Machine) {w : PyVal} (hw : w.Numeric) (mw : w.Machine) {r r' : List Char} (hr : Ends r) (hr' : Ends r')
    (h : p.repr v ++ r = p.repr w ++ r') : v = w ∧ r = r' := by
  have atoms : ∀ v w : PyVal, v.Atom → v.Machine → w.Numeric → w.Machine → ∀ r r', Ends r → Ends r' → p.repr v ++ r = p.repr w ++ r' → v = w ∧ r = r' := by
    intro v w ha mv hw mw r r' hr hr' h
    have bad : ∀ (c : Char) s, (c = '(' ∨ c = '[') → p.repr w = c :: s → False := by
      intro c s hc hs
      have h1 := atom_ne_nil hp ha mv
      have h2 := atom_inner hp ha mv
      cases hv : p.repr v with
      | nil => exact h1 hv
      | cons d t =>
        rw [hv, hs] at h
        simp only [List.cons_append, List.cons.injEq] at h
        obtain ⟨-, -, -, i4, i5⟩ := h2 d (by rw [hv]; simp)
        rw [h.1] at i4 i5
        rcases hc with hc | hc <;> contradiction
    rcases numeric_cases hw with hb | ⟨l, rfl⟩ | ⟨l, rfl⟩
    · obtain ⟨e1, e2⟩ := word_unique (atom_inner hp ha mv) (atom_inner hp hb mw) hr hr' h
      exact ⟨atom_injective hp ha hb mv mw e1, e2⟩
    · obtain ⟨s, hs⟩ := tupleText_cons (p.reprs l)
      exact absurd hs fun hs => bad '(' s (.inl rfl) (by simp only [PyText.repr]; exact hs)
    · exact (bad '[' _ (.inr rfl) (by simp only [PyText.repr, listText]; rfl)).elim
  induction hv generalizing w r r' with
  | none => exact atoms _ _ .none mv hw mw _ _ hr hr' h
  | bool b => exact atoms _ _ (.bool b) mv hw mw _ _ hr hr' h
  | int n => exact atoms _ _ (.int n) mv hw mw _ _ hr hr' h
  | float x => exact atoms _ _ (.float x) mv hw mw _ _ hr hr' h
  | tuple l hl ih =>
    have ml := tuple_parts mv
    have ih' : ∀ v ∈ l, v.Machine → ∀ w : PyVal, w.Numeric → w.Machine → ∀ r r', Ends r → Ends r' → p.repr v ++ r = p.repr w ++ r' → v = w ∧ r = r' :=
      fun v hv m w nw mw r r' hr hr' h => ih v hv m nw mw hr hr' h
    rcases numeric_cases hw with hb | ⟨l', rfl⟩ | ⟨l', rfl⟩
    · obtain ⟨e1, e2⟩ := atoms _ _ hb mw (.tuple l hl) mv _ _ hr' hr h.symm
      exact ⟨e1.symm, e2.symm⟩
    · have ml' := tuple_parts mw
      have nl' := tuple_numeric hw
      rw [repr_tuple, repr_tuple] at h
      match l, l', hl, ml, ih', ml', nl', h with
      | [], [], _, _, _, _, _, h => simp at h; exact ⟨rfl, h⟩
      | [], v' :: [], _, _, _, ml', nl', h =>
        obtain ⟨c, s, hs, -, h2, -⟩ := repr_begins hp (nl' v' (by simp)) (ml' v' (by simp))
        simp [hs] at h
        exact absurd h.1.symm h2
      | [], v' :: w' :: l', _, _, _, ml', nl', h =>
        obtain ⟨c, s, hs, -, h2, -⟩ := repr_begins hp (nl' v' (by simp)) (ml' v' (by simp))
        simp [hs] at h
        exact absurd h.1.symm h2
      | v :: [], [], hl, ml, _, _, _, h =>
        obtain ⟨c, s, hs, -, h2, -⟩ := repr_begins hp (hl v (by simp)) (ml v (by simp))
        simp [hs] at h
        exact absurd h.1 h2
      | v :: w :: l, [], hl, ml, _, _, _, h =>
        obtain ⟨c, s, hs, -, h2, -⟩ := repr_begins hp (hl v (by simp)) (ml v (by simp))
        simp [hs] at h
        exact absurd h.1 h2
      | v :: [], v' :: [], _, ml, ih', ml', nl', h =>
        have e : p.repr v ++ (',' :: ')' :: r) = p.repr v' ++ (',' :: ')' :: r') := by simpa using h
        obtain ⟨e1, e2⟩ := ih' v (by simp) (ml v (by simp)) v' (nl' v' (by simp)) (ml' v' (by simp)) _ _ (ends_cons (.inl rfl) _) (ends_cons (.inl rfl) _) e
        simp at e2
        exact ⟨by rw [e1], e2⟩
      | v :: [], v' :: w' :: l', _, ml, ih', ml', nl', h =>
        have e : p.repr v ++ (',' :: ')' :: r) = p.repr v' ++ (',' :: ' ' :: (p.repr w' ++ (tailText p l' ++ ')' :: r'))) := by simpa [tailText] using h
        obtain ⟨-, e2⟩ := ih' v (by simp) (ml v (by simp)) v' (nl' v' (by simp)) (ml' v' (by simp)) _ _ (ends_cons (.inl rfl) _) (ends_cons (.inl rfl) _) e
        simp at e2
      | v :: w :: l, v' :: [], _, ml, ih', ml', nl', h =>
        have e : p.repr v ++ (',' :: ' ' :: (p.repr w ++ (tailText p l ++ ')' :: r))) = p.repr v' ++ (',' :: ')' :: r') := by simpa [tailText] using h
        obtain ⟨-, e2⟩ := ih' v (by simp) (ml v (by simp)) v' (nl' v' (by simp)) (ml' v' (by simp)) _ _ (ends_cons (.inl rfl) _) (ends_cons (.inl rfl) _) e
        simp at e2
      | v :: w :: l, v' :: w' :: l', _, ml, ih', ml', nl', h =>
        have e : p.repr v ++ (tailText p (w :: l) ++ ')' :: r) = p.repr v' ++ (tailText p (w' :: l') ++ ')' :: r') := by simpa using h
        obtain ⟨e1, e2⟩ := ih' v (by simp) (ml v (by simp)) v' (nl' v' (by simp)) (ml' v' (by simp)) _ _ (ends_tail _ (.inl rfl) _) (ends_tail _ (.inl rfl) _) e
        obtain ⟨e3, -, e5⟩ := tail_unique hp (fun u hu => ih' u (by simp at hu ⊢; tauto)) (fun u hu => ml u (by simp at hu ⊢; tauto)) (fun u hu => nl' u (by simp at hu ⊢; tauto))
          (fun u hu => ml' u (by simp at hu ⊢; tauto)) (.inl rfl) (.inl rfl) e2
        exact ⟨by rw [e1, e3], e5⟩
    · rw [repr_list] at h
      obtain ⟨s, hs⟩ := tupleText_cons (p.reprs l)
      simp only [PyText.repr] at h
      rw [hs] at h
      cases l' <;> simp at h
  | list l hl ih =>
    have ml := list_parts mv
    have ih' : ∀ v ∈ l, v.Machine → ∀ w : PyVal, w.Numeric → w.Machine → ∀ r r', Ends r → Ends r' → p.repr v ++ r = p.repr w ++ r' → v = w ∧ r = r' :=
      fun v hv m w nw mw r r' hr hr' h => ih v hv m nw mw hr hr' h
    rcases numeric_cases hw with hb | ⟨l', rfl⟩ | ⟨l', rfl⟩
    · obtain ⟨e1, e2⟩ := atoms _ _ hb mw (.list l hl) mv _ _ hr' hr h.symm
      exact ⟨e1.symm, e2.symm⟩
    · rw [repr_list] at h
      obtain ⟨s, hs⟩ := tupleText_cons (p.reprs l')
      simp only [PyText.repr] at h
      rw [hs] at h
      cases l <;> simp at h
    · have ml' := list_parts mw
      have nl' := list_numeric hw
      rw [repr_list, repr_list] at h
      match l, l', hl, ml, ih', ml', nl', h with
      | [], [], _, _, _, _, _, h => simp at h; exact ⟨rfl, h⟩
      | [], v' :: l', _, _, _, ml', nl', h =>
        obtain ⟨c, s, hs, -, -, h3⟩ := repr_begins hp (nl' v' (by simp)) (ml' v' (by simp))
        simp [hs] at h
        exact absurd h.1.symm h3
      | v :: l, [], hl, ml, _, _, _, h =>
        obtain ⟨c, s, hs, -, -, h3⟩ := repr_begins hp (hl v (by simp)) (ml v (by simp))
        simp [hs] at h
        exact absurd h.1 h3
      | v :: l, v' :: l', _, ml, ih', ml', nl', h =>
        have e : p.repr v ++ (tailText p l ++ ']' :: r) = p.repr v' ++ (tailText p l' ++ ']' :: r') := by simpa using h
        obtain ⟨e1, e2⟩ := ih' v (by simp) (ml v (by simp)) v' (nl' v' (by simp)) (ml' v' (by simp)) _ _ (ends_tail _ (.inr rfl) _) (ends_tail _ (.inr rfl) _) e
        obtain ⟨e3, -, e5⟩ := tail_unique hp (fun u hu => ih' u (by simp at hu ⊢; tauto)) (fun u hu => ml u (by simp at hu ⊢; tauto)) (fun u hu => nl' u (by simp at hu ⊢; tauto))
          (fun u hu => ml' u (by simp at hu ⊢; tauto)) (.inr rfl) (.inr rfl) e2
        exact ⟨by rw [e1, e3], e5⟩

theorem repr_injective (hp : p.Faithful) {v w : PyVal} (hv : v.Numeric) (mv : v.Machine) (hw : w.Numeric) (mw : w.Machine) (h : p.repr v = p.repr w) : v = w :=
  (repr_unique hp hv mv hw mw (.inl rfl) (.inl rfl) (by rw [h])).1

end Oneka
