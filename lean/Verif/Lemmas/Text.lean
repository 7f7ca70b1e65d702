import Mathlib.Algebra.BigOperators.Group.List.Lemmas
import Verif.Lemmas.Format
import Verif.Spec.Text
import Verif.Spec.Oneka

/-!
# Lemmas on texts
-/

namespace Oneka

/-! ## Numbers -/

theorem shows_fixed_pad (w k : ℕ) (x : ℝ) : Shows (padLeft w (fixed k x)) (1 / 2 / 10 ^ k) x := ⟨_, read_fixed w k x, scaled_near k x⟩

theorem shows_fixed (k : ℕ) (x : ℝ) : Shows (fixed k x) (1 / 2 / 10 ^ k) x := by
  have := shows_fixed_pad 0 k x
  rwa [padLeft_zero] at this

theorem shows_comma_pad (w k : ℕ) (x : ℝ) : Shows (padLeft w (commaFixed k x)) (1 / 2 / 10 ^ k) x := ⟨_, read_comma w k x, scaled_near k x⟩

theorem shows_sci_pad (w k : ℕ) (plus : Bool) (x : ℝ) : Shows (padLeft w (sci plus k x)) (|x| / 2 / 10 ^ k) x := ⟨_, read_sci w k plus x, sci_near k x⟩

theorem shows_sci (k : ℕ) (plus : Bool) (x : ℝ) : Shows (sci plus k x) (|x| / 2 / 10 ^ k) x := by
  have := shows_sci_pad 0 k plus x
  rwa [padLeft_zero] at this

theorem natDigits_eq_fixed (n : ℕ) : natDigits n = fixed 0 (n : ℝ) := by
  unfold fixed signChars scaled fixedDigits
  have h : ¬ ((n : ℝ) < 0) := not_lt.mpr (Nat.cast_nonneg n)
  rw [if_neg h]
  have e : roundEven (|(n : ℝ)| * 10 ^ 0) = (n : ℤ) := by
    rw [pow_zero, mul_one, Nat.abs_cast]
    exact_mod_cast roundEven_int (n : ℤ)
  rw [e]
  simp

theorem shows_nat_pad (w n : ℕ) : Shows (padLeft w (natDigits n)) 0 (n : ℝ) := by
  refine ⟨n, ?_, by simp⟩
  rw [natDigits_eq_fixed, read_fixed]
  have e : (scaled 0 (n : ℝ) : ℝ) = n := by
    have := scaled_cast 0 (n : ℝ)
    rw [this, pow_zero, mul_one, Nat.abs_cast]
    exact_mod_cast roundEven_int (n : ℤ)
  rw [e]
  have : signOf (n : ℝ) = 1 := by
    unfold signOf
    rw [if_neg (not_lt.mpr (Nat.cast_nonneg n))]
  rw [this]
  simp

theorem readInt_intDigits (n : ℤ) : readInt (intDigits n) = some n := by
  unfold intDigits
  obtain ⟨c, s, h, hc⟩ := natDigits_cons n.natAbs
  have hr := readNat_natDigits n.natAbs
  rw [h] at hr ⊢
  obtain ⟨-, -, -, -, h1, h2⟩ := digit_ne hc
  split
  · rw [List.singleton_append, readInt, hr]
    show some (-((n.natAbs : ℕ) : ℤ)) = some n
    congr 1
    omega
  · show readInt (c :: s) = _
    unfold readInt
    split
    · rename_i heq; simp at heq; exact absurd heq.1 h1
    · rename_i heq; simp at heq; exact absurd heq.1 h2
    · rw [hr]
      show some ((n.natAbs : ℕ) : ℤ) = some n
      congr 1
      omega

theorem Fmt.shows (f : Fmt) (x : ℝ) : Shows (f.apply x) (f.precision x) x := by
  cases f with
  | fixed w k => exact shows_fixed_pad w k x
  | sci w k => exact shows_sci_pad w k false x

/-! ## Lengths -/

theorem sciParts_lt (k : ℕ) (x : ℝ) : (sciParts k x).2 < 10 ^ (k + 1) := by
  unfold sciParts
  simp only
  split
  · assumption
  · exact Nat.pow_lt_pow_right (by norm_num) (by omega)

theorem sciParts_exponent {k : ℕ} {x : ℝ} (h : x = 0 ∨ (10:ℝ) ^ (-99 : ℤ) ≤ |x| ∧ |x| < (10:ℝ) ^ (99 : ℤ)) : (sciParts k x).1.natAbs < 100 := by
  have hl : -99 ≤ Int.log 10 |x| ∧ Int.log 10 |x| < 99 := by
    rcases h with rfl | ⟨h1, h2⟩
    · simp
    · have hx : 0 < |x| := lt_of_lt_of_le (by positivity) h1
      constructor
      · exact (Int.zpow_le_iff_le_log (by norm_num) hx).mp (by exact_mod_cast h1)
      · exact (Int.lt_zpow_iff_log_lt (by norm_num) hx).mp (by exact_mod_cast h2)
  unfold sciParts
  simp only
  split
  · dsimp only; omega
  · dsimp only; omega

theorem sci_length_le {k : ℕ} (hk : k ≠ 0) (plus : Bool) {x : ℝ} (h : x = 0 ∨ (10:ℝ) ^ (-99 : ℤ) ≤ |x| ∧ |x| < (10:ℝ) ^ (99 : ℤ)) : (sci plus k x).length ≤ k + 7 := by
  unfold sci
  rw [List.length_append, List.length_append, fixedDigits_length hk]
  have h1 := signChars_length' plus x
  have h2 : (natDigits ((sciParts k x).2 / 10 ^ k)).length ≤ 1 := by
    rw [natDigits_length_le (by norm_num), Nat.div_lt_iff_lt_mul (by positivity)]
    have := sciParts_lt k x
    rw [pow_succ] at this
    omega
  have h3 : (exponentChars (sciParts k x).1).length ≤ 4 := by
    have he := sciParts_exponent (k := k) h
    unfold exponentChars
    simp only [List.length_cons, padded_length]
    have : Nat.log 10 (sciParts k x).1.natAbs < 2 := Nat.log_lt_of_lt_pow' (by norm_num) (by simpa using he)
    omega
  omega

theorem Fmt.holds_length {f : Fmt} {x : ℝ} (h : f.Holds x) : (f.apply x).length = f.columns := by
  cases f with
  | fixed w k =>
    obtain ⟨h1, h2, h3⟩ := h
    have := fixed_length_le (k := k) (m := w - k - 2) (by omega) (by omega) h3
    show (padLeft w (Oneka.fixed k x)).length = w
    rw [padLeft_length]
    omega
  | sci w k =>
    obtain ⟨h1, h2, h3⟩ := h
    have := sci_length_le (k := k) (by omega) false h3
    show (padLeft w (Oneka.sci false k x)).length = w
    rw [padLeft_length]
    omega

theorem Fmt.holds_one {f : Fmt} {x : ℝ} (h : f.Holds x) : f.Holds 1 := by
  cases f with
  | fixed w k =>
    obtain ⟨h1, h2, h3⟩ := h
    refine ⟨h1, h2, ?_⟩
    have : (10:ℝ) ^ 1 ≤ 10 ^ (w - k - 2) := pow_le_pow_right₀ (by norm_num) (by omega)
    rw [abs_one]
    linarith
  | sci w k =>
    obtain ⟨h1, h2, h3⟩ := h
    exact ⟨h1, h2, .inr (by norm_num)⟩

theorem Fmt.holds_width {f : Fmt} {x : ℝ} (h : f.Holds x) : f.width = f.columns := Fmt.holds_length (Fmt.holds_one h)

/-! ## No line feeds -/

theorem digit_not_feed {c : Char} (h : c.isDigit = true) : c ≠ '\n' := by
  rintro rfl
  revert h
  decide

theorem natDigits_not_feed (n : ℕ) : '\n' ∉ natDigits n := fun h => digit_not_feed (all_digit (natDigits_digits n) h) rfl

theorem padLeft_not_feed {w : ℕ} {s : List Char} (h : '\n' ∉ s) : '\n' ∉ padLeft w s := by
  unfold padLeft
  simp [h, List.mem_replicate]

theorem signChars_not_feed (plus : Bool) (x : ℝ) : '\n' ∉ signChars plus x := by
  unfold signChars
  split
  · decide
  · split <;> decide

theorem fixedDigits_not_feed (k n : ℕ) : '\n' ∉ fixedDigits k n := by
  intro h
  rcases fixedDigits_chars k n _ h with h | h
  · exact digit_not_feed h rfl
  · exact absurd h (by decide)

theorem fixed_not_feed (k : ℕ) (x : ℝ) : '\n' ∉ fixed k x := by
  unfold fixed
  simp [signChars_not_feed, fixedDigits_not_feed]

theorem sci_not_feed (plus : Bool) (k : ℕ) (x : ℝ) : '\n' ∉ sci plus k x := by
  unfold sci exponentChars
  intro h
  rcases List.mem_append.mp h with h | h
  · rcases List.mem_append.mp h with h | h
    · exact signChars_not_feed _ _ h
    · exact fixedDigits_not_feed _ _ h
  · simp only [List.mem_cons] at h
    rcases h with h | h | h
    · exact absurd h (by decide)
    · split at h <;> exact absurd h (by decide)
    · exact digit_not_feed (all_digit (padded_digits _ _) h) rfl

theorem Fmt.not_feed (f : Fmt) (x : ℝ) : '\n' ∉ f.apply x := by
  cases f with
  | fixed w k => exact padLeft_not_feed (fixed_not_feed k x)
  | sci w k => exact padLeft_not_feed (sci_not_feed false k x)

theorem zipWith_not_feed {α β : Type} {g : α → β → List Char} {l : List α} {l' : List β} (h : ∀ a ∈ l, ∀ b ∈ l', '\n' ∉ g a b) :
    '\n' ∉ (List.zipWith g l l').flatten := by
  intro hm
  obtain ⟨s, hs, hn⟩ := List.mem_flatten.mp hm
  obtain ⟨i, hi, rfl⟩ := List.getElem_of_mem hs
  rw [List.getElem_zipWith] at hn
  exact h _ (List.getElem_mem _) _ (List.getElem_mem _) hn

/-- lines can be told apart by the line feeds -/
theorem splitOn_withFeeds {lines : List (List Char)} (h : ∀ l ∈ lines, '\n' ∉ l) : (withFeeds lines).splitOn '\n' = lines ++ [[]] := by
  unfold withFeeds
  induction lines with
  | nil => rfl
  | cons l lines ih =>
    rw [List.map_cons, List.flatten_cons, List.append_assoc, List.singleton_append, List.splitOn_append_cons_self_of_not_mem (h l (by simp)),
      ih fun m hm => h m (by simp [hm])]
    rfl

/-! ## Rows -/

theorem zipWith_widths {β : Type} {g : Fmt → β → List Char} {formats : List Fmt} {l : List β} (hlen : formats.length = l.length)
    (hw : ∀ (j : ℕ) (f : Fmt) (b : β), formats[j]? = some f → l[j]? = some b → (g f b).length = f.columns) :
    (List.zipWith g formats l).map List.length = formats.map Fmt.columns := by
  refine List.ext_getElem (by simp [hlen]) fun j h1 h2 => ?_
  simp only [List.getElem_map, List.getElem_zipWith]
  exact hw j _ _ (List.getElem?_eq_getElem _) (List.getElem?_eq_getElem _)

theorem row_cells {β : Type} {g : Fmt → β → List Char} {formats : List Fmt} {l : List β} {label : List Char} (hl : label.length = 5) (hlen : formats.length = l.length)
    (hw : ∀ (j : ℕ) (f : Fmt) (b : β), formats[j]? = some f → l[j]? = some b → (g f b).length = f.columns) :
    (label ++ (List.zipWith g formats l).flatten).length = totalColumns formats ∧
    ∀ (j : ℕ) (f : Fmt) (b : β), formats[j]? = some f → l[j]? = some b → cell formats j (label ++ (List.zipWith g formats l).flatten) = g f b := by
  have hws := zipWith_widths hlen hw
  constructor
  · rw [List.length_append, List.length_flatten, hws, hl]
    rfl
  · intro j f b hf hb
    unfold cell
    have e1 : ∀ m, (label ++ (List.zipWith g formats l).flatten).take (5 + m) = label ++ (List.zipWith g formats l).flatten.take m := by
      intro m
      rw [← hl, List.take_length_add_append]
    have e2 : ∀ m (r : List Char), (label ++ r).drop (5 + m) = r.drop m := by
      intro m r
      rw [← hl, List.drop_length_add_append]
    rw [e1, e2, ← hws]
    obtain ⟨hj, rfl⟩ := List.getElem?_eq_some_iff.mp hf
    obtain ⟨hj', rfl⟩ := List.getElem?_eq_some_iff.mp hb
    rw [List.drop_take_succ_flatten_eq_getElem _ j (by simp; omega), List.getElem_zipWith]

theorem row_shows {formats : List Fmt} {cols : List ColumnStats} {label : String} (hl : label.toList.length = 5) (hlen : formats.length = cols.length)
    (stat : ColumnStats → ℝ) (hw : ∀ (j : ℕ) (f : Fmt) (s : ColumnStats), formats[j]? = some f → cols[j]? = some s → f.Holds (stat s)) :
    RowShows formats cols label stat Fmt.precision (label.toList ++ (List.zipWith (fun f c => f.apply (stat c)) formats cols).flatten) := by
  obtain ⟨h1, h2⟩ := row_cells (g := fun f c => Fmt.apply f (stat c)) hl hlen fun j f s hf hs => Fmt.holds_length (hw j f s hf hs)
  refine ⟨by rw [← hl, List.take_left], h1, fun j f s hf hs => ?_⟩
  rw [h2 j f s hf hs]
  exact ⟨Fmt.holds_length (hw j f s hf hs), Fmt.shows f _⟩

theorem centred_shape (w : ℕ) (s : List Char) : ∃ a b, centred w s = List.replicate a ' ' ++ s ++ List.replicate b ' ' ∧ a ≤ b ∧ b ≤ a + 1 :=
  ⟨_, _, rfl, by omega, by omega⟩

theorem centred_length {w : ℕ} {s : List Char} (h : s.length ≤ w) : (centred w s).length = w := by
  unfold centred
  simp
  omega

/-- the table -/
theorem table_shows {title : List Char} {names : List (List Char)} {formats : List Fmt} {cols : List ColumnStats} (hf : formats.length = cols.length)
    (hn : names.length = cols.length) (ht : '\n' ∉ title ∧ title.length ≤ totalColumns formats)
    (hnames : ∀ (j : ℕ) (f : Fmt) (name : List Char), formats[j]? = some f → names[j]? = some name → '\n' ∉ name ∧ name.length ≤ f.columns)
    (hfit : ∀ (j : ℕ) (f : Fmt) (s : ColumnStats), formats[j]? = some f → cols[j]? = some s → f.HoldsColumn s) :
    TableShows title names formats cols (withFeeds (tableLines title names formats cols)) := by
  have hwidths : formats.map Fmt.width = formats.map Fmt.columns := by
    refine List.ext_getElem (by simp) fun j h1 h2 => ?_
    simp only [List.length_map] at h1
    simp only [List.getElem_map]
    exact Fmt.holds_width (hfit j _ _ (List.getElem?_eq_getElem h1) (List.getElem?_eq_getElem (hf ▸ h1))).min
  have htotal : 5 + (formats.map Fmt.width).sum = totalColumns formats := by rw [hwidths]; rfl
  have hz {β : Type} (g : ℕ → β → List Char) (l : List β) : List.zipWith g (formats.map Fmt.width) l = List.zipWith (fun f b => g f.columns b) formats l := by
    rw [hwidths, List.zipWith_map_left]
  have hcols : ∀ (j : ℕ) (f : Fmt) (s : ColumnStats), formats[j]? = some f → cols[j]? = some s → f.columns ≠ 0 := by
    intro j f s h1 h2 h0
    have := (hfit j f s h1 h2).min
    cases f with
    | fixed w k => obtain ⟨a, b, -⟩ := this; change w = 0 at h0; omega
    | sci w k => obtain ⟨a, b, -⟩ := this; change w = 0 at h0; omega
  unfold tableLines
  simp only [hz, htotal]
  have hno : ∀ f ∈ formats, ∀ n ∈ names, '\n' ∉ n → '\n' ∉ padLeft f.columns n := fun f _ n _ h => padLeft_not_feed h
  have hnames' : ∀ n ∈ names, '\n' ∉ n := by
    intro n hm
    obtain ⟨j, hj, rfl⟩ := List.getElem_of_mem hm
    have hj' : j < formats.length := by omega
    exact (hnames j _ _ (List.getElem?_eq_getElem hj') (List.getElem?_eq_getElem hj)).1
  have hrow (label : String) (hl : '\n' ∉ label.toList) (stat : ColumnStats → ℝ) :
      '\n' ∉ label.toList ++ (List.zipWith (fun f c => f.apply (stat c)) formats cols).flatten := by
    rw [List.mem_append, not_or]
    exact ⟨hl, zipWith_not_feed fun f _ c _ => Fmt.not_feed f _⟩
  refine ⟨_, _, _, _, _, _, _, _, splitOn_withFeeds ?_, ⟨centred_length ht.2, centred_shape _ _⟩, ?_, ?_, ?_, ?_, ?_, ?_, ?_⟩
  · intro l hl
    simp only [List.mem_cons, List.not_mem_nil, or_false] at hl
    rcases hl with rfl | rfl | rfl | rfl | rfl | rfl | rfl | rfl | rfl | rfl | rfl
    · unfold centred
      simp [ht.1, List.mem_replicate]
    · simp [List.mem_replicate]
    · rw [List.mem_append, not_or]
      exact ⟨by decide, zipWith_not_feed fun f hf n hn => padLeft_not_feed (hnames' n hn)⟩
    · simp [List.mem_replicate]
    · rw [List.mem_append, not_or]
      exact ⟨by decide, zipWith_not_feed fun f hf n hn => padLeft_not_feed (natDigits_not_feed _)⟩
    · exact hrow "min: " (by decide) _
    · exact hrow "med: " (by decide) _
    · exact hrow "max: " (by decide) _
    · exact hrow "avg: " (by decide) _
    · exact hrow "std: " (by decide) _
    · simp [List.mem_replicate]
  · obtain ⟨h1, h2⟩ := row_cells (g := fun f n => padLeft (Fmt.columns f) n) (label := "     ".toList) (by rfl) (hf.trans hn.symm) (fun j f n h1 h2 => by
      rw [padLeft_length]
      have := (hnames j f n h1 h2).2
      omega)
    refine ⟨h1, fun j name hj => ?_⟩
    have hlt : j < formats.length := by
      obtain ⟨h, -⟩ := List.getElem?_eq_some_iff.mp hj
      omega
    rw [h2 j _ name (List.getElem?_eq_getElem hlt) hj]
    exact ⟨_, rfl⟩
  · have hlen : ∀ (j : ℕ) (f : Fmt) (s : ColumnStats), formats[j]? = some f → cols[j]? = some s → (padLeft f.columns (natDigits s.cnt)).length = f.columns := by
      intro j f s h1 h2
      rw [padLeft_length]
      have := (natDigits_length_le (n := s.cnt) (hcols j f s h1 h2)).mpr (hfit j f s h1 h2).cnt
      omega
    obtain ⟨h1, h2⟩ := row_cells (g := fun f (c : ColumnStats) => padLeft (Fmt.columns f) (natDigits c.cnt)) (label := "cnt: ".toList) (by rfl) hf hlen
    refine ⟨by rfl, h1, fun j f s hj hs => ?_⟩
    rw [h2 j f s hj hs]
    exact ⟨hlen j f s hj hs, shows_nat_pad _ _⟩
  · exact row_shows (by rfl) hf _ fun j f s h1 h2 => (hfit j f s h1 h2).min
  · exact row_shows (by rfl) hf _ fun j f s h1 h2 => (hfit j f s h1 h2).med
  · exact row_shows (by rfl) hf _ fun j f s h1 h2 => (hfit j f s h1 h2).max
  · exact row_shows (by rfl) hf _ fun j f s h1 h2 => (hfit j f s h1 h2).avg
  · exact row_shows (by rfl) hf _ fun j f s h1 h2 => (hfit j f s h1 h2).std

theorem statsLoop_length {values : List (List (Option ℝ))} {n j : ℕ} {ss : List ColumnStats} (h : statsLoop values n j = .ok ss) : ss.length = n := by
  induction n generalizing j ss with
  | zero => simp [statsLoop] at h; subst h; rfl
  | succ n ih =>
    unfold statsLoop at h
    split at h
    · cases h
    · split at h
      · cases h
      · split at h
        · cases h
        · rename_i hs
          obtain rfl := Except.ok.inj h
          simp [ih hs]

/-! ## The log -/

section
variable {pr : Printer} {stochastic : Bool}

theorem infix_append (y : List (List Char)) {x m : List (List Char)} (h : ∃ pre post, x = pre ++ m ++ post) : ∃ pre post, y ++ x = pre ++ m ++ post := by
  obtain ⟨pre, post, rfl⟩ := h
  exact ⟨y ++ pre, post, by simp only [List.append_assoc]⟩

theorem logText_realization {es : List Effect} {i k : ℕ} {l : RealizationLog} (h : (realizations es)[k]? = some l) :
    ∃ pre post, logText pr stochastic i es = pre ++ (if stochastic then stochasticText (i + k) l else deterministicText l) ++ post := by
  induction es generalizing i k with
  | nil => simp [realizations] at h
  | cons e es ih =>
    cases e with
    | log m =>
      cases m with
      | realization m =>
        have hr : realizations (.log (.realization m) :: es) = m :: realizations es := rfl
        rw [hr] at h
        cases k with
        | zero =>
          simp at h
          subst h
          exact ⟨[], logText pr stochastic (i + 1) es, rfl⟩
        | succ k =>
          rw [List.getElem?_cons_succ] at h
          obtain ⟨pre, post, he⟩ := ih (i := i + 1) h
          refine ⟨LogLine.messages pr stochastic i (.realization m) ++ pre, post, ?_⟩
          show LogLine.messages pr stochastic i (.realization m) ++ logText pr stochastic (i + 1) es = _
          rw [he, show i + 1 + k = i + (k + 1) by omega]
          simp
      | _ =>
        exact infix_append _ (ih (i := i) h)
    | _ =>
      obtain ⟨pre, post, he⟩ := ih (i := i) h
      exact ⟨pre, post, he⟩

theorem logText_sublist {β : Type} {sel : Effect → Option β} {msg : β → List Char}
    (h : ∀ e b, sel e = some b → ∃ l, e = .log l ∧ ∀ i, msg b ∈ l.messages pr stochastic i) (i : ℕ) (es : List Effect) :
    ((es.filterMap sel).map msg).Sublist (logText pr stochastic i es) := by
  induction es generalizing i with
  | nil => simp [logText]
  | cons e es ih =>
    rw [List.filterMap_cons]
    cases hs : sel e with
    | none =>
      simp only
      cases e with
      | log l =>
        rw [logText]
        exact (ih _).trans (List.sublist_append_right _ _)
      | _ => exact ih _
    | some b =>
      obtain ⟨l, rfl, hm⟩ := h e b hs
      rw [logText, List.map_cons]
      exact List.Sublist.append (l₁ := [msg b]) (List.singleton_sublist.mpr (hm i)) (ih _)

end

theorem showsSix (c : Fin 6 → ℝ) : ShowsSix (coefText c) c := by
  refine ⟨fun i => sci true 4 (c i), ?_, fun i => shows_sci 4 true (c i)⟩
  unfold coefText commaSep
  rw [List.ofFn_eq_map]

theorem showsWarning (t : XR) : ShowsWarning (warningText t) t := by
  cases t with
  | fin x => exact ⟨fixed 2 x, rfl, by have := shows_fixed 2 x; norm_num at this ⊢; exact this⟩
  | pinf => exact ⟨"inf".toList, by rfl, rfl⟩
  | ninf => exact ⟨"-inf".toList, by rfl, rfl⟩
  | nan => exact ⟨"nan".toList, by rfl, rfl⟩

theorem showsWarnings (l : RealizationLog) : List.Forall₂ ShowsWarning (warningTexts l) (l.traces.filterMap fun t => t.warning) := by
  unfold warningTexts
  have : (l.traces.filterMap fun t => t.warning.map warningText) = (l.traces.filterMap fun t => t.warning).map warningText := by
    rw [List.map_filterMap]
  rw [this, List.forall₂_map_left_iff]
  exact List.forall₂_same.mpr fun t _ => showsWarning t

theorem shows_two (x : ℝ) : Shows (fixed 2 x) (1 / 200) x := by
  have := shows_fixed 2 x
  norm_num at this ⊢
  exact this

end Oneka
