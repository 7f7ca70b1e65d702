import Verif.Lemmas.Text
import Verif.Lemmas.Returned
import Verif.Lemmas.PropsReport
import Verif.Props.Report

/-!
# C99, C100: what the summary table and the log show
-/

namespace Oneka

/-! ## C99 -/

/-- C99: the text of `summary_statistics` is a table with eleven equally wide lines, in which the numbers in the columns below each name are the statistics of that column, to the
precision of its format; provided that the numbers, the names and the title fit, and the names and the title have no line feeds. (The statistics: C52.) Example: Props/TextExamples.lean. -/
theorem C99_table (values : List (List (Option ℝ))) (names : List (List Char)) (formats : List Fmt) (title : List Char) (cols : List ColumnStats)
    (hs : summaryStatistics values = .ok cols) (hf : formats.length = cols.length) (hn : names.length = cols.length)
    (ht : '\n' ∉ title ∧ title.length ≤ totalColumns formats)
    (hnames : ∀ (j : ℕ) (f : Fmt) (name : List Char), formats[j]? = some f → names[j]? = some name → '\n' ∉ name ∧ name.length ≤ f.columns)
    (hfit : ∀ (j : ℕ) (f : Fmt) (s : ColumnStats), formats[j]? = some f → cols[j]? = some s → f.HoldsColumn s) :
    ∃ text, summaryText values names formats title = .ok text ∧ TableShows title names formats cols text := by
  refine ⟨_, ?_, table_shows hf hn ht hnames hfit⟩
  unfold summaryText
  have hs' := hs
  unfold summaryStatistics at hs'
  split at hs'
  · cases hs'
  · rename_i v hv
    have hl := statsLoop_length hs'
    rw [hv]
    simp only
    rw [if_neg (by omega), hs]
    simp only
    rw [if_neg (by omega), List.take_of_length_le (by omega), List.take_of_length_le (by omega)]

/-- C99: with fewer formats or fewer names than columns, and for an empty table, there is no text: IndexError. Names and formats beyond the columns are ignored.
Example: Props/TextExamples.lean. -/
theorem C99_lengths (values : List (List (Option ℝ))) (names : List (List Char)) (formats : List Fmt) (title : List Char) :
    summaryText [] names formats title = .error .indexError ∧
    (∀ v vs, values = v :: vs → formats.length < v.length → summaryText values names formats title = .error .indexError) ∧
    (∀ v vs cols, values = v :: vs → summaryStatistics values = .ok cols → names.length < v.length → summaryText values names formats title = .error .indexError) ∧
    (∀ v vs names' formats', values = v :: vs → v.length ≤ names.length → v.length ≤ formats.length →
      summaryText values (names ++ names') (formats ++ formats') title = summaryText values names formats title) := by
  refine ⟨rfl, ?_, ?_, ?_⟩
  · rintro v vs rfl h
    unfold summaryText
    simp only [List.getElem?_cons_zero]
    rw [if_pos h]
  · rintro v vs cols rfl hs h
    unfold summaryText
    simp only [List.getElem?_cons_zero]
    rw [hs]
    simp only
    rw [if_pos h]
    simp
  · rintro v vs names' formats' rfl h1 h2
    unfold summaryText
    simp only [List.getElem?_cons_zero]
    rw [if_neg (by simp; omega), if_neg (by omega)]
    split
    · rfl
    · rw [if_neg (by simp; omega), if_neg (by omega), List.take_append_of_le_length h1, List.take_append_of_le_length h2]

/-- C99: the condition that the numbers fit is needed: a smallest value of `10^(w-k-1)` or more makes its row longer than the others (here for a table with one column of format `w.kf`).
Example: Props/TextExamples.lean. -/
theorem C99_wide_numbers (x : ℝ) (w k : ℕ) (hk : 1 ≤ k) (hw : k + 3 ≤ w) (hx : 10 ^ (w - k - 1) ≤ |x|) (name : List Char) (hn : '\n' ∉ name) (text : List Char)
    (h : summaryText [[some x]] [name] [.fixed w k] [] = .ok text) :
    ∃ rule row, (text.splitOn '\n')[1]? = some rule ∧ (text.splitOn '\n')[5]? = some row ∧ rule.length < row.length := by
  have hs : ∃ c, summaryStatistics [[some x]] = .ok [c] ∧ c.min = x := by
    refine ⟨⟨1, x, npMedian [x], x, npMean [x], npStd [x]⟩, ?_, rfl⟩
    simp [summaryStatistics, statsLoop, getColumn, columnStats, pyMin, pyMax]
  obtain ⟨c, hs, hc⟩ := hs
  unfold summaryText at h
  simp only [List.getElem?_cons_zero, hs] at h
  simp at h
  subst h
  have hwidth : Fmt.width (.fixed w k) = w := Fmt.holds_width (f := .fixed w k) (x := 0) (by
    refine ⟨hk, hw, ?_⟩
    have : (1:ℝ) ≤ 10 ^ (w - k - 2) := one_le_pow₀ (by norm_num)
    simpa using this)
  have hfeed : ∀ l ∈ tableLines [] [name] [.fixed w k] [c], '\n' ∉ l := by
    intro l hl
    unfold tableLines at hl
    simp only [List.mem_cons, List.not_mem_nil, or_false] at hl
    rcases hl with rfl | rfl | rfl | rfl | rfl | rfl | rfl | rfl | rfl | rfl | rfl
    · unfold centred
      simp [List.mem_replicate]
    · simp [List.mem_replicate]
    · rw [List.mem_append, not_or]
      exact ⟨by decide, zipWith_not_feed fun f hf n hm => padLeft_not_feed (by simp at hm; subst hm; exact hn)⟩
    · simp [List.mem_replicate]
    · rw [List.mem_append, not_or]
      exact ⟨by decide, zipWith_not_feed fun f hf n hn => padLeft_not_feed (natDigits_not_feed _)⟩
    all_goals first
      | (rw [List.mem_append, not_or]; exact ⟨by decide, zipWith_not_feed fun f _ c _ => Fmt.not_feed f _⟩)
      | simp [List.mem_replicate]
  rw [splitOn_withFeeds hfeed]
  refine ⟨_, _, rfl, rfl, ?_⟩
  have := fixed_length_ge (k := k) (m := w - k - 1) (x := x) (by omega) (by omega) hx
  have hl : ((Fmt.fixed w k).apply c.min).length = max w (fixed k x).length := by rw [hc]; exact padLeft_length w _
  simp only [List.map_cons, List.map_nil, List.sum_cons, List.sum_nil, hwidth, List.zipWith_cons_cons, List.zipWith_nil_right, List.flatten_cons, List.flatten_nil,
    List.length_append, List.length_replicate, hl]
  simp
  omega

/-- All numbers of the observations are below 10^8 - 1. -/
def ModestObs (obs : List Obs) : Prop := obs.length < 10 ^ 12 ∧ ∀ o ∈ obs, |o.x| ≤ 10 ^ 8 - 1 ∧ |o.y| ≤ 10 ^ 8 - 1 ∧ |o.z| ≤ 10 ^ 8 - 1 ∧ |o.std| ≤ 10 ^ 8 - 1

/-- C99: a call that returns has written one table of the retained observations to the log; if the numbers of these are below 10^8 - 1, it shows, in four columns of twelve characters each, the
statistics of the eastings, northings, heads and standard deviations of the retained observations, to two decimals. Example: Props/TextExamples.lean. -/
theorem C99_call (pr : Printer) (a : PyArgs) (n : Inputs) (env : CallEnv) (v : PyVal) (hd : a.Denotes n) (h : (oneka a env).ending = .returns v) :
    ∃ out cols text, filterObs n.run.obs (n.run.wells.map fun w => (w.xw, w.yw)) n.buffer = .ok out ∧ SummaryOf out cols ∧
      [text].Sublist (callText pr a n env) ∧ summaries (oneka a env).events = [cols] ∧
      (ModestObs out → TableShows "Retained Observations".toList ["Easting".toList, "Northing".toList, "Head".toList, "Stdev".toList]
        (List.replicate 4 (.fixed 12 2)) cols text) := by
  obtain ⟨out, cols, hf, h6, hc, hsum⟩ : ∃ out cols, filterObs n.run.obs (n.run.wells.map fun w => (w.xw, w.yw)) n.buffer = .ok out ∧ 6 < out.length ∧
      summaryStatistics (obsTable out) = .ok cols ∧ summaries (oneka a env).events = [cols] := by
    rcases returned_cases hd h with ⟨-, obs, cols, r, f, pl, im, lines, H⟩ | ⟨-, obs, cols, r, f, pl, H⟩
    · exact ⟨obs, cols, H.filtered, H.enough, H.summary, H.summaries_eq⟩
    · exact ⟨obs, cols, H.filtered, H.enough, H.summary, H.summaries_eq⟩
  have hS := summary_of (List.length_pos_iff.mp (by omega)) hc
  refine ⟨out, cols, withFeeds (tableLines obsTitle obsNames obsFormats cols), hf, hS, ?_, hsum, ?_⟩
  · have := logText_sublist (pr := pr) (stochastic := decide (1 < n.nrealizations)) (sel := fun | .log (.summary c) => some c | _ => none)
      (msg := fun c => withFeeds (tableLines obsTitle obsNames obsFormats c)) (by
        intro e b hb
        cases e with
        | log l =>
          cases l with
          | summary c => simp at hb; subst hb; exact ⟨_, rfl, fun i => by simp [LogLine.messages]⟩
          | _ => simp at hb
        | _ => simp at hb) 0 (oneka a env).events
    change ((summaries (oneka a env).events).map _).Sublist _ at this
    rw [hsum] at this
    exact this
  · rintro ⟨hlen, hm⟩
    have hcol : ∀ (j : ℕ) (s : ColumnStats), cols[j]? = some s → ∀ x ∈ obsColumn out j, |x| ≤ 10 ^ 8 - 1 := by
      intro j s hs x hx
      match j, hx with
      | 0, hx => obtain ⟨o, ho, rfl⟩ := List.mem_map.mp hx; exact (hm o ho).1
      | 1, hx => obtain ⟨o, ho, rfl⟩ := List.mem_map.mp hx; exact (hm o ho).2.1
      | 2, hx => obtain ⟨o, ho, rfl⟩ := List.mem_map.mp hx; exact (hm o ho).2.2.1
      | (j + 3), hx => obtain ⟨o, ho, rfl⟩ := List.mem_map.mp hx; exact (hm o ho).2.2.2
    refine table_shows (formats := List.replicate 4 (.fixed 12 2)) (by simp [hS.1]) (by simp [hS.1]) (by decide) ?_ ?_
    · intro j f name hj hnm
      match j, hj, hnm with
      | 0, hj, hnm => simp at hj hnm; subst hj hnm; decide
      | 1, hj, hnm => simp at hj hnm; subst hj hnm; decide
      | 2, hj, hnm => simp at hj hnm; subst hj hnm; decide
      | 3, hj, hnm => simp at hj hnm; subst hj hnm; decide
      | (j + 4), hj, hnm => simp at hnm
    · intro j f s hj hs
      obtain rfl : f = .fixed 12 2 := List.eq_of_mem_replicate (List.mem_of_getElem? hj)
      have hok := hS.2 j s hs
      have hmin := abs_le.mp (hcol j s hs _ hok.min_mem)
      have hmax := abs_le.mp (hcol j s hs _ hok.max_mem)
      have hh : ∀ y : ℝ, s.min ≤ y → y ≤ s.max → (Fmt.fixed 12 2).Holds y := by
        intro y h1 h2
        refine ⟨by norm_num, by norm_num, abs_le.mpr ⟨?_, ?_⟩⟩
        · show -((10:ℝ) ^ 8 - 1) ≤ y
          linarith [hmin.1]
        · show y ≤ (10:ℝ) ^ 8 - 1
          linarith [hmax.2]
      have hmm := le_trans hok.med_range.1 hok.med_range.2
      refine ⟨?_, hh _ le_rfl hmm, hh _ hok.med_range.1 hok.med_range.2, hh _ hmm le_rfl, hh _ hok.avg_range.1 hok.avg_range.2, ⟨by norm_num, by norm_num, abs_le.mpr ⟨?_, ?_⟩⟩⟩
      · rw [hok.cnt]
        have : (obsColumn out j).length = out.length := by
          match j with
          | 0 => exact List.length_map _
          | 1 => exact List.length_map _
          | 2 => exact List.length_map _
          | (j + 3) => exact List.length_map _
        rw [this]
        exact hlen
      · show -((10:ℝ) ^ 8 - 1) ≤ s.std
        have := hok.std_range.1
        norm_num
        linarith
      · show s.std ≤ (10:ℝ) ^ 8 - 1
        linarith [hok.std_range.2, hmin.1, hmax.2]

/-! ## C100 -/

/-- C100: for every realization that a stochastic call has logged, returning or not, the log has a message with its number, the base, conductivity, porosity and thickness of its model to two decimals and
the recharge to five digits, a message with the six coefficients of the fit, one with those of the realization, and a message for each of its traces that stopped early, in the order in which the traces were
made. Example: Props/TextExamples.lean. -/
theorem C100_realization (pr : Printer) (a : PyArgs) (n : Inputs) (env : CallEnv) (h1 : 1 < n.nrealizations) (k : ℕ) (l : RealizationLog)
    (h : (realizations (oneka a env).events)[k]? = some l) :
    ∃ num b c p t r ev rng : List Char, ∃ ws : List (List Char),
      Contains (callText pr a n env) (["Realization #".toList ++ num ++ ": ".toList ++ b ++ ", ".toList ++ c ++ ", ".toList ++ p ++ ", ".toList ++ t ++ ", ".toList ++ r,
        "    coef ev:  ".toList ++ ev, "    coef rng: ".toList ++ rng] ++ ws) ∧
      readNat num = some k ∧ Shows b (1 / 200) l.model.base ∧ Shows c (1 / 200) l.model.conductivity ∧ Shows p (1 / 200) l.model.porosity ∧
      Shows t (1 / 200) l.model.thickness ∧ Shows r (|l.recharge| / 2 / 10 ^ 4) l.recharge ∧ ShowsSix ev l.ev ∧ ShowsSix rng l.model.coef ∧
      List.Forall₂ ShowsWarning ws (l.traces.filterMap fun t => t.warning) := by
  obtain ⟨pre, post, he⟩ := logText_realization (pr := pr) (stochastic := decide (1 < n.nrealizations)) (i := 0) h
  rw [if_pos (decide_eq_true h1), Nat.zero_add] at he
  refine ⟨natDigits k, _, _, _, _, _, _, _, _, ⟨pre, post, ?_⟩, readNat_natDigits k, shows_two _, shows_two _, shows_two _, shows_two _, shows_sci 4 false _, showsSix _, showsSix _,
    showsWarnings l⟩
  unfold callText
  rw [he]
  simp [stochasticText, commaSep, List.intercalate, List.append_assoc]

/-- C100: the same for the deterministic call, with one message per parameter and coefficient. Example: Props/TextExamples.lean. -/
theorem C100_deterministic (pr : Printer) (a : PyArgs) (n : Inputs) (env : CallEnv) (h1 : n.nrealizations ≤ 1) (l : RealizationLog) (h : l ∈ realizations (oneka a env).events) :
    ∃ b c p r : List Char, ∃ coef : Fin 6 → List Char, ∃ ws : List (List Char),
      Contains (callText pr a n env) (["base         = ".toList ++ b, "conductivity = ".toList ++ c, "porosity     = ".toList ++ p, "recharge     = ".toList ++ r,
        "\n".toList, "Conic Discharge Potential Coefficients: ".toList, "A = ".toList ++ coef 0, "B = ".toList ++ coef 1, "C = ".toList ++ coef 2, "D = ".toList ++ coef 3,
        "E = ".toList ++ coef 4, "F = ".toList ++ coef 5] ++ ws) ∧
      Shows b (1 / 200) l.model.base ∧ Shows c (1 / 200) l.model.conductivity ∧ Shows p (1 / 200) l.model.porosity ∧ Shows r (|l.recharge| / 2 / 10 ^ 4) l.recharge ∧
      (∀ i, Shows (coef i) (|l.model.coef i| / 2 / 10 ^ 4) (l.model.coef i)) ∧ List.Forall₂ ShowsWarning ws (l.traces.filterMap fun t => t.warning) := by
  obtain ⟨k, hk, rfl⟩ := List.getElem_of_mem h
  obtain ⟨pre, post, he⟩ := logText_realization (pr := pr) (stochastic := decide (1 < n.nrealizations)) (i := 0) (List.getElem?_eq_getElem hk)
  rw [if_neg (by simp; omega)] at he
  refine ⟨_, _, _, _, fun i => sci true 4 ((realizations (oneka a env).events)[k].model.coef i), _,
    ⟨pre ++ ["\n".toList, "Deterministic Capture Zone Parameters: ".toList], post, ?_⟩, shows_two _, shows_two _, shows_two _, shows_sci 4 true _, fun i => shows_sci 4 true _,
    showsWarnings _⟩
  unfold callText
  rw [he]
  simp [deterministicText, List.append_assoc]

/-- C100: the decile table of a call is in the log, line by line and in order: the probability to three decimals, the area to the nearest square metre and its acres to two decimals.
(Which areas: C69.) Example: Props/TextExamples.lean. -/
theorem C100_deciles (pr : Printer) (a : PyArgs) (n : Inputs) (env : CallEnv) :
    ∃ messages, messages.Sublist (callText pr a n env) ∧
      List.Forall₂ (fun m (line : ℝ × ℝ) => ∃ p s c, m = p ++ " ".toList ++ s ++ " ".toList ++ c ∧ p.length ≥ 8 ∧ s.length ≥ 16 ∧ c.length ≥ 16 ∧
        Shows p (1 / 2000) line.1 ∧ Shows s (1 / 2) line.2 ∧ Shows c (1 / 200) (line.2 / 4046.86)) messages (decileLines (oneka a env).events) := by
  refine ⟨(decileLines (oneka a env).events).map fun l => decileText l.1 l.2, ?_, ?_⟩
  · refine logText_sublist (msg := fun l : ℝ × ℝ => decileText l.1 l.2) ?_ 0 (oneka a env).events
    intro e b hb
    cases e with
    | log l =>
      cases l with
      | decile p A => simp at hb; subst hb; exact ⟨_, rfl, fun i => by simp [LogLine.messages]⟩
      | _ => simp at hb
    | _ => simp at hb
  · rw [List.forall₂_map_left_iff]
    refine List.forall₂_same.mpr fun l _ => ⟨_, _, _, rfl, ?_, ?_, ?_, ?_, ?_, ?_⟩
    · rw [padLeft_length]; omega
    · rw [padLeft_length]; omega
    · rw [padLeft_length]; omega
    · have := shows_fixed_pad 8 3 l.1
      norm_num at this ⊢; exact this
    · have := shows_comma_pad 16 0 l.2
      norm_num at this ⊢; exact this
    · have := shows_comma_pad 16 2 (l.2 / acre)
      unfold acre at this ⊢
      norm_num at this ⊢; exact this

/-- C100: the area of a deterministic capture zone is in the log, to the nearest square metre, and its acres to two decimals. (Which area: C69.) Example: Props/TextExamples.lean. -/
theorem C100_area (pr : Printer) (a : PyArgs) (n : Inputs) (env : CallEnv) (v : PyVal) (hd : a.Denotes n) (h1 : n.nrealizations ≤ 1) (h : (oneka a env).ending = .returns v) :
    ∃ A s c, areas (oneka a env).events = [A] ∧ [s ++ " [m^2]".toList].Sublist (callText pr a n env) ∧ [c ++ " [acres]".toList].Sublist (callText pr a n env) ∧
      Shows s (1 / 2) A ∧ Shows c (1 / 200) (A / 4046.86) := by
  obtain ⟨A, hA, hB⟩ : ∃ A, areas (oneka a env).events = [A] ∧ acreages (oneka a env).events = [A / acre] := by
    rcases returned_cases hd h with ⟨h2, -⟩ | ⟨-, obs, cols, r, f, pl, H⟩
    · omega
    · exact ⟨_, H.areas_eq, H.acreages_eq⟩
  refine ⟨A, fixed 0 A, fixed 2 (A / acre), hA, ?_, ?_, ?_, ?_⟩
  · have := logText_sublist (pr := pr) (stochastic := decide (1 < n.nrealizations)) (sel := fun | .log (.area a) => some a | _ => none)
      (msg := fun a => fixed 0 a ++ " [m^2]".toList) (by
        intro e b hb
        cases e with
        | log l =>
          cases l with
          | area c => simp at hb; subst hb; exact ⟨_, rfl, fun i => by simp [LogLine.messages]⟩
          | _ => simp at hb
        | _ => simp at hb) 0 (oneka a env).events
    change ((areas (oneka a env).events).map _).Sublist _ at this
    rw [hA] at this
    exact this
  · have := logText_sublist (pr := pr) (stochastic := decide (1 < n.nrealizations)) (sel := fun | .log (.acres a) => some a | _ => none)
      (msg := fun a => fixed 2 a ++ " [acres]".toList) (by
        intro e b hb
        cases e with
        | log l =>
          cases l with
          | acres c => simp at hb; subst hb; exact ⟨_, rfl, fun i => by simp [LogLine.messages]⟩
          | _ => simp at hb
        | _ => simp at hb) 0 (oneka a env).events
    change ((acreages (oneka a env).events).map _).Sublist _ at this
    rw [hB] at this
    exact this
  · have := shows_fixed 0 A
    norm_num at this ⊢; exact this
  · have := shows_two (A / acre)
    unfold acre at this
    exact this

/-- C100: the account of the observations (C98) is in the log, entry by entry and in order, with the numbers of the active observations (at least three digits) and how many there are.
Example: Props/FilterLog.lean. -/
theorem C100_observations (pr : Printer) (a : PyArgs) (n : Inputs) (env : CallEnv) :
    ∃ messages, messages.Sublist (callText pr a n env) ∧ List.Forall₂ (ShowsFilterLine pr) messages (filterLines (oneka a env).events) := by
  refine ⟨(filterLines (oneka a env).events).map fun l => l.message pr, ?_, ?_⟩
  · refine logText_sublist (msg := fun l : FilterLine => l.message pr) ?_ 0 (oneka a env).events
    intro e b hb
    cases e with
    | log l =>
      cases l with
      | filter l => simp at hb; subst hb; exact ⟨_, rfl, fun i => by simp [LogLine.messages]⟩
      | _ => simp at hb
    | _ => simp at hb
  · rw [List.forall₂_map_left_iff]
    refine List.forall₂_same.mpr fun l _ => ?_
    cases l with
    | removed o w => rfl
    | duplicate o => rfl
    | averaged o => rfl
    | count k => exact ⟨_, rfl, readNat_natDigits k⟩
    | active i o =>
      refine ⟨_, rfl, ?_, ?_⟩
      · rw [readNat_padded _ (by omega), Nat.mod_eq_of_lt]
        exact lt_of_lt_of_le (lt_pow_natDigits i) (Nat.pow_le_pow_right (by norm_num) (le_max_right _ _))
      · rw [padded_length]; omega
    | text t => rfl

/-- The message `label = text`, with the label in 14 columns. -/
def entry (label : String) (text : List Char) : List Char := label.toList ++ List.replicate (14 - label.length) ' ' ++ "= ".toList ++ text

/-- C100: the log of an accepted call shows its numbers: target and number of paths exactly, the others to two decimals. Example: Props/TextExamples.lean. -/
theorem C100_arguments (pr : Printer) (a : PyArgs) (n : Inputs) (env : CallEnv) (ha : Acceptable a) (hd : a.Denotes n) :
    (∀ p ∈ [("target", n.run.target), ("npaths", n.run.npaths)], ∃ q, entry p.1 q ∈ callText pr a n env ∧ readInt q = some p.2) ∧
    (∀ p ∈ [("base", n.run.base), ("buffer", n.buffer), ("spacing", n.run.spacing), ("umbra", n.run.umbra)],
      ∃ q, entry p.1 q ∈ callText pr a n env ∧ Shows q (1 / 200) p.2) ∧
    (∀ p ∈ [("duration", n.run.duration), ("tol", n.run.tol), ("maxstep", n.run.maxstep)], ∀ x, p.2 = .fin x →
      ∃ q, entry p.1 q ∈ callText pr a n env ∧ Shows q (1 / 200) x) ∧
    ∃ q, (readInt q = some n.nrealizations) ∧
      "nrealizations = ".toList ++ q ++ (if 1 < n.nrealizations then " STOCHASTIC" else " DETERMINISTIC").toList ∈ callText pr a n env := by
  obtain ⟨ws, os, hw, ho, hlog⟩ := C71_once a n env ha hd
  have key : ∀ label v, (label, v) ∈ logged (oneka a env).events → valueText pr label v ∈ callText pr a n env := by
    intro label v hm
    have := logText_sublist (pr := pr) (stochastic := decide (1 < n.nrealizations)) (sel := fun | .log (.value s v) => some (s, v) | _ => none)
      (msg := fun p : String × PyVal => valueText pr p.1 p.2) (by
        intro e b hb
        cases e with
        | log l =>
          cases l with
          | value s v => simp at hb; subst hb; exact ⟨_, rfl, fun i => by simp [LogLine.messages]⟩
          | _ => simp at hb
        | _ => simp at hb) 0 (oneka a env).events
    exact this.subset (List.mem_map.mpr ⟨(label, v), hm, rfl⟩)
  rw [hlog] at key
  have hint : ∀ (v : PyVal) (k : ℤ), v.IsInteger k → readInt (intVal v) = some k := by
    intro v k hv
    have : intVal v = intDigits k := by
      rcases hv with rfl | ⟨b, rfl, rfl⟩
      · rfl
      · cases b <;> rfl
    rw [this]
    exact readInt_intDigits k
  have hnum : ∀ (v : PyVal) (x : ℝ), v.num = some (.fin x) → Shows (fixedVal v) (1 / 200) x := by
    intro v x hv
    unfold fixedVal
    rw [hv]
    exact shows_two x
  refine ⟨?_, ?_, ?_, ?_⟩
  · intro p hp
    simp only [List.mem_cons, List.not_mem_nil, or_false] at hp
    rcases hp with rfl | rfl
    · exact ⟨intVal a.target, by have := key "target" a.target (by simp [PyArgs.report]); exact this, hint _ _ hd.target⟩
    · exact ⟨intVal a.npaths, by have := key "npaths" a.npaths (by simp [PyArgs.report]); exact this, hint _ _ hd.npaths⟩
  · intro p hp
    simp only [List.mem_cons, List.not_mem_nil, or_false] at hp
    rcases hp with rfl | rfl | rfl | rfl
    · exact ⟨fixedVal a.base, by have := key "base" a.base (by simp [PyArgs.report]); exact this, hnum _ _ hd.base⟩
    · exact ⟨fixedVal a.buffer, by have := key "buffer" a.buffer (by simp [PyArgs.report]); exact this, hnum _ _ hd.buffer⟩
    · exact ⟨fixedVal a.spacing, by have := key "spacing" a.spacing (by simp [PyArgs.report]); exact this, hnum _ _ hd.spacing⟩
    · exact ⟨fixedVal a.umbra, by have := key "umbra" a.umbra (by simp [PyArgs.report]); exact this, hnum _ _ hd.umbra⟩
  · intro p hp x hx
    simp only [List.mem_cons, List.not_mem_nil, or_false] at hp
    rcases hp with rfl | rfl | rfl
    · exact ⟨fixedVal a.duration, by have := key "duration" a.duration (by simp [PyArgs.report]); exact this, hnum _ _ (by rw [hd.duration]; exact congrArg some hx)⟩
    · exact ⟨fixedVal a.tol, by have := key "tol" a.tol (by simp [PyArgs.report]); exact this, hnum _ _ (by rw [hd.tol]; exact congrArg some hx)⟩
    · exact ⟨fixedVal a.maxstep, by have := key "maxstep" a.maxstep (by simp [PyArgs.report]); exact this, hnum _ _ (by rw [hd.maxstep]; exact congrArg some hx)⟩
  · refine ⟨intVal a.nrealizations, hint _ _ hd.nrealizations, ?_⟩
    by_cases h1 : 1 < n.nrealizations
    · rw [if_pos h1]
      exact key "nrealizations STOCHASTIC" a.nrealizations (by simp [PyArgs.report, h1])
    · rw [if_neg h1]
      exact key "nrealizations DETERMINISTIC" a.nrealizations (by simp [PyArgs.report, h1])

/-- C100: two decimals are not enough to tell small numbers apart: all tolerances below 0.005 are logged as `0.00`. Example: a tolerance of a millimetre. -/
theorem C100_small_numbers (pr : Printer) (a : PyArgs) (n : Inputs) (env : CallEnv) (ha : Acceptable a) (hd : a.Denotes n) (x : ℝ) (h0 : 0 ≤ x) (h1 : x < 1 / 200)
    (hx : n.run.tol = .fin x) : entry "tol" "0.00".toList ∈ callText pr a n env := by
  obtain ⟨ws, os, hw, ho, hlog⟩ := C71_once a n env ha hd
  have := logText_sublist (pr := pr) (stochastic := decide (1 < n.nrealizations)) (sel := fun | .log (.value s v) => some (s, v) | _ => none)
    (msg := fun p : String × PyVal => valueText pr p.1 p.2) (by
      intro e b hb
      cases e with
      | log l =>
        cases l with
        | value s v => simp at hb; subst hb; exact ⟨_, rfl, fun i => by simp [LogLine.messages]⟩
        | _ => simp at hb
      | _ => simp at hb) 0 (oneka a env).events
  have hm := this.subset (List.mem_map.mpr ⟨("tol", a.tol), by
    show ("tol", a.tol) ∈ logged (oneka a env).events
    rw [hlog]
    simp [PyArgs.report], rfl⟩)
  have e : valueText pr "tol" a.tol = entry "tol" "0.00".toList := by
    show entry "tol" (fixedVal a.tol) = _
    unfold fixedVal
    rw [hd.tol, hx]
    show entry "tol" (fixed 2 x) = _
    congr 1
    unfold fixed signChars scaled
    rw [if_neg (not_lt.mpr h0)]
    have : roundEven (|x| * 10 ^ 2) = 0 := by
      have hn := abs_le.mp (roundEven_near (|x| * 10 ^ 2))
      rw [abs_of_nonneg h0] at hn ⊢
      have h2 : ((roundEven (x * 10 ^ 2) : ℤ) : ℝ) < ((1 : ℤ) : ℝ) := by
        have e2 : x * 10 ^ 2 < 1 / 2 := by norm_num; linarith
        have h5 := hn.2
        rw [Int.cast_one]
        generalize x * 10 ^ 2 = y at *
        linarith
      have h3 := Int.cast_lt.mp h2
      have h4 := roundEven_nonneg (y := x * 10 ^ 2) (by positivity)
      omega
    rw [this]
    decide
  rw [← e]
  exact hm

end Oneka
