import Verif.Props.Text
import Verif.Props.Examples

/-!
# Cases that meet the hypotheses of C99 and C100
-/

namespace Oneka

/-- C99: a table with a missing value, and formats of both kinds -/
example : ∃ cols, summaryStatistics [[some 1, none], [some (-3.5), some 2]] = .ok cols ∧ cols.length = 2 ∧
    (∀ (j : ℕ) (f : Fmt) (s : ColumnStats), [Fmt.fixed 8 2, .sci 12 3][j]? = some f → cols[j]? = some s → f.HoldsColumn s) ∧
    ∃ text, summaryText [[some 1, none], [some (-3.5), some 2]] ["head".toList, "stdev".toList] [.fixed 8 2, .sci 12 3] "This is a TITLE".toList = .ok text ∧
      TableShows "This is a TITLE".toList ["head".toList, "stdev".toList] [.fixed 8 2, .sci 12 3] cols text := by
  obtain ⟨cols, h1, h2, h3⟩ := C52_statistics [[some 1, none], [some (-3.5), some 2]] 2 (by simp) (by simp) (by
    intro j hj
    interval_cases j
    · exact ⟨[some 1, none], by simp, 1, rfl⟩
    · exact ⟨[some (-3.5), some 2], by simp, 2, rfl⟩)
  have hfit : ∀ (j : ℕ) (f : Fmt) (s : ColumnStats), [Fmt.fixed 8 2, .sci 12 3][j]? = some f → cols[j]? = some s → f.HoldsColumn s := by
    intro j f s hf hs
    have hok := h3 j s hs
    match j, hf, hok with
    | 0, hf, hok =>
      simp at hf
      subst hf
      simp at hok
      have hx' : ∀ v ∈ [1, -(3.5 : ℝ)], |v| ≤ 10 := by
        intro v hv
        simp at hv
        rcases hv with rfl | rfl <;> norm_num [abs_le]
      have hmin := abs_le.mp (hx' _ hok.min_mem)
      have hmax := abs_le.mp (hx' _ hok.max_mem)
      have hh : ∀ y : ℝ, |y| ≤ 10 → (Fmt.fixed 8 2).Holds y := fun y hy => ⟨by norm_num, by norm_num, le_trans hy (by norm_num)⟩
      refine ⟨by rw [hok.cnt]; norm_num [Fmt.columns], hh _ (abs_le.mpr hmin), hh _ (abs_le.mpr ⟨?_, ?_⟩), hh _ (abs_le.mpr hmax), hh _ (abs_le.mpr ⟨?_, ?_⟩), hh _ (abs_le.mpr ⟨?_, ?_⟩)⟩
      all_goals linarith [hok.med_range.1, hok.med_range.2, hok.avg_range.1, hok.avg_range.2, hok.std_range.1, hok.std_range.2]
    | 1, hf, hok =>
      simp at hf
      subst hf
      simp at hok
      have hmin : s.min = 2 := by simpa using hok.min_mem
      have hmax : s.max = 2 := by simpa using hok.max_mem
      have hmed : s.med = 2 := by linarith [hok.med_range.1, hok.med_range.2]
      have havg : s.avg = 2 := by linarith [hok.avg_range.1, hok.avg_range.2]
      have hstd : s.std = 0 := by linarith [hok.std_range.1, hok.std_range.2]
      have h2 : (Fmt.sci 12 3).Holds 2 := ⟨by norm_num, by norm_num, .inr (by norm_num [abs_of_pos])⟩
      exact ⟨by rw [hok.cnt]; norm_num [Fmt.columns], hmin ▸ h2, hmed ▸ h2, hmax ▸ h2, havg ▸ h2, hstd ▸ ⟨by norm_num, by norm_num, .inl rfl⟩⟩
    | (j + 2), hf, _ => simp at hf
  refine ⟨cols, h1, h2, hfit, C99_table _ _ _ _ cols h1 (by simp [h2]) (by simp [h2]) (by decide) ?_ hfit⟩
  intro j f name hf hn
  match j, hf, hn with
  | 0, hf, hn => simp at hf hn; subst hf hn; decide
  | 1, hf, hn => simp at hf hn; subst hf hn; decide
  | (j + 2), hf, _ => simp at hf

/-- C99: a number that is too wide for its format: a northing of five million in `8.2f` -/
example : (10:ℝ) ^ (8 - 2 - 1) ≤ |4972345.25| ∧ ∃ text, summaryText [[some 4972345.25]] ["Northing".toList] [.fixed 8 2] [] = .ok text := by
  constructor
  · norm_num
  · refine ⟨withFeeds (tableLines [] ["Northing".toList] [.fixed 8 2]
      [⟨1, 4972345.25, npMedian [4972345.25], 4972345.25, npMean [4972345.25], npStd [4972345.25]⟩]), ?_⟩
    simp [summaryText, summaryStatistics, statsLoop, getColumn, columnStats, pyMin, pyMax]

/-- C99: names and formats that are too few -/
example : summaryText [[some 1, some 2]] ["a".toList] [.fixed 8 2, .fixed 8 2] [] = .error .indexError ∧
    summaryText [[some 1, some 2]] ["a".toList, "b".toList] [.fixed 8 2] [] = .error .indexError := by
  constructor
  · simp [summaryText, summaryStatistics, statsLoop, getColumn, columnStats, pyMin, pyMax]
  · simp [summaryText]

/-- C99, C100: calls that return, and whose retained observations have modest numbers -/
example (r : ℤ) (N : ℕ) (t : DateTime) : (exampleCall r).Denotes (exampleInputs r) ∧ (oneka (exampleCall r) (exampleCallEnv N t)).ending = .returns .none ∧
    filterObs (exampleInputs r).run.obs ((exampleInputs r).run.wells.map fun w => (w.xw, w.yw)) (exampleInputs r).buffer = .ok sevenObs ∧ ModestObs sevenObs := by
  refine ⟨exampleCall_denotes _, example_returns _ N t, example_retained r, by simp [sevenObs, sixObs], ?_⟩
  intro o ho
  simp only [sevenObs, sixObs, List.mem_cons, List.not_mem_nil, or_false, List.cons_append, List.nil_append] at ho
  rcases ho with rfl | rfl | rfl | rfl | rfl | rfl | rfl <;> norm_num [abs_le]

/-- C100: the stochastic call of the examples has logged a hundred realizations -/
example (N : ℕ) (t : DateTime) : 1 < (exampleInputs 100).nrealizations ∧
    ∃ l, (realizations (oneka (exampleCall 100) (exampleCallEnv N t)).events)[99]? = some l := by
  classical
  refine ⟨by simp [exampleInputs], ?_⟩
  obtain ⟨d, f, k, w, h1, h2, h3, h4, h5, h6, h7⟩ := C74_archived (exampleCall 100) (exampleInputs 100) (exampleCallEnv N t) _
    (exampleCall_denotes _) (example_returns 100 N t) (fun _ => none)
  have hl : (realizations (oneka (exampleCall 100) (exampleCallEnv N t)).events).length = 100 := by
    simp only [exampleInputs] at h5
    omega
  exact ⟨_, List.getElem?_eq_getElem (by omega)⟩

/-- C100: the deterministic one has logged one -/
example (N : ℕ) (t : DateTime) : (exampleInputs 1).nrealizations ≤ 1 ∧ ∃ l, l ∈ realizations (oneka (exampleCall 1) (exampleCallEnv N t)).events := by
  classical
  refine ⟨by simp [exampleInputs], ?_⟩
  obtain ⟨d, f, k, w, h1, h2, h3, h4, h5, h6, h7⟩ := C74_archived (exampleCall 1) (exampleInputs 1) (exampleCallEnv N t) _
    (exampleCall_denotes _) (example_returns 1 N t) (fun _ => none)
  have hl : (realizations (oneka (exampleCall 1) (exampleCallEnv N t)).events).length = 1 := by
    simp only [exampleInputs] at h5
    omega
  exact List.exists_mem_of_length_pos (by omega)

/-- C100: the calls of the examples are acceptable -/
example (r : ℤ) : Acceptable (exampleCall r) := exampleCall_acceptable r

/-- C100: acceptable arguments with a tolerance of a millimetre -/
example (r : ℤ) : Acceptable { exampleCall r with tol := .float (.fin 0.001) } ∧
    ({ exampleCall r with tol := .float (.fin 0.001) } : PyArgs).Denotes { exampleInputs r with run := { (exampleInputs r).run with tol := .fin 0.001 } } := by
  have h := exampleCall_acceptable r
  have hd := exampleCall_denotes r
  refine ⟨⟨h.1, h.2, h.3, h.4, h.5, h.6, h.7, h.8, h.9, h.10, h.11, h.12, h.13, h.14, h.15, ⟨_, rfl, by dsimp only; rw [XR.fin_lt]; norm_num⟩, h.17⟩, ?_⟩
  exact ⟨hd.1, hd.2, hd.3, hd.4, hd.5, hd.6, hd.7, hd.8, hd.9, hd.10, hd.11, hd.12, hd.13, hd.14, hd.15, rfl, hd.17⟩

end Oneka
