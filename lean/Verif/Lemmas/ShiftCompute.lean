import Verif.Lemmas.ShiftRun

/-!
# Filtering, statistics, plots and the whole computation elsewhere
-/

namespace Oneka

variable {s : ℝ × ℝ}

/-- a pair of coordinates elsewhere -/
noncomputable def shiftR (s : ℝ × ℝ) (p : ℝ × ℝ) : ℝ × ℝ := (p.1 + s.1, p.2 + s.2)

theorem Obs.x_shift (o : Obs) : (o.shift s).x = o.x + s.1 := rfl
theorem Obs.y_shift (o : Obs) : (o.shift s).y = o.y + s.2 := rfl
theorem Obs.z_shift (o : Obs) : (o.shift s).z = o.z := rfl
theorem Obs.std_shift (o : Obs) : (o.shift s).std = o.std := rfl

theorem awayFromWells_shift (b : ℝ) (o : Obs) (ws : List (ℝ × ℝ)) : awayFromWells b (o.shift s) (ws.map (shiftR s)) = awayFromWells b o ws := by
  induction ws with
  | nil => rfl
  | cons w ws ih => simp only [List.map_cons, awayFromWells, ih, Obs.x_shift, Obs.y_shift, shiftR, add_sub_add_right_eq_sub]

theorem nearWell_shift (b : ℝ) (o : Obs) (ws : List (ℝ × ℝ)) : nearWell b (o.shift s) (ws.map (shiftR s)) = (nearWell b o ws).map (shiftR s) := by
  induction ws with
  | nil => rfl
  | cons w ws ih =>
    simp only [List.map_cons, nearWell, ih, Obs.x_shift, Obs.y_shift]
    have e1 : o.x + s.1 - (shiftR s w).1 = o.x - w.1 := by simp only [shiftR]; ring
    have e2 : o.y + s.2 - (shiftR s w).2 = o.y - w.2 := by simp only [shiftR]; ring
    rw [e1, e2]
    split_ifs <;> rfl

theorem removeNear_shift (b : ℝ) (ws : List (ℝ × ℝ)) (l : List Obs) : removeNear b (ws.map (shiftR s)) (l.map (Obs.shift s)) = (removeNear b ws l).map (Obs.shift s) := by
  induction l with
  | nil => rfl
  | cons o l ih =>
    simp only [List.map_cons, removeNear, ih, awayFromWells_shift]
    split_ifs <;> rfl

theorem removeLog_shift (b : ℝ) (ws : List (ℝ × ℝ)) (l : List Obs) : removeLog b (ws.map (shiftR s)) (l.map (Obs.shift s)) = (removeLog b ws l).map (FilterLine.shift s) := by
  induction l with
  | nil => rfl
  | cons o l ih =>
    simp only [List.map_cons, removeLog, ih, nearWell_shift]
    cases nearWell b o ws <;> rfl

theorem accumulate_shift (l : List Obs) (a b : ℝ) : accumulate (l.map (Obs.shift s)) a b = accumulate l a b := by
  induction l generalizing a b with
  | nil => rfl
  | cons o l ih => simp only [List.map_cons, accumulate, ih, Obs.std_shift, Obs.z_shift]

theorem mergeGroup_shift (o : Obs) (l : List Obs) : mergeGroup (o.shift s) (l.map (Obs.shift s)) = (mergeGroup o l).map (Obs.shift s) := by
  unfold mergeGroup
  rw [← List.map_cons, accumulate_shift]
  by_cases h : l = []
  · subst h
    simp [Except.map]
  · have h' : l.map (Obs.shift s) ≠ [] := by simpa using h
    rw [if_neg h, if_neg h']
    cases accumulate (o :: l) 0 0 <;> rfl

theorem accumulateLog_shift (l : List Obs) : accumulateLog (l.map (Obs.shift s)) = (accumulateLog l).map (FilterLine.shift s) := by
  induction l with
  | nil => rfl
  | cons o l ih =>
    simp only [List.map_cons, accumulateLog, ih, Obs.std_shift]
    split_ifs <;> rfl

theorem groupLog_shift (o : Obs) (l : List Obs) : groupLog (o.shift s) (l.map (Obs.shift s)) = (groupLog o l).map (FilterLine.shift s) := by
  unfold groupLog
  rw [← List.map_cons, accumulateLog_shift, mergeGroup_shift]
  by_cases h : l = []
  · subst h
    simp
  · have h' : l.map (Obs.shift s) ≠ [] := by simpa using h
    rw [if_neg h, if_neg h']
    cases mergeGroup o l with
    | error e => rfl
    | ok r => simp [Except.map, FilterLine.shift]

theorem close_shift (o : Obs) : (fun p : Obs => decide (hypot ((o.shift s).x - p.x) ((o.shift s).y - p.y) < 1)) ∘ Obs.shift s = fun p => decide (hypot (o.x - p.x) (o.y - p.y) < 1) := by
  funext p
  simp only [Function.comp_apply, Obs.x_shift, Obs.y_shift, add_sub_add_right_eq_sub]

theorem mergeRuns_shift : ∀ (n : ℕ) (l : List Obs), l.length ≤ n → mergeRuns (l.map (Obs.shift s)) = (mergeRuns l).map (List.map (Obs.shift s))
  | _, [], _ => by simp [mergeRuns, Except.map]
  | 0, _ :: _, h => by simp at h
  | n + 1, o :: l, h => by
    rw [List.map_cons, mergeRuns, mergeRuns, List.takeWhile_map, List.dropWhile_map, close_shift, mergeGroup_shift]
    have hl : (l.dropWhile fun p => decide (hypot (o.x - p.x) (o.y - p.y) < 1)).length ≤ n :=
      ((List.dropWhile_suffix _).length_le).trans (Nat.le_of_succ_le_succ h)
    rw [mergeRuns_shift n _ hl]
    cases mergeGroup o (l.takeWhile fun p => decide (hypot (o.x - p.x) (o.y - p.y) < 1)) with
    | error e => rfl
    | ok r =>
      simp only [Except.map]
      cases mergeRuns (l.dropWhile fun p => decide (hypot (o.x - p.x) (o.y - p.y) < 1)) <;> rfl

theorem mergeLog_shift : ∀ (n : ℕ) (l : List Obs), l.length ≤ n → mergeLog (l.map (Obs.shift s)) = (mergeLog l).map (FilterLine.shift s)
  | _, [], _ => by simp [mergeLog]
  | 0, _ :: _, h => by simp at h
  | n + 1, o :: l, h => by
    rw [List.map_cons, mergeLog, mergeLog, List.takeWhile_map, List.dropWhile_map, close_shift, mergeGroup_shift]
    have hl : (l.dropWhile fun p => decide (hypot (o.x - p.x) (o.y - p.y) < 1)).length ≤ n :=
      ((List.dropWhile_suffix _).length_le).trans (Nat.le_of_succ_le_succ h)
    rw [mergeLog_shift n _ hl, groupLog_shift]
    cases mergeGroup o (l.takeWhile fun p => decide (hypot (o.x - p.x) (o.y - p.y) < 1)) with
    | error e => rfl
    | ok r => simp [Except.map]

theorem filterObs_shift (l : List Obs) (ws : List (ℝ × ℝ)) (b : ℝ) : filterObs (l.map (Obs.shift s)) (ws.map (shiftR s)) b = (filterObs l ws b).map (List.map (Obs.shift s)) := by
  unfold filterObs
  rw [removeNear_shift, mergeRuns_shift _ _ le_rfl]

theorem activeLog_shift (i : ℕ) (l : List Obs) : activeLog i (l.map (Obs.shift s)) = (activeLog i l).map (FilterLine.shift s) := by
  induction l generalizing i with
  | nil => rfl
  | cons o l ih => simp only [List.map_cons, activeLog, ih, FilterLine.shift]

theorem filterLog_shift (l : List Obs) (ws : List (ℝ × ℝ)) (b : ℝ) : filterLog (l.map (Obs.shift s)) (ws.map (shiftR s)) b = (filterLog l ws b).map (FilterLine.shift s) := by
  unfold filterLog
  rw [removeNear_shift, mergeLog_shift _ _ le_rfl, removeLog_shift, filterObs_shift]
  cases filterObs l ws b with
  | error e => simp [Except.map]
  | ok out => simp [Except.map, activeLog_shift, FilterLine.shift, filterNote]

/-! ## Statistics -/

theorem npMean_shift (x : List ℝ) (t : ℝ) (h : x ≠ []) : npMean (x.map (· + t)) = npMean x + t := by
  have hs : ∀ l : List ℝ, (l.map (· + t)).sum = l.sum + l.length * t := by
    intro l
    induction l with
    | nil => simp
    | cons a l ih =>
      simp only [List.map_cons, List.sum_cons, ih, List.length_cons]
      push_cast
      ring
  have hl : (x.length : ℝ) ≠ 0 := by
    have := List.length_pos_iff.mpr h
    positivity
  unfold npMean
  rw [hs, List.length_map]
  field_simp

theorem npStd_shift (x : List ℝ) (t : ℝ) (h : x ≠ []) : npStd (x.map (· + t)) = npStd x := by
  unfold npStd
  rw [npMean_shift x t h, List.map_map]
  congr 2
  refine List.map_congr_left fun v _ => ?_
  simp only [Function.comp_apply]
  ring

theorem npMedian_shift (x : List ℝ) (t : ℝ) (h : x ≠ []) : npMedian (x.map (· + t)) = npMedian x + t := by
  have hp := List.length_pos_iff.mpr h
  have hsort : (x.map (· + t)).mergeSort (fun a b => decide (a ≤ b)) = (x.mergeSort (fun a b => decide (a ≤ b))).map (· + t) :=
    (List.map_mergeSort (fun a _ b _ => by simp)).symm
  have hg : ∀ i, i < x.length → ((x.mergeSort (fun a b => decide (a ≤ b))).map (· + t)).getD i 0 = (x.mergeSort (fun a b => decide (a ≤ b))).getD i 0 + t := by
    intro i hi
    have hi' : i < (x.mergeSort (fun a b => decide (a ≤ b))).length := by rwa [List.length_mergeSort]
    simp [List.getD_eq_getElem?_getD, List.getElem?_map, List.getElem?_eq_getElem hi']
  unfold npMedian
  simp only [hsort, List.length_map]
  rw [hg _ (by omega), hg _ (by omega)]
  ring

theorem columnStats_shift (x : List ℝ) (t : ℝ) : columnStats ((x.map (· + t)).map some) = (columnStats (x.map some)).map (ColumnStats.shift t) := by
  unfold columnStats
  have e : ∀ l : List ℝ, (l.map some).filterMap id = l := by
    intro l
    simp [List.filterMap_map]
  simp only [e, pyMin_shift, pyMax_shift]
  cases x with
  | nil => rfl
  | cons a l =>
    have h : a :: l ≠ [] := List.cons_ne_nil _ _
    simp only [npMedian_shift _ t h, npMean_shift _ t h, npStd_shift _ t h, List.length_map]
    rfl

theorem getColumn_obs (l : List Obs) : getColumn 0 (l.map fun o => [some o.x, some o.y, some o.z, some o.std]) = .ok ((l.map Obs.x).map some) ∧
    getColumn 1 (l.map fun o => [some o.x, some o.y, some o.z, some o.std]) = .ok ((l.map Obs.y).map some) ∧
    getColumn 2 (l.map fun o => [some o.x, some o.y, some o.z, some o.std]) = .ok ((l.map Obs.z).map some) ∧
    getColumn 3 (l.map fun o => [some o.x, some o.y, some o.z, some o.std]) = .ok ((l.map Obs.std).map some) := by
  induction l with
  | nil => exact ⟨rfl, rfl, rfl, rfl⟩
  | cons o l ih =>
    obtain ⟨h0, h1, h2, h3⟩ := ih
    refine ⟨?_, ?_, ?_, ?_⟩ <;> simp only [List.map_cons, getColumn, h0, h1, h2, h3] <;> rfl

theorem statsLoop_obs (l : List Obs) : statsLoop (l.map fun o => [some o.x, some o.y, some o.z, some o.std]) 4 0 = (do
    let a ← columnStats ((l.map Obs.x).map some)
    let b ← columnStats ((l.map Obs.y).map some)
    let c ← columnStats ((l.map Obs.z).map some)
    let d ← columnStats ((l.map Obs.std).map some)
    return [a, b, c, d] : Except PyErr (List ColumnStats)) := by
  obtain ⟨h0, h1, h2, h3⟩ := getColumn_obs l
  simp only [statsLoop, h0, h1, h2, h3, Nat.zero_add, Nat.reduceAdd]
  cases columnStats ((l.map Obs.x).map some) with
  | error e => rfl
  | ok a =>
    cases columnStats ((l.map Obs.y).map some) with
    | error e => rfl
    | ok b =>
      cases columnStats ((l.map Obs.z).map some) with
      | error e => rfl
      | ok c =>
        cases columnStats ((l.map Obs.std).map some) <;> rfl

theorem summary_shift (l : List Obs) : summaryStatistics ((l.map (Obs.shift s)).map fun o => [some o.x, some o.y, some o.z, some o.std]) =
    (summaryStatistics (l.map fun o => [some o.x, some o.y, some o.z, some o.std])).map (shiftColumns s) := by
  cases l with
  | nil => rfl
  | cons o l =>
    have e : ∀ (o : Obs) (l : List Obs), summaryStatistics ((o :: l).map fun o => [some o.x, some o.y, some o.z, some o.std]) = statsLoop ((o :: l).map fun o => [some o.x, some o.y, some o.z, some o.std]) 4 0 := fun _ _ => rfl
    rw [e, List.map_cons, e, ← List.map_cons, statsLoop_obs, statsLoop_obs]
    have ex : ((o :: l).map (Obs.shift s)).map Obs.x = ((o :: l).map Obs.x).map (· + s.1) := by rw [List.map_map, List.map_map]; rfl
    have ey : ((o :: l).map (Obs.shift s)).map Obs.y = ((o :: l).map Obs.y).map (· + s.2) := by rw [List.map_map, List.map_map]; rfl
    have ez : ((o :: l).map (Obs.shift s)).map Obs.z = (o :: l).map Obs.z := by rw [List.map_map]; rfl
    have es : ((o :: l).map (Obs.shift s)).map Obs.std = (o :: l).map Obs.std := by rw [List.map_map]; rfl
    rw [ex, ey, ez, es, columnStats_shift, columnStats_shift]
    generalize columnStats (((o :: l).map Obs.x).map some) = a
    generalize columnStats (((o :: l).map Obs.y).map some) = b
    generalize columnStats (((o :: l).map Obs.z).map some) = c
    generalize columnStats (((o :: l).map Obs.std).map some) = d
    cases a <;> cases b <;> cases c <;> cases d <;> rfl

/-! ## Plots -/

theorem linspace_shift (a b t : ℝ) (n : ℕ) : linspace (a + t) (b + t) n = (linspace a b n).map (· + t) := by
  unfold linspace
  rw [List.map_map]
  refine List.map_congr_left fun k _ => ?_
  simp only [Function.comp_apply]
  ring

theorem markers_shift (t : ℤ) (ws : List SWell) (os : List Obs) : markers t (ws.map (SWell.shift s)) (os.map (Obs.shift s)) = (markers t ws os).map (Markers.shift s) := by
  unfold markers
  rw [getWell_shift]
  cases getWell ws t with
  | error e => rfl
  | ok w => simp [Except.map, Markers.shift, SWell.shift, Obs.shift, Function.comp_def]

theorem body_shift (f : PField ℝ) : (f.shift s).body = f.body.map (Body.shift s) := rfl

theorem normalized_shift (b : Body ℝ) : normalized (b.shift s) = normalized b := rfl

theorem probabilityPlot_shift (g : Grid ℝ → ℝ → Grid ℝ) (t : ℤ) (ws : List SWell) (os : List Obs) (f : PField ℝ) (sm : ℝ) :
    createProbabilityPlot g t (ws.map (SWell.shift s)) (os.map (Obs.shift s)) (f.shift s) sm = (createProbabilityPlot g t ws os f sm).map (ProbabilityPlot.shift s) := by
  unfold createProbabilityPlot
  rw [body_shift, markers_shift]
  cases f.body with
  | none => rfl
  | some b =>
    simp only [Option.map_some, normalized_shift]
    have e1 : linspace (b.shift s).xmin (b.shift s).xmax (f.shift s).ncols = _ := linspace_shift b.xmin b.xmax s.1 f.ncols
    have e2 : linspace (b.shift s).ymin (b.shift s).ymax (f.shift s).nrows = _ := linspace_shift b.ymin b.ymax s.2 f.nrows
    have e3 : (b.shift s).totalWeight = b.totalWeight := rfl
    rw [e1, e2, e3]
    split_ifs
    · rfl
    · cases markers t ws os <;> rfl
    · cases markers t ws os <;> rfl

/-- filled rectangles and area elsewhere -/
noncomputable def shiftArea (s : ℝ × ℝ) (a : List Rect × ℝ) : List Rect × ℝ := (a.1.map (Rect.shift s), a.2)

theorem areaRow_shift (z : Grid ℝ) (dx dy : ℝ) (i : ℕ) (y : ℝ) (xs : List (ℕ × ℝ)) (acc : List Rect × ℝ) :
    areaRow z dx dy i (y + s.2) (xs.map fun p => (p.1, p.2 + s.1)) (shiftArea s acc) = (areaRow z dx dy i y xs acc).map (shiftArea s) := by
  induction xs generalizing acc with
  | nil => rfl
  | cons p xs ih =>
    obtain ⟨j, x⟩ := p
    simp only [List.map_cons, areaRow]
    cases z.get i j with
    | error e => rfl
    | ok v =>
      simp only []
      split_ifs
      · rw [← ih]
        congr 1
        simp only [shiftArea, List.map_append, List.map_cons, List.map_nil, Rect.shift]
        rw [show x + s.1 - dx / 2 = x - dx / 2 + s.1 by ring, show x + s.1 + dx / 2 = x + dx / 2 + s.1 by ring,
          show y + s.2 - dy / 2 = y - dy / 2 + s.2 by ring, show y + s.2 + dy / 2 = y + dy / 2 + s.2 by ring]
      · exact ih acc

theorem areaRows_shift (z : Grid ℝ) (dx dy : ℝ) (xs ys : List (ℕ × ℝ)) (acc : List Rect × ℝ) :
    areaRows z dx dy (xs.map fun p => (p.1, p.2 + s.1)) (ys.map fun p => (p.1, p.2 + s.2)) (shiftArea s acc) = (areaRows z dx dy xs ys acc).map (shiftArea s) := by
  induction ys generalizing acc with
  | nil => rfl
  | cons p ys ih =>
    obtain ⟨i, y⟩ := p
    simp only [List.map_cons, areaRows, areaRow_shift]
    cases areaRow z dx dy i y xs acc with
    | error e => rfl
    | ok acc' => exact ih acc'

theorem enumerate_shift (l : List ℝ) (t : ℝ) : enumerate (l.map (· + t)) = (enumerate l).map fun p => (p.1, p.2 + t) := by
  unfold enumerate
  rw [List.length_map, List.zip_map_right]
  rfl

theorem deterministicPlot_shift (t : ℤ) (ws : List SWell) (os : List Obs) (f : PField ℝ) :
    createDeterministicPlot t (ws.map (SWell.shift s)) (os.map (Obs.shift s)) (f.shift s) = (createDeterministicPlot t ws os f).map (DeterministicPlot.shift s) := by
  unfold createDeterministicPlot
  rw [body_shift, markers_shift]
  cases f.body with
  | none => rfl
  | some b =>
    simp only [Option.map_some, normalized_shift]
    have e1 : linspace (b.shift s).xmin (b.shift s).xmax (f.shift s).ncols = _ := linspace_shift b.xmin b.xmax s.1 f.ncols
    have e2 : linspace (b.shift s).ymin (b.shift s).ymax (f.shift s).nrows = _ := linspace_shift b.ymin b.ymax s.2 f.nrows
    have e3 : (b.shift s).totalWeight = b.totalWeight := rfl
    rw [e1, e2, e3]
    split_ifs
    · rfl
    · simp only [List.getElem?_map]
      generalize linspace b.xmin b.xmax f.ncols = X
      generalize linspace b.ymin b.ymax f.nrows = Y
      cases hx1 : X[1]? with
      | none => rfl
      | some x1 =>
        cases hx0 : X[0]? with
        | none => rfl
        | some x0 =>
          cases hy1 : Y[1]? with
          | none => rfl
          | some y1 =>
            cases hy0 : Y[0]? with
            | none => rfl
            | some y0 =>
              have := areaRows_shift (s := s) (normalized b) (x1 - x0) (y1 - y0) (enumerate X) (enumerate Y) ([], 0)
              simp only [Option.map_some, add_sub_add_right_eq_sub, enumerate_shift]
              have e0 : shiftArea s ([], 0) = ([], 0) := rfl
              rw [e0] at this
              rw [this]
              cases areaRows (normalized b) (x1 - x0) (y1 - y0) (enumerate X) (enumerate Y) ([], 0) with
              | error e => rfl
              | ok r =>
                obtain ⟨fl, ar⟩ := r
                simp only [Except.map, shiftArea]
                cases markers t ws os <;> rfl

theorem impactPlot_shift (sp : ℝ) (f : PField ℝ) : createImpactPlot sp (f.shift s) = createImpactPlot sp f := by
  unfold createImpactPlot
  rw [body_shift]
  cases f.body <;> rfl

/-! ## The computation -/

theorem shift_bind {α α' β β' : Type} {p : Prog α} {p' : Prog α'} {k : α → Prog β} {k' : α' → Prog β'} {g : α → α'} {h : β → β'}
    (hp : p' = p.shift s g) (hk : ∀ x, k' (g x) = (k x).shift s h) : p' >>= k' = (p >>= k).shift s h := by
  subst hp
  obtain ⟨ev, en⟩ := p
  cases en with
  | returns a =>
    show Prog.mk (ev.map (Effect.shift s) ++ (k' (g a)).events) (k' (g a)).ending = Prog.mk ((ev ++ (k a).events).map (Effect.shift s)) ((k a).ending.map h)
    rw [hk a, List.map_append]
    rfl
  | raises e => rfl
  | diverges => rfl

theorem lift_shift {α α' : Type} {x : Except PyErr α} {x' : Except PyErr α'} {g : α → α'} (h : x' = x.map g) : Prog.lift x' = (Prog.lift x).shift s g := by
  subst h
  cases x <;> rfl

theorem infos_shift {l l' : List LogLine} (h : l' = l.map (LogLine.shift s)) : Prog.infos l' = (Prog.infos l).shift s (id : Unit → Unit) := by
  subst h
  simp [Prog.infos, Prog.shift, Ending.map, Effect.shift, Function.comp_def]

theorem info_shift {l l' : LogLine} (h : l' = l.shift s) : Prog.info l' = (Prog.info l).shift s (id : Unit → Unit) := by
  subst h
  rfl

theorem emit_shift {e e' : Effect} (h : e' = e.shift s) : Prog.emit e' = (Prog.emit e).shift s (id : Unit → Unit) := by
  subst h
  rfl

theorem runProg_shift {l l' : List RealizationLog} {o o' : Option RunResult} (hl : l' = l.map (RealizationLog.shift s)) (ho : o' = o.map (RunResult.shift s)) :
    runProg l' o' = (runProg l o).shift s (PField.shift s) := by
  subst hl ho
  cases o with
  | none => simp [runProg, Prog.shift, Ending.map, Effect.shift, LogLine.shift, Function.comp_def]
  | some r =>
    obtain ⟨o, l⟩ := r
    cases o <;> simp [runProg, Prog.shift, Ending.map, Effect.shift, LogLine.shift, Function.comp_def, RunResult.shift, Except.map]

theorem wells_shift (ws : List SWell) : (ws.map (SWell.shift s)).map (fun w => (w.xw, w.yw)) = (ws.map fun w => (w.xw, w.yw)).map (shiftR s) := by
  rw [List.map_map, List.map_map]
  rfl

theorem compute_shift (n : Inputs) (env : CallEnv) : compute (n.shift s) env = (compute n env).shift s (FieldVal.shift s) := by
  unfold compute
  have hw : (n.shift s).run.wells.map (fun w => (w.xw, w.yw)) = _ := wells_shift (s := s) n.run.wells
  rw [hw]
  refine shift_bind (infos_shift ?_) fun _ => ?_
  · have : filterLog (n.shift s).run.obs _ (n.shift s).buffer = _ := filterLog_shift (s := s) n.run.obs (n.run.wells.map fun w => (w.xw, w.yw)) n.buffer
    rw [this]
    simp [LogLine.shift, Function.comp_def]
  refine shift_bind (lift_shift (filterObs_shift (s := s) n.run.obs (n.run.wells.map fun w : SWell => (w.xw, w.yw)) n.buffer)) fun obs => ?_
  refine shift_bind (g := id) (lift_shift ?_) fun _ => ?_
  · rw [List.length_map]
    generalize pyAssert (.ok (decide (6 < obs.length))) = x
    cases x <;> rfl
  refine shift_bind (lift_shift (summary_shift (s := s) obs)) fun cols => ?_
  refine shift_bind (info_shift rfl) fun _ => ?_
  refine shift_bind (info_shift rfl) fun _ => ?_
  have hn : (n.shift s).nrealizations = n.nrealizations := rfl
  rw [hn]
  split_ifs
  · refine shift_bind (runProg_shift (endlessStochastic_shift { n.run with obs := obs } _ _) (createStochastic_shift { n.run with obs := obs } _ _)) fun f => ?_
    refine shift_bind (lift_shift (probabilityPlot_shift (s := s) env.gaussian n.run.target n.run.wells obs f n.smooth)) fun plot => ?_
    refine shift_bind (emit_shift rfl) fun _ => ?_
    refine shift_bind (g := id) (lift_shift ?_) fun im => ?_
    · have : createImpactPlot (n.shift s).run.spacing (f.shift s) = _ := impactPlot_shift (s := s) n.run.spacing f
      rw [this]
      cases createImpactPlot n.run.spacing f <;> rfl
    refine shift_bind (emit_shift rfl) fun _ => ?_
    refine shift_bind (infos_shift rfl) fun _ => ?_
    refine shift_bind (g := id) (lift_shift ?_) fun lines => ?_
    · simp only [id]
      cases decileTable im <;> rfl
    refine shift_bind (infos_shift ?_) fun _ => ?_
    · simp [LogLine.shift, Function.comp_def]
    refine shift_bind (info_shift rfl) fun _ => ?_
    rfl
  · refine shift_bind (runProg_shift (endlessDeterministic_shift { n.run with obs := obs } _) (createDeterministic_shift { n.run with obs := obs } _)) fun f => ?_
    refine shift_bind (lift_shift (deterministicPlot_shift (s := s) n.run.target n.run.wells obs f)) fun plot => ?_
    refine shift_bind (emit_shift rfl) fun _ => ?_
    refine shift_bind (info_shift rfl) fun _ => ?_
    refine shift_bind (info_shift rfl) fun _ => ?_
    refine shift_bind (info_shift rfl) fun _ => ?_
    refine shift_bind (info_shift rfl) fun _ => ?_
    rfl

end Oneka
