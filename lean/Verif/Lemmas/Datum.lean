import Verif.Spec.Datum
import Verif.Lemmas.ShiftCall

/-!
# Elevations above another datum
-/

namespace Oneka

variable {h : ℝ}

theorem fosm_raise (m : Aquifer ℝ) (o : Obs) : (m.raise h).fosm (o.raise h) = m.fosm o := by
  unfold Aquifer.fosm
  have e : (o.raise h).z - (m.raise h).base = o.z - m.base := by simp only [Obs.raise, Aquifer.raise]; ring
  rw [e]
  rfl

theorem constructFit_raise (m : Aquifer ℝ) (xo yo : ℝ) (obs : List Obs) : (m.raise h).constructFit xo yo (obs.map (Obs.raise h)) = m.constructFit xo yo obs := by
  induction obs with
  | nil => rfl
  | cons o os ih =>
    have hrow : (m.raise h).fitRow xo yo (o.raise h) = m.fitRow xo yo o := by
      unfold Aquifer.fitRow
      rw [fosm_raise]
      rfl
    simp only [List.map_cons, Aquifer.constructFit, hrow, ih]

theorem fit_raise (la : LinAlg) (m : Aquifer ℝ) (obs : List Obs) (xo yo : ℝ) :
    (m.raise h).fitRegionalFlow la (obs.map (Obs.raise h)) xo yo = ((m.fitRegionalFlow la obs xo yo).1.raise h, (m.fitRegionalFlow la obs xo yo).2) := by
  unfold Aquifer.fitRegionalFlow
  rw [constructFit_raise]
  cases m.constructFit xo yo obs with
  | error e => rfl
  | ok rows =>
    simp only []
    cases Aquifer.computeFit la rows with
    | error e => rfl
    | ok r => rfl

theorem drawModel_raise (a : RunArgs) (q : Dist → ℕ → Except PyErr ℝ) : drawModel (a.raise h) q = (drawModel a q).map (Aquifer.raise h) := by
  unfold drawModel
  have e : (a.raise h).wells = a.wells := rfl
  have e1 : (a.raise h).cDist = a.cDist := rfl
  have e2 : (a.raise h).pDist = a.pDist := rfl
  have e3 : (a.raise h).tDist = a.tDist := rfl
  simp only [e, e1, e2, e3]
  cases drawWells q a.wells 0 with
  | error e => rfl
  | ok ws =>
    simp only []
    cases q a.cDist a.wells.length with
    | error e => rfl
    | ok c =>
      simp only []
      cases q a.pDist (a.wells.length + 1) with
      | error e => rfl
      | ok p =>
        simp only []
        cases q a.tDist (a.wells.length + 2) <;> rfl

theorem runVelocity_raise (m : Aquifer ℝ) (c : Bool) (int : ℕ → ℕ → Option PyErr) : runVelocity (m.raise h) c int = runVelocity m c int := by
  funext k n p
  unfold runVelocity
  cases int k n <;> rfl

theorem realize_raise (a : RunArgs) (la : LinAlg) (w : SWell) (q : Dist → ℕ → Except PyErr ℝ) (coefs : (Fin 6 → ℝ) → Matrix (Fin 6) (Fin 6) ℝ → Except PyErr (Fin 6 → ℝ))
    (rc : (Fin 6 → ℝ) → ℝ) (int : ℕ → ℕ → Option PyErr) (f : PField ℝ) :
    realize (a.raise h) la w q coefs rc int f = (realize a la w q coefs rc int f).map fun r => (r.1, r.2.map (RealizationLog.raise h)) := by
  unfold realize
  rw [drawModel_raise]
  cases drawModel a q with
  | error e => rfl
  | ok mo =>
    have hf : (mo.raise h).fitRegionalFlow la (a.raise h).obs w.xw w.yw = _ := fit_raise (h := h) la mo a.obs w.xw w.yw
    simp only [Except.map, hf]
    obtain ⟨m', o⟩ := mo.fitRegionalFlow la a.obs w.xw w.yw
    cases o with
    | error e => rfl
    | ok r =>
      obtain ⟨ev, cov⟩ := r
      simp only []
      cases coefs ev cov with
      | error e => rfl
      | ok c =>
        have e : (runVelocity { m'.raise h with coef := c } (a.raise h).confined int) = runVelocity { m' with coef := c } a.confined int := runVelocity_raise { m' with coef := c } a.confined int
        simp only [e]
        have e2 : computeCapturezone w.xw w.yw w.rw (a.raise h).npaths (a.raise h).duration f (a.raise h).umbra 1 (a.raise h).tol (a.raise h).maxstep (runVelocity { m' with coef := c } a.confined int) =
          computeCapturezone w.xw w.yw w.rw a.npaths a.duration f a.umbra 1 a.tol a.maxstep (runVelocity { m' with coef := c } a.confined int) := rfl
        rw [e2]
        cases computeCapturezone w.xw w.yw w.rw a.npaths a.duration f a.umbra 1 a.tol a.maxstep (runVelocity { m' with coef := c } a.confined int) <;> rfl

theorem endlessRealization_raise (a : RunArgs) (la : LinAlg) (w : SWell) (q : Dist → ℕ → Except PyErr ℝ) (coefs : (Fin 6 → ℝ) → Matrix (Fin 6) (Fin 6) ℝ → Except PyErr (Fin 6 → ℝ))
    (rc : (Fin 6 → ℝ) → ℝ) (int : ℕ → ℕ → Option PyErr) (f : PField ℝ) :
    endlessRealization (a.raise h) la w q coefs rc int f = (endlessRealization a la w q coefs rc int f).map (RealizationLog.raise h) := by
  unfold endlessRealization
  rw [drawModel_raise]
  cases drawModel a q with
  | error e => rfl
  | ok mo =>
    have hf : (mo.raise h).fitRegionalFlow la (a.raise h).obs w.xw w.yw = _ := fit_raise (h := h) la mo a.obs w.xw w.yw
    simp only [Except.map, hf]
    obtain ⟨m', o⟩ := mo.fitRegionalFlow la a.obs w.xw w.yw
    cases o with
    | error e => rfl
    | ok r =>
      obtain ⟨ev, cov⟩ := r
      simp only []
      cases coefs ev cov with
      | error e => rfl
      | ok c =>
        have e : (runVelocity { m'.raise h with coef := c } (a.raise h).confined int) = runVelocity { m' with coef := c } a.confined int := runVelocity_raise { m' with coef := c } a.confined int
        simp only [e]
        rfl

theorem stochasticLoop_raise (a : RunArgs) (env : Env) (w : SWell) (k i : ℕ) (f : PField ℝ) (acc : List RealizationLog) :
    stochasticLoop (a.raise h) env w k i f (acc.map (RealizationLog.raise h)) = (stochasticLoop a env w k i f acc).map (RunResult.raise h) := by
  induction k generalizing i f acc with
  | zero => rfl
  | succ k ih =>
    simp only [stochasticLoop, realize_raise]
    cases realize a env.la w (fun d j => d.sample (env.u i j)) (env.mvn i) (fun c => 2 * (c 0 + c 1)) (env.interrupt i) f with
    | none => rfl
    | some r =>
      obtain ⟨o, l⟩ := r
      cases o with
      | error e => simp [RunResult.raise]
      | ok f' =>
        have := ih (i + 1) f' (acc ++ l)
        rw [List.map_append] at this
        exact this

theorem endlessLoop_raise (a : RunArgs) (env : Env) (w : SWell) (k i : ℕ) (f : PField ℝ) :
    endlessLoop (a.raise h) env w k i f = (endlessLoop a env w k i f).map (RealizationLog.raise h) := by
  induction k generalizing i f with
  | zero => rfl
  | succ k ih =>
    simp only [endlessLoop, realize_raise, endlessRealization_raise]
    cases realize a env.la w (fun d j => d.sample (env.u i j)) (env.mvn i) (fun c => 2 * (c 0 + c 1)) (env.interrupt i) f with
    | none => rfl
    | some r =>
      obtain ⟨o, l⟩ := r
      cases o with
      | error e => rfl
      | ok f' => simp [ih]

theorem createStochastic_raise (a : RunArgs) (n : ℤ) (env : Env) : createStochastic (a.raise h) n env = (createStochastic a n env).map (RunResult.raise h) := by
  unfold createStochastic
  have e : getWell (a.raise h).wells (a.raise h).target = getWell a.wells a.target := rfl
  have e2 : (a.raise h).spacing = a.spacing := rfl
  rw [e]
  cases getWell a.wells a.target with
  | error e => rfl
  | ok w =>
    simp only [e2]
    cases PField.new a.spacing a.spacing (some w.xw) (some w.yw) with
    | error e => rfl
    | ok f => exact stochasticLoop_raise a env w n.toNat 0 f []

theorem createDeterministic_raise (a : RunArgs) (env : Env) : createDeterministic (a.raise h) env = (createDeterministic a env).map (RunResult.raise h) := by
  unfold createDeterministic
  have e : getWell (a.raise h).wells (a.raise h).target = getWell a.wells a.target := rfl
  have e2 : (a.raise h).spacing = a.spacing := rfl
  rw [e]
  cases getWell a.wells a.target with
  | error e => rfl
  | ok w =>
    simp only [e2]
    cases PField.new a.spacing a.spacing (some w.xw) (some w.yw) with
    | error e => rfl
    | ok f =>
      simp only [realize_raise]
      cases realize a env.la w (fun d _ => d.mean) (fun ev _ => .ok ev) (fun c => -2 * (c 0 + c 1)) (env.interrupt 0) f with
      | none => rfl
      | some r => rfl

theorem endlessStochastic_raise (a : RunArgs) (n : ℤ) (env : Env) : endlessStochastic (a.raise h) n env = (endlessStochastic a n env).map (RealizationLog.raise h) := by
  unfold endlessStochastic
  have e : getWell (a.raise h).wells (a.raise h).target = getWell a.wells a.target := rfl
  have e2 : (a.raise h).spacing = a.spacing := rfl
  rw [e]
  cases getWell a.wells a.target with
  | error e => rfl
  | ok w =>
    simp only [e2]
    cases PField.new a.spacing a.spacing (some w.xw) (some w.yw) with
    | error e => rfl
    | ok f => exact endlessLoop_raise a env w n.toNat 0 f

theorem endlessDeterministic_raise (a : RunArgs) (env : Env) : endlessDeterministic (a.raise h) env = (endlessDeterministic a env).map (RealizationLog.raise h) := by
  unfold endlessDeterministic
  have e : getWell (a.raise h).wells (a.raise h).target = getWell a.wells a.target := rfl
  have e2 : (a.raise h).spacing = a.spacing := rfl
  rw [e]
  cases getWell a.wells a.target with
  | error e => rfl
  | ok w =>
    simp only [e2]
    cases PField.new a.spacing a.spacing (some w.xw) (some w.yw) with
    | error e => rfl
    | ok f => exact endlessRealization_raise a env.la w _ _ _ _ f

/-! ## Filtering -/

theorem awayFromWells_raise (b : ℝ) (o : Obs) (ws : List (ℝ × ℝ)) : awayFromWells b (o.raise h) ws = awayFromWells b o ws := by
  induction ws with
  | nil => rfl
  | cons w ws ih =>
    simp only [awayFromWells, ih]
    rfl

theorem nearWell_raise (b : ℝ) (o : Obs) (ws : List (ℝ × ℝ)) : nearWell b (o.raise h) ws = nearWell b o ws := by
  induction ws with
  | nil => rfl
  | cons w ws ih =>
    simp only [nearWell, ih]
    rfl

theorem removeNear_raise (b : ℝ) (ws : List (ℝ × ℝ)) (l : List Obs) : removeNear b ws (l.map (Obs.raise h)) = (removeNear b ws l).map (Obs.raise h) := by
  induction l with
  | nil => rfl
  | cons o l ih =>
    simp only [List.map_cons, removeNear, ih, awayFromWells_raise]
    split_ifs <;> rfl

theorem removeLog_raise (b : ℝ) (ws : List (ℝ × ℝ)) (l : List Obs) : removeLog b ws (l.map (Obs.raise h)) = (removeLog b ws l).map (FilterLine.raise h) := by
  induction l with
  | nil => rfl
  | cons o l ih =>
    simp only [List.map_cons, removeLog, ih, nearWell_raise]
    cases nearWell b o ws <;> rfl

theorem accumulate_raise (l : List Obs) (a b : ℝ) : accumulate (l.map (Obs.raise h)) (a + h * b) b = (accumulate l a b).map fun r => (r.1 + h * r.2, r.2) := by
  induction l generalizing a b with
  | nil => rfl
  | cons o l ih =>
    have e1 : (o.raise h).std = o.std := rfl
    have e2 : (o.raise h).z = o.z + h := rfl
    simp only [List.map_cons, accumulate, e1, e2]
    split_ifs with c
    · rfl
    · rw [← ih]
      congr 1
      field_simp
      ring

theorem accumulate_den (l : List Obs) (a b : ℝ) (r : ℝ × ℝ) (hr : accumulate l a b = .ok r) : b ≤ r.2 ∧ (l ≠ [] → b < r.2) := by
  induction l generalizing a b with
  | nil =>
    cases hr
    exact ⟨le_rfl, fun h => absurd rfl h⟩
  | cons o l ih =>
    simp only [accumulate] at hr
    split_ifs at hr with c
    have hp : 0 < 1 / o.std ^ 2 := by
      have : 0 < o.std ^ 2 := lt_of_le_of_ne (sq_nonneg _) (Ne.symm c)
      positivity
    have := (ih _ _ hr).1
    exact ⟨by linarith, fun _ => by linarith⟩

theorem mergeGroup_raise (o : Obs) (l : List Obs) : mergeGroup (o.raise h) (l.map (Obs.raise h)) = (mergeGroup o l).map (Obs.raise h) := by
  unfold mergeGroup
  rw [← List.map_cons]
  have e := accumulate_raise (h := h) (o :: l) 0 0
  rw [mul_zero, add_zero] at e
  rw [e]
  by_cases c : l = []
  · subst c
    simp [Except.map]
  · have c' : l.map (Obs.raise h) ≠ [] := by simpa using c
    rw [if_neg c, if_neg c']
    cases hr : accumulate (o :: l) 0 0 with
    | error e => rfl
    | ok r =>
      have hd := (accumulate_den _ _ _ _ hr).2 (List.cons_ne_nil _ _)
      simp only [Except.map, Obs.raise]
      congr 2
      field_simp

theorem accumulateLog_raise (l : List Obs) : accumulateLog (l.map (Obs.raise h)) = (accumulateLog l).map (FilterLine.raise h) := by
  induction l with
  | nil => rfl
  | cons o l ih =>
    have e1 : (o.raise h).std = o.std := rfl
    simp only [List.map_cons, accumulateLog, ih, e1]
    split_ifs <;> rfl

theorem groupLog_raise (o : Obs) (l : List Obs) : groupLog (o.raise h) (l.map (Obs.raise h)) = (groupLog o l).map (FilterLine.raise h) := by
  unfold groupLog
  rw [← List.map_cons, accumulateLog_raise, mergeGroup_raise]
  by_cases c : l = []
  · subst c
    simp
  · have c' : l.map (Obs.raise h) ≠ [] := by simpa using c
    rw [if_neg c, if_neg c']
    cases mergeGroup o l with
    | error e => rfl
    | ok r => simp [Except.map, FilterLine.raise]

theorem close_raise (o : Obs) : (fun p : Obs => decide (hypot ((o.raise h).x - p.x) ((o.raise h).y - p.y) < 1)) ∘ Obs.raise h = fun p => decide (hypot (o.x - p.x) (o.y - p.y) < 1) := rfl

theorem mergeRuns_raise : ∀ (n : ℕ) (l : List Obs), l.length ≤ n → mergeRuns (l.map (Obs.raise h)) = (mergeRuns l).map (List.map (Obs.raise h))
  | _, [], _ => by simp [mergeRuns, Except.map]
  | 0, _ :: _, h => by simp at h
  | n + 1, o :: l, hn => by
    rw [List.map_cons, mergeRuns, mergeRuns, List.takeWhile_map, List.dropWhile_map, close_raise, mergeGroup_raise]
    have hl : (l.dropWhile fun p => decide (hypot (o.x - p.x) (o.y - p.y) < 1)).length ≤ n :=
      ((List.dropWhile_suffix _).length_le).trans (Nat.le_of_succ_le_succ hn)
    rw [mergeRuns_raise n _ hl]
    cases mergeGroup o (l.takeWhile fun p => decide (hypot (o.x - p.x) (o.y - p.y) < 1)) with
    | error e => rfl
    | ok r =>
      simp only [Except.map]
      cases mergeRuns (l.dropWhile fun p => decide (hypot (o.x - p.x) (o.y - p.y) < 1)) <;> rfl

theorem mergeLog_raise : ∀ (n : ℕ) (l : List Obs), l.length ≤ n → mergeLog (l.map (Obs.raise h)) = (mergeLog l).map (FilterLine.raise h)
  | _, [], _ => by simp [mergeLog]
  | 0, _ :: _, h => by simp at h
  | n + 1, o :: l, hn => by
    rw [List.map_cons, mergeLog, mergeLog, List.takeWhile_map, List.dropWhile_map, close_raise, mergeGroup_raise]
    have hl : (l.dropWhile fun p => decide (hypot (o.x - p.x) (o.y - p.y) < 1)).length ≤ n :=
      ((List.dropWhile_suffix _).length_le).trans (Nat.le_of_succ_le_succ hn)
    rw [mergeLog_raise n _ hl, groupLog_raise]
    cases mergeGroup o (l.takeWhile fun p => decide (hypot (o.x - p.x) (o.y - p.y) < 1)) with
    | error e => rfl
    | ok r => simp [Except.map]

theorem filterObs_raise (l : List Obs) (ws : List (ℝ × ℝ)) (b : ℝ) : filterObs (l.map (Obs.raise h)) ws b = (filterObs l ws b).map (List.map (Obs.raise h)) := by
  unfold filterObs
  rw [removeNear_raise, mergeRuns_raise _ _ le_rfl]

theorem activeLog_raise (i : ℕ) (l : List Obs) : activeLog i (l.map (Obs.raise h)) = (activeLog i l).map (FilterLine.raise h) := by
  induction l generalizing i with
  | nil => rfl
  | cons o l ih => simp only [List.map_cons, activeLog, ih, FilterLine.raise]

theorem filterLog_raise (l : List Obs) (ws : List (ℝ × ℝ)) (b : ℝ) : filterLog (l.map (Obs.raise h)) ws b = (filterLog l ws b).map (FilterLine.raise h) := by
  unfold filterLog
  rw [removeNear_raise, mergeLog_raise _ _ le_rfl, removeLog_raise, filterObs_raise]
  cases filterObs l ws b with
  | error e => simp [Except.map]
  | ok out => simp [Except.map, activeLog_raise, FilterLine.raise, filterNote]

theorem summary_raise (l : List Obs) : summaryStatistics ((l.map (Obs.raise h)).map fun o => [some o.x, some o.y, some o.z, some o.std]) =
    (summaryStatistics (l.map fun o => [some o.x, some o.y, some o.z, some o.std])).map (raiseColumns h) := by
  cases l with
  | nil => rfl
  | cons o l =>
    have e : ∀ (o : Obs) (l : List Obs), summaryStatistics ((o :: l).map fun o => [some o.x, some o.y, some o.z, some o.std]) = statsLoop ((o :: l).map fun o => [some o.x, some o.y, some o.z, some o.std]) 4 0 := fun _ _ => rfl
    rw [e, List.map_cons, e, ← List.map_cons, statsLoop_obs, statsLoop_obs]
    have ex : ((o :: l).map (Obs.raise h)).map Obs.x = (o :: l).map Obs.x := by rw [List.map_map]; rfl
    have ey : ((o :: l).map (Obs.raise h)).map Obs.y = (o :: l).map Obs.y := by rw [List.map_map]; rfl
    have ez : ((o :: l).map (Obs.raise h)).map Obs.z = ((o :: l).map Obs.z).map (· + h) := by rw [List.map_map, List.map_map]; rfl
    have es : ((o :: l).map (Obs.raise h)).map Obs.std = (o :: l).map Obs.std := by rw [List.map_map]; rfl
    rw [ex, ey, ez, es, columnStats_shift]
    generalize columnStats (((o :: l).map Obs.x).map some) = a
    generalize columnStats (((o :: l).map Obs.y).map some) = b
    generalize columnStats (((o :: l).map Obs.z).map some) = c
    generalize columnStats (((o :: l).map Obs.std).map some) = d
    cases a <;> cases b <;> cases c <;> cases d <;> rfl

theorem markers_raise (t : ℤ) (ws : List SWell) (os : List Obs) : markers t ws (os.map (Obs.raise h)) = markers t ws os := by
  unfold markers
  rw [List.map_map]
  rfl

theorem probabilityPlot_raise (g : Grid ℝ → ℝ → Grid ℝ) (t : ℤ) (ws : List SWell) (os : List Obs) (f : PField ℝ) (sm : ℝ) :
    createProbabilityPlot g t ws (os.map (Obs.raise h)) f sm = createProbabilityPlot g t ws os f sm := by
  unfold createProbabilityPlot
  rw [markers_raise]

theorem deterministicPlot_raise (t : ℤ) (ws : List SWell) (os : List Obs) (f : PField ℝ) : createDeterministicPlot t ws (os.map (Obs.raise h)) f = createDeterministicPlot t ws os f := by
  unfold createDeterministicPlot
  rw [markers_raise]

/-! ## The computation -/

theorem raise_bind {α α' β : Type} {p : Prog α} {p' : Prog α'} {k : α → Prog β} {k' : α' → Prog β} {g : α → α'}
    (he : p'.events = p.events.map (Effect.raise h)) (hr : p'.ending = p.ending.map g) (hk : ∀ x, k' (g x) = (k x).raise h) : p' >>= k' = (p >>= k).raise h := by
  obtain ⟨ev, en⟩ := p
  obtain ⟨ev', en'⟩ := p'
  simp only at he hr
  subst he hr
  cases en with
  | returns a =>
    show Prog.mk (ev.map (Effect.raise h) ++ (k' (g a)).events) (k' (g a)).ending = Prog.mk ((ev ++ (k a).events).map (Effect.raise h)) (k a).ending
    rw [hk a, List.map_append]
    rfl
  | raises e => rfl
  | diverges => rfl

theorem raise_lift {α α' β : Type} {x : Except PyErr α} {x' : Except PyErr α'} {k : α → Prog β} {k' : α' → Prog β} (g : α → α') (hx : x' = x.map g) (hk : ∀ x, k' (g x) = (k x).raise h) :
    Prog.lift x' >>= k' = (Prog.lift x >>= k).raise h := by
  subst hx
  refine raise_bind (g := g) ?_ ?_ hk <;> cases x <;> rfl

theorem raise_lift_same {α β : Type} {x x' : Except PyErr α} {k k' : α → Prog β} (hx : x' = x) (hk : ∀ x, k' x = (k x).raise h) :
    Prog.lift x' >>= k' = (Prog.lift x >>= k).raise h := by
  subst hx
  refine raise_bind (g := id) ?_ ?_ hk <;> cases x' <;> rfl

theorem raise_infos {β : Type} {l l' : List LogLine} {k k' : Unit → Prog β} (hl : l' = l.map (LogLine.raise h)) (hk : ∀ x, k' x = (k x).raise h) : Prog.infos l' >>= k' = (Prog.infos l >>= k).raise h := by
  subst hl
  refine raise_bind (g := id) ?_ rfl hk
  simp [Prog.infos, Effect.raise, Function.comp_def]

theorem raise_info {β : Type} {l l' : LogLine} {k k' : Unit → Prog β} (hl : l' = l.raise h) (hk : ∀ x, k' x = (k x).raise h) : Prog.info l' >>= k' = (Prog.info l >>= k).raise h := by
  subst hl
  exact raise_bind (g := id) rfl rfl hk

theorem raise_figure {β : Type} {f : Figure} {k k' : Unit → Prog β} (hk : ∀ x, k' x = (k x).raise h) : Prog.emit (.figure f) >>= k' = (Prog.emit (.figure f) >>= k).raise h :=
  raise_bind (g := id) rfl rfl hk

theorem raise_runProg {β : Type} {l l' : List RealizationLog} {o o' : Option RunResult} {k k' : PField ℝ → Prog β} (hl : l' = l.map (RealizationLog.raise h)) (ho : o' = o.map (RunResult.raise h))
    (hk : ∀ x, k' x = (k x).raise h) : runProg l' o' >>= k' = (runProg l o >>= k).raise h := by
  subst hl ho
  refine raise_bind (g := id) ?_ ?_ hk
  · cases o <;> simp [runProg, Effect.raise, LogLine.raise, Function.comp_def, RunResult.raise]
  · cases o with
    | none => rfl
    | some r =>
      obtain ⟨o, l⟩ := r
      cases o <;> rfl

theorem compute_raise (n : Inputs) (env : CallEnv) : compute (n.raise h) env = (compute n env).raise h := by
  unfold compute
  refine raise_infos ?_ fun _ => ?_
  · have : filterLog (n.raise h).run.obs ((n.raise h).run.wells.map fun w : SWell => (w.xw, w.yw)) (n.raise h).buffer = _ := filterLog_raise (h := h) n.run.obs (n.run.wells.map fun w : SWell => (w.xw, w.yw)) n.buffer
    rw [this]
    simp [LogLine.raise, Function.comp_def]
  refine raise_lift (List.map (Obs.raise h)) (filterObs_raise (h := h) n.run.obs (n.run.wells.map fun w : SWell => (w.xw, w.yw)) n.buffer) fun obs => ?_
  refine raise_lift_same (by rw [List.length_map]) fun _ => ?_
  refine raise_lift (raiseColumns h) (summary_raise (h := h) obs) fun cols => ?_
  refine raise_info rfl fun _ => ?_
  refine raise_info rfl fun _ => ?_
  have hn : (n.raise h).nrealizations = n.nrealizations := rfl
  rw [hn]
  split_ifs
  · refine raise_runProg (endlessStochastic_raise { n.run with obs := obs } _ _) (createStochastic_raise { n.run with obs := obs } _ _) fun f => ?_
    refine raise_lift_same (probabilityPlot_raise (h := h) env.gaussian n.run.target n.run.wells obs f n.smooth) fun plot => ?_
    refine raise_figure fun _ => ?_
    refine raise_lift_same rfl fun im => ?_
    refine raise_figure fun _ => ?_
    refine raise_infos rfl fun _ => ?_
    refine raise_lift_same rfl fun lines => ?_
    refine raise_infos ?_ fun _ => ?_
    · simp [LogLine.raise, Function.comp_def]
    refine raise_info rfl fun _ => ?_
    rfl
  · refine raise_runProg (endlessDeterministic_raise { n.run with obs := obs } _) (createDeterministic_raise { n.run with obs := obs } _) fun f => ?_
    refine raise_lift_same (deterministicPlot_raise (h := h) n.run.target n.run.wells obs f) fun plot => ?_
    refine raise_figure fun _ => ?_
    refine raise_info rfl fun _ => ?_
    refine raise_info rfl fun _ => ?_
    refine raise_info rfl fun _ => ?_
    refine raise_info rfl fun _ => ?_
    rfl

theorem collect_raise {β : Type} {φ : Effect → Option β} {ψ : β → β} (l : List Effect) (hφ : ∀ e : Effect, φ (e.raise h) = (φ e).map ψ) :
    (l.map (Effect.raise h)).filterMap φ = (l.filterMap φ).map ψ := by
  rw [List.filterMap_map, List.map_filterMap]
  congr 1
  funext e
  exact hφ e

end Oneka
