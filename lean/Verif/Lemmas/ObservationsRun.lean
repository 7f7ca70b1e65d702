import Verif.Lemmas.Observations
import Verif.Lemmas.OrderRun
import Verif.Lemmas.Compute
import Verif.Lemmas.PropsRuns
import Verif.Lemmas.PropsLaw

/-!
# Lemmas for C129: runs and calls
-/

namespace Oneka

open Aquifer

section
variable {a : RunArgs} {obs' : List Obs}

theorem endlessRealization_obs {la : LinAlg} {t : SWell} {q : Dist → ℕ → Except PyErr ℝ} {coefs : (Fin 6 → ℝ) → Matrix (Fin 6) (Fin 6) ℝ → Except PyErr (Fin 6 → ℝ)} {rc : (Fin 6 → ℝ) → ℝ}
    {int : ℕ → ℕ → Option PyErr} {f : PField ℝ} (h : ∀ mo, drawModel a q = .ok mo → mo.fitRegionalFlow la obs' t.xw t.yw = mo.fitRegionalFlow la a.obs t.xw t.yw) :
    endlessRealization { a with obs := obs' } la t q coefs rc int f = endlessRealization a la t q coefs rc int f := by
  unfold endlessRealization
  rw [show drawModel { a with obs := obs' } q = drawModel a q from rfl]
  cases hd : drawModel a q with
  | error e => rfl
  | ok mo =>
    simp only
    rw [h mo hd]

theorem endlessLoop_obs {env : Env} {t : SWell}
    (h : ∀ i mo, drawModel a (fun d j => d.sample (env.u i j)) = .ok mo → mo.fitRegionalFlow env.la obs' t.xw t.yw = mo.fitRegionalFlow env.la a.obs t.xw t.yw) (k : ℕ) :
    ∀ (i : ℕ) (f : PField ℝ), endlessLoop { a with obs := obs' } env t k i f = endlessLoop a env t k i f := by
  induction k with
  | zero => intro i f; rfl
  | succ k ih =>
    intro i f
    unfold endlessLoop
    rw [realize_obs (h i), endlessRealization_obs (h i)]
    split
    · rw [ih]
    · rfl
    · rfl

theorem endlessStochastic_obs {env : Env} {n : ℤ} (h : ∀ t, getWell a.wells a.target = .ok t → ∀ i mo, drawModel a (fun d j => d.sample (env.u i j)) = .ok mo →
    mo.fitRegionalFlow env.la obs' t.xw t.yw = mo.fitRegionalFlow env.la a.obs t.xw t.yw) : endlessStochastic { a with obs := obs' } n env = endlessStochastic a n env := by
  unfold endlessStochastic
  show (match getWell a.wells a.target with | _ => _) = _
  cases hg : getWell a.wells a.target with
  | error e => rfl
  | ok t =>
    simp only
    cases PField.new a.spacing a.spacing (some t.xw) (some t.yw) with
    | error e => rfl
    | ok f => exact endlessLoop_obs (h t hg) _ _ _

theorem endlessDeterministic_obs {env : Env} (h : ∀ t, getWell a.wells a.target = .ok t → ∀ mo, drawModel a (fun d _ => d.mean) = .ok mo →
    mo.fitRegionalFlow env.la obs' t.xw t.yw = mo.fitRegionalFlow env.la a.obs t.xw t.yw) : endlessDeterministic { a with obs := obs' } env = endlessDeterministic a env := by
  unfold endlessDeterministic
  show (match getWell a.wells a.target with | _ => _) = _
  cases hg : getWell a.wells a.target with
  | error e => rfl
  | ok t =>
    simp only
    cases PField.new a.spacing a.spacing (some t.xw) (some t.yw) with
    | error e => rfl
    | ok f =>
      simp only
      rw [endlessRealization_obs (h t hg)]

theorem drawn_wells {t : SWell} (ht : getWell a.wells a.target = .ok t) {q : Dist → ℕ → Except PyErr ℝ} {mo : Aquifer ℝ} (h : drawModel a q = .ok mo) : mo.wells ≠ [] := by
  have h1 := (drawModel_iff.mp h).wells_length
  intro h2
  rw [h2] at h1
  have : a.wells = [] := List.length_eq_zero_iff.mp (by simpa using h1.symm)
  rw [this] at ht
  unfold getWell at ht
  revert ht
  split_ifs <;> simp

theorem runs_perm {env : Env} (h1 : env.la.Correct) (h2 : env.la.Converges) (h3 : env.la.Strict) (h : a.obs.Perm obs') (n : ℤ) :
    createStochastic { a with obs := obs' } n env = createStochastic a n env ∧ createDeterministic { a with obs := obs' } env = createDeterministic a env ∧
    endlessStochastic { a with obs := obs' } n env = endlessStochastic a n env ∧ endlessDeterministic { a with obs := obs' } env = endlessDeterministic a env :=
  ⟨stochastic_obs fun _ ht _ _ hm => fit_perm h1 h2 h3 (drawn_wells ht hm) h, deterministic_obs fun _ ht _ hm => fit_perm h1 h2 h3 (drawn_wells ht hm) h,
    endlessStochastic_obs fun _ ht _ _ hm => fit_perm h1 h2 h3 (drawn_wells ht hm) h, endlessDeterministic_obs fun _ ht _ hm => fit_perm h1 h2 h3 (drawn_wells ht hm) h⟩

end

/-! ## Filtering -/

theorem obs_dist_comm (o p : Obs) : o.dist p.x p.y = p.dist o.x o.y := by
  unfold Obs.dist
  congr 1
  ring

theorem Apart.perm {l l' : List Obs} (h : Apart l) (hp : l.Perm l') : Apart l' :=
  (hp.pairwise_iff (R := fun o p : Obs => 1 ≤ o.dist p.x p.y) fun {o p} (h : 1 ≤ o.dist p.x p.y) => by rwa [obs_dist_comm]).mp h

theorem Apart.chain {l : List Obs} (h : Apart l) : l.IsChain (fun a b => 1 ≤ a.dist b.x b.y) := List.Pairwise.isChain h

theorem farFrom_eq (b : ℝ) (ws : List (ℝ × ℝ)) (l : List Obs) : removeNear b ws l = farFrom b ws l := removeNear_eq b ws l

theorem filter_apart {b : ℝ} {ws : List (ℝ × ℝ)} {l : List Obs} (h : Apart (farFrom b ws l)) : filterObs l ws b = .ok (farFrom b ws l) := by
  unfold filterObs
  rw [farFrom_eq]
  exact mergeRuns_chain _ h.chain

theorem farFrom_perm {b : ℝ} {ws : List (ℝ × ℝ)} {l l' : List Obs} (h : l.Perm l') : (farFrom b ws l).Perm (farFrom b ws l') := h.filter _

theorem removeLog_perm {b : ℝ} {ws : List (ℝ × ℝ)} {l l' : List Obs} (h : l.Perm l') : (removeLog b ws l).Perm (removeLog b ws l') := by
  have key : ∀ l : List Obs, removeLog b ws l = l.filterMap fun o => (nearWell b o ws).map (.removed o) := by
    intro l
    induction l with
    | nil => rfl
    | cons o l ih =>
      unfold removeLog
      cases h : nearWell b o ws <;> simp [h, ih]
  rw [key, key]
  exact h.filterMap _

theorem mergeLog_apart {l : List Obs} (h : Apart l) : mergeLog l = [] := by
  induction l with
  | nil => rw [mergeLog]
  | cons o l ih =>
    obtain ⟨h1, h2⟩ := List.pairwise_cons.mp h
    have ht : l.takeWhile (fun p => decide (hypot (o.x - p.x) (o.y - p.y) < 1)) = [] := by
      cases l with
      | nil => rfl
      | cons p l =>
        rw [List.takeWhile_cons_of_neg]
        have := h1 p (by simp)
        simpa [hypot_dist] using this
    have hd : l.dropWhile (fun p => decide (hypot (o.x - p.x) (o.y - p.y) < 1)) = l := by
      have := List.takeWhile_append_dropWhile (p := fun p : Obs => decide (hypot (o.x - p.x) (o.y - p.y) < 1)) (l := l)
      rwa [ht, List.nil_append] at this
    rw [mergeLog, ht, hd]
    simp only [mergeGroup, groupLog, if_true, ih h2, List.append_nil]

theorem activeLog_length (i : ℕ) (l : List Obs) : (activeLog i l).length = l.length := by
  induction l generalizing i with
  | nil => rfl
  | cons o l ih => simp [activeLog, ih]

/-! ## The summary -/

theorem pyMin_perm {l l' : List ℝ} (h : l.Perm l') : pyMin l = pyMin l' := by
  have key : ∀ l : List ℝ, pyMin l = l.min? := by
    intro l
    cases l with
    | nil => rfl
    | cons x l =>
      rw [List.min?_cons']
      unfold pyMin
      have : (fun m b : ℝ => if b < m then b else m) = min := by
        funext m b
        rw [min_def]
        split_ifs <;> linarith
      rw [this]
  rw [key, key]
  cases h1 : l.min? with
  | none =>
    rw [List.min?_eq_none_iff] at h1
    subst h1
    rw [List.nil_perm.mp h]
    rfl
  | some x =>
    rw [List.min?_eq_some_iff] at h1
    exact ((List.min?_eq_some_iff).mpr ⟨h.mem_iff.mp h1.1, fun b hb => h1.2 b (h.mem_iff.mpr hb)⟩).symm

theorem pyMax_perm {l l' : List ℝ} (h : l.Perm l') : pyMax l = pyMax l' := by
  have key : ∀ l : List ℝ, pyMax l = l.max? := by
    intro l
    cases l with
    | nil => rfl
    | cons x l =>
      rw [List.max?_cons']
      unfold pyMax
      have : (fun m b : ℝ => if m < b then b else m) = max := by
        funext m b
        rw [max_def]
        split_ifs <;> linarith
      rw [this]
  rw [key, key]
  cases h1 : l.max? with
  | none =>
    rw [List.max?_eq_none_iff] at h1
    subst h1
    rw [List.nil_perm.mp h]
    rfl
  | some x =>
    rw [List.max?_eq_some_iff] at h1
    exact ((List.max?_eq_some_iff).mpr ⟨h.mem_iff.mp h1.1, fun b hb => h1.2 b (h.mem_iff.mpr hb)⟩).symm

theorem npMean_perm {l l' : List ℝ} (h : l.Perm l') : npMean l = npMean l' := by
  unfold npMean
  rw [h.sum_eq, h.length_eq]

theorem npStd_perm {l l' : List ℝ} (h : l.Perm l') : npStd l = npStd l' := by
  unfold npStd
  rw [npMean_perm h, npMean_perm (h.map _)]

theorem npMedian_perm {l l' : List ℝ} (h : l.Perm l') : npMedian l = npMedian l' := by
  have hs : ∀ l : List ℝ, (l.mergeSort (fun a b => decide (a ≤ b))).Pairwise (· ≤ ·) := fun l => by
    have := List.pairwise_mergeSort (le := fun a b : ℝ => decide (a ≤ b)) (fun a b c h1 h2 => by simp only [decide_eq_true_eq] at *; linarith)
      (fun a b => by simp only [Bool.or_eq_true, decide_eq_true_eq]; exact le_total a b) l
    exact this.imp fun h => by simpa using h
  have e : l.mergeSort (fun a b => decide (a ≤ b)) = l'.mergeSort (fun a b => decide (a ≤ b)) := by
    refine List.Perm.eq_of_pairwise (fun a b _ _ h1 h2 => le_antisymm h1 h2) (hs l) (hs l') ?_
    exact (List.mergeSort_perm l _).trans (h.trans (List.mergeSort_perm l' _).symm)
  unfold npMedian
  simp only
  rw [e, h.length_eq]

theorem columnStats_perm {l l' : List (Option ℝ)} (h : l.Perm l') : columnStats l = columnStats l' := by
  have h' : (l.filterMap id).Perm (l'.filterMap id) := h.filterMap id
  unfold columnStats
  simp only
  rw [pyMin_perm h', pyMax_perm h', npMedian_perm h', npMean_perm h', npStd_perm h', h'.length_eq]

theorem column_obs (l : List Obs) {j : ℕ} (hj : j < 4) : getColumn j (obsTable l) = .ok (l.map fun o => [some o.x, some o.y, some o.z, some o.std].getD j none) := by
  induction l with
  | nil => rfl
  | cons o l ih =>
    unfold obsTable at ih ⊢
    simp only [List.map_cons, getColumn, ih]
    interval_cases j <;> rfl

theorem statsLoop_perm {l l' : List Obs} (h : l.Perm l') (n : ℕ) : ∀ j, n + j ≤ 4 → statsLoop (obsTable l) n j = statsLoop (obsTable l') n j := by
  induction n with
  | zero => intro j _; rfl
  | succ n ih =>
    intro j hj
    unfold statsLoop
    rw [column_obs l (by omega), column_obs l' (by omega), ih (j + 1) (by omega)]
    simp only
    rw [columnStats_perm (h.map _)]

theorem summary_perm {l l' : List Obs} (h : l.Perm l') : summaryStatistics (obsTable l) = summaryStatistics (obsTable l') := by
  unfold summaryStatistics
  cases l with
  | nil => rw [List.nil_perm.mp h]
  | cons o l =>
    cases l' with
    | nil => exact absurd h.symm (List.not_perm_nil_cons _ _)
    | cons o' l' =>
      show statsLoop _ 4 0 = statsLoop _ 4 0
      exact statsLoop_perm h 4 0 le_rfl

/-! ## Figures -/

theorem markers_obs {l l' : List Obs} (h : l.Perm l') (k : ℤ) (ws : List SWell) : ExceptSame Markers.SameButObsOrder (markers k ws l) (markers k ws l') := by
  unfold markers
  cases getWell ws k with
  | error e => exact rfl
  | ok w => exact ⟨rfl, rfl, h.map _⟩

theorem probabilityPlot_obs {l l' : List Obs} (h : l.Perm l') (k : ℤ) (ws : List SWell) (g : Grid ℝ → ℝ → Grid ℝ) (f : PField ℝ) (sm : ℝ) :
    ExceptSame (fun p p' => Figure.SameButObsOrder (.probability p) (.probability p')) (createProbabilityPlot g k ws l f sm) (createProbabilityPlot g k ws l' f sm) := by
  unfold createProbabilityPlot
  cases f.body with
  | none => exact rfl
  | some b =>
    simp only []
    split_ifs
    · exact rfl
    all_goals
      have hm := markers_obs h k ws
      revert hm
      generalize markers k ws l = x
      generalize markers k ws l' = x'
      intro hm
      match x, x', hm with
      | .error e, .error _, rfl => exact rfl
      | .ok m, .ok m', hm => exact .probability _ _ _ _ _ hm

theorem deterministicPlot_obs {l l' : List Obs} (h : l.Perm l') (k : ℤ) (ws : List SWell) (f : PField ℝ) :
    ExceptSame (fun p p' => p'.area = p.area ∧ Figure.SameButObsOrder (.deterministic p) (.deterministic p')) (createDeterministicPlot k ws l f) (createDeterministicPlot k ws l' f) := by
  unfold createDeterministicPlot
  cases f.body with
  | none => exact rfl
  | some b =>
    simp only []
    split_ifs
    · exact rfl
    · have hm := markers_obs h k ws
      revert hm
      generalize markers k ws l = x
      generalize markers k ws l' = x'
      intro hm
      match x, x', hm with
      | .error e, .error _, rfl =>
        repeat' split
        all_goals first | exact rfl | simp_all [ExceptSame]
      | .ok m, .ok m', hm =>
        generalize (linspace b.xmin b.xmax f.ncols)[1]? = x1
        generalize (linspace b.xmin b.xmax f.ncols)[0]? = x0
        generalize (linspace b.ymin b.ymax f.nrows)[1]? = y1
        generalize (linspace b.ymin b.ymax f.nrows)[0]? = y0
        match x1, x0, y1, y0 with
        | some x1, some x0, some y1, some y0 =>
          simp only []
          cases areaRows (normalized b) (x1 - x0) (y1 - y0) (enumerate (linspace b.xmin b.xmax f.ncols)) (enumerate (linspace b.ymin b.ymax f.nrows)) ([], 0) with
          | error e => exact rfl
          | ok r => exact ⟨rfl, .deterministic _ _ _ _ hm⟩
        | none, _, _, _ => exact rfl
        | some _, none, _, _ => exact rfl
        | some _, some _, none, _ => exact rfl
        | some _, some _, some _, none => exact rfl

/-! ## The computation -/

/-- effects that differ at most in the order of the observations -/
inductive EffectObs : Effect → Effect → Prop
  | same (e : Effect) : EffectObs e e
  | filter (l l' : FilterLine) : EffectObs (.log (.filter l)) (.log (.filter l'))
  | figure (f f' : Figure) : f.SameButObsOrder f' → EffectObs (.figure f) (.figure f')

/-- computations with related effects and results -/
structure ProgObs {α β : Type} (R : α → β → Prop) (p : Prog α) (p' : Prog β) : Prop where
  events : List.Forall₂ EffectObs p.events p'.events
  ending : EndingSame R p.ending p'.ending

theorem obs_bind {α α' β β' : Type} {R : α → α' → Prop} {S : β → β' → Prop} {p : Prog α} {p' : Prog α'} {k : α → Prog β} {k' : α' → Prog β'} (hp : ProgObs R p p')
    (hk : ∀ x x', R x x' → ProgObs S (k x) (k' x')) : ProgObs S (p >>= k) (p' >>= k') := by
  obtain ⟨ev, en⟩ := p
  obtain ⟨ev', en'⟩ := p'
  obtain ⟨he, hr⟩ := hp
  match en, en', hr with
  | .returns x, .returns x', hx => exact ⟨List.rel_append he (hk x x' hx).events, (hk x x' hx).ending⟩
  | .raises e, .raises _, rfl => exact ⟨he, rfl⟩
  | .diverges, .diverges, _ => exact ⟨he, trivial⟩

theorem obs_lift {α α' : Type} {R : α → α' → Prop} {x : Except PyErr α} {x' : Except PyErr α'} (h : ExceptSame R x x') : ProgObs R (Prog.lift x) (Prog.lift x') := by
  match x, x', h with
  | .error e, .error _, rfl => exact ⟨.nil, rfl⟩
  | .ok x, .ok y, h => exact ⟨.nil, h⟩

theorem obs_refl {α : Type} (p : Prog α) : ProgObs (fun x y => y = x) p p := by
  refine ⟨List.forall₂_same.mpr fun x _ => .same x, ?_⟩
  cases p.ending <;> first | exact rfl | trivial

theorem filterLog_length {b : ℝ} {ws : List (ℝ × ℝ)} {l l' : List Obs} (h : l.Perm l') (ha : Apart (farFrom b ws l)) : (filterLog l ws b).length = (filterLog l' ws b).length := by
  have hp := farFrom_perm (b := b) (ws := ws) h
  unfold filterLog
  rw [filter_apart ha, filter_apart (ha.perm hp), farFrom_eq, farFrom_eq, mergeLog_apart ha, mergeLog_apart (ha.perm hp)]
  simp only [List.length_append, activeLog_length, (removeLog_perm (b := b) (ws := ws) h).length_eq, hp.length_eq, List.length_cons, List.length_nil]

theorem compute_obs {n : Inputs} {obs : List Obs} (h : n.run.obs.Perm obs) (ha : Apart (farFrom n.buffer (n.run.wells.map fun w => (w.xw, w.yw)) n.run.obs)) {env : CallEnv}
    (h1 : env.run.la.Correct) (h2 : env.run.la.Converges) (h3 : env.run.la.Strict) : ProgObs (fun x y => y = x) (compute n env) (compute (n.withObs obs) env) := by
  have hp := farFrom_perm (b := n.buffer) (ws := n.run.wells.map fun w => (w.xw, w.yw)) h
  unfold compute
  refine obs_bind (R := fun _ _ => True) ⟨?_, trivial⟩ fun _ _ _ => ?_
  · show List.Forall₂ EffectObs (((filterLog n.run.obs (n.run.wells.map fun w : SWell => (w.xw, w.yw)) n.buffer).map LogLine.filter).map Effect.log)
      (((filterLog obs (n.run.wells.map fun w : SWell => (w.xw, w.yw)) n.buffer).map LogLine.filter).map Effect.log)
    rw [List.map_map, List.map_map, List.forall₂_map_left_iff, List.forall₂_map_right_iff]
    have hl := filterLog_length h ha
    generalize filterLog n.run.obs (n.run.wells.map fun w : SWell => (w.xw, w.yw)) n.buffer = x at hl
    generalize filterLog obs (n.run.wells.map fun w : SWell => (w.xw, w.yw)) n.buffer = x' at hl
    induction x generalizing x' with
    | nil =>
      rw [List.length_eq_zero_iff.mp hl.symm]
      exact .nil
    | cons e x ih =>
      cases x' with
      | nil => cases hl
      | cons e' x' => exact .cons (.filter _ _) (ih x' (by simpa using hl))
  refine obs_bind (R := List.Perm) (obs_lift ?_) fun l l' hl => ?_
  · show ExceptSame List.Perm (filterObs n.run.obs (n.run.wells.map fun w : SWell => (w.xw, w.yw)) n.buffer) (filterObs obs (n.run.wells.map fun w : SWell => (w.xw, w.yw)) n.buffer)
    rw [filter_apart ha, filter_apart (ha.perm hp)]
    exact hp
  rw [hl.length_eq]
  refine obs_bind (obs_refl _) fun _ _ _ => ?_
  rw [show (l.map fun o : Obs => [some o.x, some o.y, some o.z, some o.std]) = obsTable l from rfl, show (l'.map fun o : Obs => [some o.x, some o.y, some o.z, some o.std]) = obsTable l' from rfl, summary_perm hl]
  refine obs_bind (obs_refl _) fun _ cols e => ?_
  subst e
  refine obs_bind (obs_refl _) fun _ _ _ => ?_
  refine obs_bind (obs_refl _) fun _ _ _ => ?_
  obtain ⟨r1, r2, r3, r4⟩ := runs_perm (a := { n.run with obs := l }) h1 h2 h3 hl n.nrealizations
  show ProgObs _ (if 1 < n.nrealizations then _ else _) (if 1 < n.nrealizations then _ else _)
  split_ifs with hr
  · refine obs_bind (R := fun x y => y = x) ?_ fun _ f e => ?_
    · show ProgObs _ _ (runProg (endlessStochastic { n.run with obs := l' } n.nrealizations env.run) (createStochastic { n.run with obs := l' } n.nrealizations env.run))
      rw [show createStochastic { n.run with obs := l' } n.nrealizations env.run = _ from r1, show endlessStochastic { n.run with obs := l' } n.nrealizations env.run = _ from r3]
      exact obs_refl _
    subst e
    refine obs_bind (obs_lift (probabilityPlot_obs hl n.run.target n.run.wells env.gaussian f n.smooth)) fun p p' hpp => ?_
    refine obs_bind (R := fun _ _ => True) ⟨.cons (.figure _ _ hpp) .nil, trivial⟩ fun _ _ _ => ?_
    exact obs_refl _
  · refine obs_bind (R := fun x y => y = x) ?_ fun _ f e => ?_
    · show ProgObs _ _ (runProg (endlessDeterministic { n.run with obs := l' } env.run) (createDeterministic { n.run with obs := l' } env.run))
      rw [show createDeterministic { n.run with obs := l' } env.run = _ from r2, show endlessDeterministic { n.run with obs := l' } env.run = _ from r4]
      exact obs_refl _
    subst e
    refine obs_bind (obs_lift (deterministicPlot_obs hl n.run.target n.run.wells f)) fun p p' hpp => ?_
    refine obs_bind (R := fun _ _ => True) ⟨.cons (.figure _ _ hpp.2) .nil, trivial⟩ fun _ _ _ => ?_
    rw [hpp.1]
    exact obs_refl _

/-! ## Covered observations -/

theorem mean_range {d : Dist} {lo hi x : ℝ} (h : IsDist d.toPy lo hi) (hx : d.mean = .ok x) : lo ≤ x ∧ x ≤ hi := by
  obtain ⟨v, μ, h1, h2, h3, h4, -⟩ := C42_mean h
  unfold Dist.mean at hx
  rw [h1] at hx
  rw [asReal_num h2 hx]
  exact ⟨h3, h4⟩

theorem covered_model {a : RunArgs} {l : List Obs} (h : a.Covered l) {q : Dist → ℕ → Except PyErr ℝ} (hq : ∀ d j lo hi x, IsDist d.toPy lo hi → q d j = .ok x → lo ≤ x ∧ x ≤ hi) {m : Aquifer ℝ}
    (hm : drawModel a q = .ok m) : 0 < m.conductivity ∧ 0 < m.thickness ∧ m.Usable l ∧ ∀ o ∈ l, m.Confines o := by
  obtain ⟨clo, chi, tlo, thi, hc, hc0, ht, ht0, ho⟩ := h
  have hd := drawModel_iff.mp hm
  obtain ⟨c1, c2⟩ := hq _ _ _ _ _ hc hd.conductivity
  obtain ⟨t1, t2⟩ := hq _ _ _ _ _ ht hd.thickness
  have hT : 0 < m.thickness := by linarith
  refine ⟨by linarith, hT, fun o hmem => ?_, fun o hmem => ?_⟩
  · obtain ⟨o1, o2, o3⟩ := ho o hmem
    refine ⟨by rw [hd.base]; linarith, o2, fun w hw e => ?_⟩
    obtain ⟨j, hj, rfl⟩ := List.mem_iff_getElem.mp hw
    have hja : j < a.wells.length := by rw [← hd.wells_length]; exact hj
    obtain ⟨d, e1, -⟩ := hd.wells j a.wells[j] (List.getElem?_eq_getElem hja)
    rw [List.getElem?_eq_getElem hj] at e1
    have e2 := Option.some.inj e1
    rw [e2] at e
    exact o3 _ (List.getElem_mem hja) e
  · obtain ⟨o1, -⟩ := ho o hmem
    unfold Confines
    rw [hd.base]
    linarith

theorem blur_map_ne {c : ℝ} {l : List Obs} : l.map (Obs.blur c) = [] ↔ l = [] := List.map_eq_nil_iff

theorem accumulate_blur {c : ℝ} (hc : 0 < c) (l : List Obs) (num den : ℝ) :
    accumulate (l.map (Obs.blur c)) (num / c ^ 2) (den / c ^ 2) = (accumulate l num den).map fun r => (r.1 / c ^ 2, r.2 / c ^ 2) := by
  induction l generalizing num den with
  | nil => rfl
  | cons o l ih =>
    have e : (o.blur c).std = c * o.std := rfl
    have ez : (o.blur c).z = o.z := rfl
    simp only [List.map_cons, accumulate, e, ez]
    by_cases h0 : o.std ^ 2 = 0
    · rw [if_pos h0, if_pos (by rw [mul_pow, h0, mul_zero])]
      rfl
    · have h0' : o.std ≠ 0 := fun h => h0 (by rw [h]; ring)
      rw [if_neg h0, if_neg (by rw [mul_pow]; exact mul_ne_zero (by positivity) h0), ← ih]
      congr 1 <;> field_simp

theorem mergeGroup_blur {c : ℝ} (hc : 0 < c) (o : Obs) (l : List Obs) : mergeGroup (o.blur c) (l.map (Obs.blur c)) = (mergeGroup o l).map (Obs.blur c) := by
  unfold mergeGroup
  have e := accumulate_blur hc (o :: l) 0 0
  rw [zero_div, List.map_cons] at e
  rw [e]
  by_cases h : l = []
  · subst h
    simp [Except.map]
  · rw [if_neg h, if_neg (fun h' => h (blur_map_ne.mp h'))]
    cases hr : accumulate (o :: l) 0 0 with
    | error e => rfl
    | ok r =>
      simp only [Except.map, Obs.blur]
      congr 2
      · field_simp
      · rw [show (1 / (r.2 / c ^ 2)) = c ^ 2 * (1 / r.2) by field_simp, Real.sqrt_mul (by positivity), Real.sqrt_sq hc.le]

theorem mergeRuns_blur {c : ℝ} (hc : 0 < c) : ∀ (n : ℕ) (l : List Obs), l.length ≤ n → mergeRuns (l.map (Obs.blur c)) = (mergeRuns l).map (List.map (Obs.blur c))
  | _, [], _ => by simp [mergeRuns, Except.map]
  | 0, _ :: _, h => by simp at h
  | n + 1, o :: l, hn => by
    have close : (fun p : Obs => decide (hypot ((o.blur c).x - p.x) ((o.blur c).y - p.y) < 1)) ∘ Obs.blur c = fun p => decide (hypot (o.x - p.x) (o.y - p.y) < 1) := rfl
    rw [List.map_cons, mergeRuns, mergeRuns, List.takeWhile_map, List.dropWhile_map, close, mergeGroup_blur hc]
    have hl : (l.dropWhile fun p => decide (hypot (o.x - p.x) (o.y - p.y) < 1)).length ≤ n :=
      ((List.dropWhile_suffix _).length_le).trans (Nat.le_of_succ_le_succ hn)
    rw [mergeRuns_blur hc n _ hl]
    cases mergeGroup o (l.takeWhile fun p => decide (hypot (o.x - p.x) (o.y - p.y) < 1)) with
    | error e => rfl
    | ok r =>
      simp only [Except.map]
      cases mergeRuns (l.dropWhile fun p => decide (hypot (o.x - p.x) (o.y - p.y) < 1)) <;> rfl

theorem farFrom_blur (c b : ℝ) (ws : List (ℝ × ℝ)) (l : List Obs) : farFrom b ws (l.map (Obs.blur c)) = (farFrom b ws l).map (Obs.blur c) := by
  unfold farFrom
  rw [List.filter_map]
  rfl

theorem filterObs_blur {c : ℝ} (hc : 0 < c) (l : List Obs) (ws : List (ℝ × ℝ)) (b : ℝ) : filterObs (l.map (Obs.blur c)) ws b = (filterObs l ws b).map (List.map (Obs.blur c)) := by
  unfold filterObs
  rw [farFrom_eq, farFrom_eq, farFrom_blur, mergeRuns_blur hc _ _ le_rfl]

theorem realize_blur {a : RunArgs} {la : LinAlg} {t : SWell} {q : Dist → ℕ → Except PyErr ℝ} {coefs : (Fin 6 → ℝ) → Matrix (Fin 6) (Fin 6) ℝ → Except PyErr (Fin 6 → ℝ)} {rc : (Fin 6 → ℝ) → ℝ}
    {int : ℕ → ℕ → Option PyErr} {f : PField ℝ} {c : ℝ} {obs' : List Obs} (hcf : ∀ ev S, coefs ev (c ^ 2 • S) = coefs ev S)
    (h : ∀ mo, drawModel a q = .ok mo → mo.fitRegionalFlow la obs' t.xw t.yw = ((mo.fitRegionalFlow la a.obs t.xw t.yw).1, (mo.fitRegionalFlow la a.obs t.xw t.yw).2.map fun r => (r.1, c ^ 2 • r.2))) :
    realize { a with obs := obs' } la t q coefs rc int f = (realize a la t q coefs rc int f).map fun r => (r.1, r.2.map (RealizationLog.blur c)) := by
  unfold realize
  rw [show drawModel { a with obs := obs' } q = drawModel a q from rfl]
  cases hd : drawModel a q with
  | error e => rfl
  | ok mo =>
    simp only
    rw [h mo hd]
    rcases mo.fitRegionalFlow la a.obs t.xw t.yw with ⟨mo', e | ⟨ev, S⟩⟩
    · rfl
    · simp only [Except.map, hcf]
      cases coefs ev S with
      | error e => rfl
      | ok k =>
        simp only
        cases computeCapturezone t.xw t.yw t.rw a.npaths a.duration f a.umbra 1 a.tol a.maxstep (runVelocity { mo' with coef := k } a.confined int) <;> rfl

theorem deterministic_blur {a : RunArgs} {env : Env} {c : ℝ} {obs' : List Obs}
    (h : ∀ t, getWell a.wells a.target = .ok t → ∀ mo, drawModel a (fun d _ => d.mean) = .ok mo →
      mo.fitRegionalFlow env.la obs' t.xw t.yw = ((mo.fitRegionalFlow env.la a.obs t.xw t.yw).1, (mo.fitRegionalFlow env.la a.obs t.xw t.yw).2.map fun r => (r.1, c ^ 2 • r.2))) :
    createDeterministic { a with obs := obs' } env = (createDeterministic a env).map fun r => ⟨r.outcome, r.log.map (RealizationLog.blur c)⟩ := by
  unfold createDeterministic
  show (match getWell a.wells a.target with | _ => _) = _
  cases hg : getWell a.wells a.target with
  | error e => rfl
  | ok t =>
    simp only
    cases PField.new a.spacing a.spacing (some t.xw) (some t.yw) with
    | error e => rfl
    | ok f =>
      simp only
      rw [realize_blur (fun _ _ => rfl) (h t hg)]
      rcases realize a env.la t (fun d _ => d.mean) (fun ev _ => .ok ev) (fun c => -2 * (c 0 + c 1)) (env.interrupt 0) f with _ | ⟨o, l⟩ <;> rfl

theorem collect_obs_rel {β : Type} {R : β → β → Prop} {φ : Effect → Option β} {l l' : List Effect} (h : List.Forall₂ EffectObs l l') (hφ : ∀ e e', EffectObs e e' → Option.Rel R (φ e) (φ e')) :
    List.Forall₂ R (l.filterMap φ) (l'.filterMap φ) := by
  induction h with
  | nil => exact .nil
  | @cons e e' l l' he _ ih =>
    have := hφ e e' he
    simp only [List.filterMap_cons]
    revert this
    generalize φ e = x
    generalize φ e' = x'
    intro this
    cases this with
    | none => exact ih
    | some h => exact .cons h ih

theorem collect_obs {β : Type} {φ : Effect → Option β} {l l' : List Effect} (h : List.Forall₂ EffectObs l l') (hφ : ∀ e e', EffectObs e e' → φ e' = φ e) : l'.filterMap φ = l.filterMap φ := by
  induction h with
  | nil => rfl
  | cons he _ ih => simp only [List.filterMap_cons, hφ _ _ he, ih]

/-- if the fits agree and one succeeds, the two systems have the same matrix -/
theorem fit_gram {m : Aquifer ℝ} {la : LinAlg} (h1 : la.Correct) (h2 : la.Converges) (h3 : la.Strict) {xo yo : ℝ} {l l' : List Obs} {s s' : Matrix (Fin 6) (Fin 6) ℝ × (Fin 6 → ℝ)}
    (e : m.fitSys xo yo l = some s) (e' : m.fitSys xo yo l' = some s') {r r' : (Fin 6 → ℝ) × Matrix (Fin 6) (Fin 6) ℝ} (hr : (m.fitRegionalFlow la l xo yo).2 = .ok r)
    (hr' : (m.fitRegionalFlow la l' xo yo).2 = .ok r') (hrr : r'.2 = r.2) : s.1 = s'.1 := by
  have a := fit_determined h1 h2 h3 m xo yo l
  have b := fit_determined h1 h2 h3 m xo yo l'
  rw [hr, e] at a
  rw [hr', e'] at b
  simp only [Except.toOption, Option.bind_some] at a b
  split_ifs at a b with d d'
  have a' := congrArg Prod.snd (Option.some.inj a)
  have b' := congrArg Prod.snd (Option.some.inj b)
  simp only at a' b'
  have : s.1⁻¹ = s'.1⁻¹ := by rw [← a', ← b', hrr]
  rw [← Matrix.nonsing_inv_nonsing_inv s.1 (isUnit_iff_ne_zero.mpr d), this, Matrix.nonsing_inv_nonsing_inv s'.1 (isUnit_iff_ne_zero.mpr d')]

theorem mergeRuns_far {o p : Obs} {l r : List Obs} (h : 1 ≤ (o.x - p.x) ^ 2 + (o.y - p.y) ^ 2) (hr : mergeRuns (p :: l) = .ok r) : mergeRuns (o :: p :: l) = .ok (o :: r) := by
  have hn : ¬ hypot (o.x - p.x) (o.y - p.y) < 1 := by
    unfold hypot
    rw [not_lt, Real.le_sqrt' one_pos]
    nlinarith
  rw [mergeRuns, List.takeWhile_cons_of_neg (by simpa using hn), List.dropWhile_cons_of_neg (by simpa using hn), hr]
  simp [mergeGroup]

theorem mergeRuns_two {o p : Obs} (h : p.x = o.x ∧ p.y = o.y) (ho : o.std ≠ 0) (hp : p.std ≠ 0) :
    mergeRuns [o, p] = .ok [⟨o.x, o.y, (o.z / o.std ^ 2 + p.z / p.std ^ 2) / (1 / o.std ^ 2 + 1 / p.std ^ 2), Real.sqrt (1 / (1 / o.std ^ 2 + 1 / p.std ^ 2))⟩] := by
  have hn : hypot (o.x - p.x) (o.y - p.y) < 1 := by simp [hypot, h.1, h.2]
  rw [mergeRuns, List.takeWhile_cons_of_pos (by simpa using hn), List.dropWhile_cons_of_pos (by simpa using hn), List.takeWhile_nil, List.dropWhile_nil, mergeRuns]
  simp [mergeGroup, accumulate, ho, hp]

end Oneka
