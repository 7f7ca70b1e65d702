import Verif.Lemmas.Order
import Verif.Lemmas.ShiftCall

/-!
# Runs with the wells in another order
-/

namespace Oneka

/-- both raise the same exception, or both return and the results are related -/
def ExceptSame {α β : Type} (R : α → β → Prop) : Except PyErr α → Except PyErr β → Prop
  | .error e, .error e' => e' = e
  | .ok x, .ok y => R x y
  | _, _ => False

theorem getWell_reorder {σ : Equiv.Perm ℕ} {ws ws' : List SWell} (h : Reorders σ ws ws') {k k' : ℕ} (hk : σ k' = k) : getWell ws' (k' : ℤ) = getWell ws (k : ℤ) := by
  unfold getWell
  have e : ¬ ((k : ℤ) < 0) := by omega
  have e' : ¬ ((k' : ℤ) < 0) := by omega
  simp only [if_neg e, if_neg e', Int.toNat_natCast]
  rw [h.at_, hk]

section
variable {σ : Equiv.Perm ℕ} {a : RunArgs} {ws : List SWell} {t : ℤ} (h : Reorders σ a.wells ws)
include h

theorem drawModel_reorder {q : Dist → ℕ → Except PyErr ℝ} (hq : ∀ w ∈ a.wells, ∀ j e, q w.q j = .error e → e = .valueError) :
    ExceptSame Aquifer.SameButOrder (drawModel a q) (drawModel { a with wells := ws, target := t } fun d j => q d (σ j)) := by
  unfold drawModel
  have e0 := h.beyond a.wells.length le_rfl
  have e1 := h.beyond (a.wells.length + 1) (by omega)
  have e2 := h.beyond (a.wells.length + 2) (by omega)
  simp only [drawWells_pairs, h.length, e0, e1, e2, drawPairs_map]
  rcases drawPairs_perm (q := q) (e0 := .valueError) h.zip_perm (fun p hp e he => hq p.1 (by
    obtain ⟨w, j⟩ := p
    exact List.mem_of_getElem? (List.mem_zipIdx_iff_getElem?.mp hp)) p.2 e he) with ⟨h1, h2⟩ | ⟨r, r', h1, h2, h3⟩
  · rw [h1, h2]
    exact rfl
  · rw [h1, h2]
    simp only []
    cases q a.cDist a.wells.length with
    | error e => exact rfl
    | ok c =>
      simp only []
      cases q a.pDist (a.wells.length + 1) with
      | error e => exact rfl
      | ok p =>
        simp only []
        cases q a.tDist (a.wells.length + 2) with
        | error e => exact rfl
        | ok th => exact ⟨rfl, rfl, rfl, rfl, h3, rfl, rfl, rfl⟩

theorem realize_reorder {q : Dist → ℕ → Except PyErr ℝ} (hq : ∀ w ∈ a.wells, ∀ j e, q w.q j = .error e → e = .valueError) (la : LinAlg) (w : SWell)
    (coefs : (Fin 6 → ℝ) → Matrix (Fin 6) (Fin 6) ℝ → Except PyErr (Fin 6 → ℝ)) (rc : (Fin 6 → ℝ) → ℝ) (int : ℕ → ℕ → Option PyErr) (f : PField ℝ) :
    Option.Rel (fun r r' => r'.1 = r.1 ∧ List.Forall₂ RealizationLog.SameButOrder r.2 r'.2) (realize a la w q coefs rc int f)
      (realize { a with wells := ws, target := t } la w (fun d j => q d (σ j)) coefs rc int f) ∧
    List.Forall₂ RealizationLog.SameButOrder (endlessRealization a la w q coefs rc int f) (endlessRealization { a with wells := ws, target := t } la w (fun d j => q d (σ j)) coefs rc int f) := by
  have hd := drawModel_reorder (t := t) h hq
  unfold realize endlessRealization
  revert hd
  generalize drawModel a q = x
  generalize drawModel { a with wells := ws, target := t } (fun d j => q d (σ j)) = x'
  intro hd
  match x, x', hd with
  | .error e, .error _, rfl => exact ⟨.some ⟨rfl, .nil⟩, .nil⟩
  | .ok m, .ok m', hm =>
    simp only []
    obtain ⟨e1, e2⟩ := fit_reorder hm la a.obs w.xw w.yw
    revert e1 e2
    generalize m.fitRegionalFlow la a.obs w.xw w.yw = y
    generalize m'.fitRegionalFlow la a.obs w.xw w.yw = y'
    intro e1 e2
    obtain ⟨n, o⟩ := y
    obtain ⟨n', o'⟩ := y'
    simp only at e1 e2
    subst e1
    cases o' with
    | error e => exact ⟨.some ⟨rfl, .nil⟩, .nil⟩
    | ok r =>
      obtain ⟨ev, cov⟩ := r
      simp only []
      cases coefs ev cov with
      | error e => exact ⟨.some ⟨rfl, .nil⟩, .nil⟩
      | ok c =>
        have hs : Aquifer.SameButOrder { n with coef := c } { n' with coef := c } := ⟨e2.base, e2.conductivity, e2.porosity, e2.thickness, e2.wells, e2.xo, e2.yo, rfl⟩
        have hv := runVelocity_reorder hs a.confined int
        simp only [hv]
        refine ⟨?_, .cons ⟨hs, rfl, rfl, rfl, rfl⟩ .nil⟩
        cases computeCapturezone w.xw w.yw w.rw a.npaths a.duration f a.umbra 1 a.tol a.maxstep (runVelocity { n with coef := c } a.confined int) with
        | none => exact .none
        | some r => exact .some ⟨rfl, .cons ⟨hs, rfl, rfl, rfl, rfl⟩ .nil⟩

theorem stochasticLoop_reorder {env : Env} (hu : ∀ i j, 0 ≤ env.u i j ∧ env.u i j < 1) (hp : ∀ w ∈ a.wells, w.q.Proper) (w : SWell) (k i : ℕ) (f : PField ℝ) (acc acc' : List RealizationLog)
    (hacc : List.Forall₂ RealizationLog.SameButOrder acc acc') :
    Option.Rel RunResult.SameButOrder (stochasticLoop a env w k i f acc) (stochasticLoop { a with wells := ws, target := t } (env.reorder σ) w k i f acc') ∧
    List.Forall₂ RealizationLog.SameButOrder (endlessLoop a env w k i f) (endlessLoop { a with wells := ws, target := t } (env.reorder σ) w k i f) := by
  induction k generalizing i f acc acc' with
  | zero => exact ⟨.some ⟨rfl, hacc⟩, .nil⟩
  | succ k ih =>
    obtain ⟨h1, h2⟩ := realize_reorder (t := t) h (q := fun d j => d.sample (env.u i j)) (fun w hw j e he => sample_proper (hp w hw) (hu i j) he) env.la w (env.mvn i)
      (fun c => 2 * (c 0 + c 1)) (env.interrupt i) f
    simp only [stochasticLoop, endlessLoop]
    have e : realize { a with wells := ws, target := t } (env.reorder σ).la w (fun d j => d.sample ((env.reorder σ).u i j)) ((env.reorder σ).mvn i) (fun c => 2 * (c 0 + c 1)) ((env.reorder σ).interrupt i) f =
      realize { a with wells := ws, target := t } env.la w (fun d j => d.sample (env.u i (σ j))) (env.mvn i) (fun c => 2 * (c 0 + c 1)) (env.interrupt i) f := rfl
    have e' : endlessRealization { a with wells := ws, target := t } (env.reorder σ).la w (fun d j => d.sample ((env.reorder σ).u i j)) ((env.reorder σ).mvn i) (fun c => 2 * (c 0 + c 1)) ((env.reorder σ).interrupt i) f =
      endlessRealization { a with wells := ws, target := t } env.la w (fun d j => d.sample (env.u i (σ j))) (env.mvn i) (fun c => 2 * (c 0 + c 1)) (env.interrupt i) f := rfl
    rw [e, e']
    revert h1
    generalize realize a env.la w (fun d j => d.sample (env.u i j)) (env.mvn i) (fun c => 2 * (c 0 + c 1)) (env.interrupt i) f = y
    generalize realize { a with wells := ws, target := t } env.la w (fun d j => d.sample (env.u i (σ j))) (env.mvn i) (fun c => 2 * (c 0 + c 1)) (env.interrupt i) f = y'
    intro h1
    match y, y', h1 with
    | none, none, _ => exact ⟨.none, h2⟩
    | some (.error e, l), some (_, l'), .some ⟨rfl, hl⟩ => exact ⟨.some ⟨rfl, List.rel_append hacc hl⟩, hl⟩
    | some (.ok f', l), some (_, l'), .some ⟨rfl, hl⟩ =>
      obtain ⟨k1, k2⟩ := ih (i + 1) f' (acc ++ l) (acc' ++ l') (List.rel_append hacc hl)
      exact ⟨k1, List.rel_append hl k2⟩

theorem stochastic_reorder {env : Env} (hu : ∀ i j, 0 ≤ env.u i j ∧ env.u i j < 1) (hp : ∀ w ∈ a.wells, w.q.Proper) {k k' : ℕ} (hk : a.target = k) (hk' : σ k' = k) (ht : t = k') (n : ℤ) :
    Option.Rel RunResult.SameButOrder (createStochastic a n env) (createStochastic { a with wells := ws, target := t } n (env.reorder σ)) ∧
    List.Forall₂ RealizationLog.SameButOrder (endlessStochastic a n env) (endlessStochastic { a with wells := ws, target := t } n (env.reorder σ)) := by
  subst ht
  unfold createStochastic endlessStochastic
  simp only []
  rw [getWell_reorder h hk', hk]
  cases getWell a.wells k with
  | error e => exact ⟨.some ⟨rfl, .nil⟩, .nil⟩
  | ok w =>
    simp only []
    cases PField.new a.spacing a.spacing (some w.xw) (some w.yw) with
    | error e => exact ⟨.some ⟨rfl, .nil⟩, .nil⟩
    | ok f => exact stochasticLoop_reorder h hu hp w n.toNat 0 f [] [] .nil

theorem deterministic_reorder (env : Env) (hp : ∀ w ∈ a.wells, w.q.Proper) {k k' : ℕ} (hk : a.target = k) (hk' : σ k' = k) (ht : t = k') :
    Option.Rel RunResult.SameButOrder (createDeterministic a env) (createDeterministic { a with wells := ws, target := t } env) ∧
    List.Forall₂ RealizationLog.SameButOrder (endlessDeterministic a env) (endlessDeterministic { a with wells := ws, target := t } env) := by
  subst ht
  unfold createDeterministic endlessDeterministic
  simp only []
  rw [getWell_reorder h hk', hk]
  cases getWell a.wells k with
  | error e => exact ⟨.some ⟨rfl, .nil⟩, .nil⟩
  | ok w =>
    simp only []
    cases PField.new a.spacing a.spacing (some w.xw) (some w.yw) with
    | error e => exact ⟨.some ⟨rfl, .nil⟩, .nil⟩
    | ok f =>
      obtain ⟨h1, h2⟩ := realize_reorder (t := (k' : ℤ)) h (q := fun d _ => d.mean) (fun w hw j e he => mean_proper (hp w hw) he) env.la w (fun ev _ => .ok ev)
        (fun c => -2 * (c 0 + c 1)) (env.interrupt 0) f
      refine ⟨?_, h2⟩
      revert h1
      simp only []
      generalize realize a env.la w (fun d _ => d.mean) (fun ev _ => .ok ev) (fun c => -2 * (c 0 + c 1)) (env.interrupt 0) f = y
      generalize realize { a with wells := ws, target := (k' : ℤ) } env.la w (fun d _ => d.mean) (fun ev _ => .ok ev) (fun c => -2 * (c 0 + c 1)) (env.interrupt 0) f = y'
      intro h1
      match y, y', h1 with
      | none, none, _ => exact .none
      | some (o, l), some (_, l'), .some ⟨rfl, hl⟩ => exact .some ⟨rfl, hl⟩

end

/-! ## Filtering and plots -/

section
variable {ws ws' : List (ℝ × ℝ)} (h : ws.Perm ws')
include h

theorem awayFromWells_reorder (b : ℝ) (o : Obs) : awayFromWells b o ws' = awayFromWells b o ws := by
  rw [Bool.eq_iff_iff, awayFromWells_iff, awayFromWells_iff]
  exact ⟨fun k w hw => k w (h.mem_iff.mp hw), fun k w hw => k w (h.mem_iff.mpr hw)⟩

theorem removeNear_reorder (b : ℝ) (l : List Obs) : removeNear b ws' l = removeNear b ws l := by
  induction l with
  | nil => rfl
  | cons o l ih => simp only [removeNear, awayFromWells_reorder h, ih]

theorem filterObs_reorder (l : List Obs) (b : ℝ) : filterObs l ws' b = filterObs l ws b := by
  unfold filterObs
  rw [removeNear_reorder h]

theorem removeLog_reorder (b : ℝ) (l : List Obs) : List.Forall₂ FilterLine.SameButWell (removeLog b ws l) (removeLog b ws' l) := by
  induction l with
  | nil => exact .nil
  | cons o l ih =>
    simp only [removeLog]
    cases h1 : nearWell b o ws with
    | none =>
      have : nearWell b o ws' = none := nearWell_none.mpr fun w hw => nearWell_none.mp h1 w (h.mem_iff.mpr hw)
      rw [this]
      exact ih
    | some w =>
      cases h2 : nearWell b o ws' with
      | none =>
        have : nearWell b o ws = none := nearWell_none.mpr fun w hw => nearWell_none.mp h2 w (h.mem_iff.mp hw)
        rw [this] at h1
        cases h1
      | some w' => exact .cons (.removed _ _ _) ih

theorem filterLog_reorder (l : List Obs) (b : ℝ) : List.Forall₂ FilterLine.SameButWell (filterLog l ws b) (filterLog l ws' b) := by
  unfold filterLog
  rw [removeNear_reorder h, filterObs_reorder h]
  have r : ∀ l : List FilterLine, List.Forall₂ FilterLine.SameButWell l l := fun l => List.forall₂_same.mpr fun x _ => .same x
  have hr := removeLog_reorder h b l
  exact List.rel_append (List.rel_append hr (r _)) (r _)

end

theorem markers_reorder {σ : Equiv.Perm ℕ} {ws ws' : List SWell} (h : Reorders σ ws ws') {k k' : ℕ} (hk : σ k' = k) (obs : List Obs) :
    ExceptSame Markers.SameButOrder (markers k ws obs) (markers k' ws' obs) := by
  unfold markers
  rw [getWell_reorder h hk]
  cases getWell ws (k : ℤ) with
  | error e => exact rfl
  | ok w => exact ⟨h.perm.map _, rfl, rfl⟩

theorem probabilityPlot_reorder {σ : Equiv.Perm ℕ} {ws ws' : List SWell} (h : Reorders σ ws ws') {k k' : ℕ} (hk : σ k' = k) (obs : List Obs) (g : Grid ℝ → ℝ → Grid ℝ) (f : PField ℝ) (sm : ℝ) :
    ExceptSame (fun p p' => Figure.SameButOrder (.probability p) (.probability p')) (createProbabilityPlot g k ws obs f sm) (createProbabilityPlot g k' ws' obs f sm) := by
  unfold createProbabilityPlot
  cases f.body with
  | none => exact rfl
  | some b =>
    simp only []
    split_ifs
    · exact rfl
    all_goals
      have hm := markers_reorder h hk obs
      revert hm
      generalize markers k ws obs = x
      generalize markers k' ws' obs = x'
      intro hm
      match x, x', hm with
      | .error e, .error _, rfl => exact rfl
      | .ok m, .ok m', hm => exact .probability _ _ _ _ _ hm

theorem deterministicPlot_reorder {σ : Equiv.Perm ℕ} {ws ws' : List SWell} (h : Reorders σ ws ws') {k k' : ℕ} (hk : σ k' = k) (obs : List Obs) (f : PField ℝ) :
    ExceptSame (fun p p' => p'.area = p.area ∧ Figure.SameButOrder (.deterministic p) (.deterministic p')) (createDeterministicPlot k ws obs f) (createDeterministicPlot k' ws' obs f) := by
  unfold createDeterministicPlot
  cases f.body with
  | none => exact rfl
  | some b =>
    simp only []
    split_ifs
    · exact rfl
    · have hm := markers_reorder h hk obs
      revert hm
      generalize markers k ws obs = x
      generalize markers k' ws' obs = x'
      intro hm
      match x, x', hm with
      | .error e, .error _, rfl =>
        repeat' split
        all_goals first | exact rfl | simp_all [ExceptSame]
      | .ok m, .ok m', hm =>
        generalize (linspace b.xmin b.xmax f.ncols)[1]? = x1
        generalize (linspace b.xmin b.xmax f.ncols)[0]? = x0
        generalize (linspace b.ymin b.ymax f.nrows)[1]? = y1
        generalize (linspace b.ymin b.ymax f.nrows)[0]? = y0
        match x1, x0, y1, y0 with
        | some x1, some x0, some y1, some y0 =>
          simp only []
          cases areaRows (normalized b) (x1 - x0) (y1 - y0) (enumerate (linspace b.xmin b.xmax f.ncols)) (enumerate (linspace b.ymin b.ymax f.nrows)) ([], 0) with
          | error e => exact rfl
          | ok r => exact ⟨rfl, .deterministic _ _ _ _ hm⟩
        | none, _, _, _ => exact rfl
        | some _, none, _, _ => exact rfl
        | some _, some _, none, _ => exact rfl
        | some _, some _, some _, none => exact rfl

/-! ## The computation -/

/-- effects that differ at most in the order of the wells -/
inductive EffectSame : Effect → Effect → Prop
  | same (e : Effect) : EffectSame e e
  | realization (l l' : RealizationLog) : l.SameButOrder l' → EffectSame (.log (.realization l)) (.log (.realization l'))
  | filter (l l' : FilterLine) : l.SameButWell l' → EffectSame (.log (.filter l)) (.log (.filter l'))
  | figure (f f' : Figure) : f.SameButOrder f' → EffectSame (.figure f) (.figure f')

/-- both end in the same way, with related results -/
def EndingSame {α β : Type} (R : α → β → Prop) : Ending α → Ending β → Prop
  | .returns x, .returns y => R x y
  | .raises e, .raises e' => e' = e
  | .diverges, .diverges => True
  | _, _ => False

/-- computations with related effects and results -/
structure ProgSame {α β : Type} (R : α → β → Prop) (p : Prog α) (p' : Prog β) : Prop where
  events : List.Forall₂ EffectSame p.events p'.events
  ending : EndingSame R p.ending p'.ending

theorem effectsSame_refl (l : List Effect) : List.Forall₂ EffectSame l l := List.forall₂_same.mpr fun x _ => .same x

theorem same_bind {α α' β β' : Type} {R : α → α' → Prop} {S : β → β' → Prop} {p : Prog α} {p' : Prog α'} {k : α → Prog β} {k' : α' → Prog β'} (hp : ProgSame R p p')
    (hk : ∀ x x', R x x' → ProgSame S (k x) (k' x')) : ProgSame S (p >>= k) (p' >>= k') := by
  obtain ⟨ev, en⟩ := p
  obtain ⟨ev', en'⟩ := p'
  obtain ⟨he, hr⟩ := hp
  match en, en', hr with
  | .returns x, .returns x', hx => exact ⟨List.rel_append he (hk x x' hx).events, (hk x x' hx).ending⟩
  | .raises e, .raises _, rfl => exact ⟨he, rfl⟩
  | .diverges, .diverges, _ => exact ⟨he, trivial⟩

theorem same_lift {α α' : Type} {R : α → α' → Prop} {x : Except PyErr α} {x' : Except PyErr α'} (h : ExceptSame R x x') : ProgSame R (Prog.lift x) (Prog.lift x') := by
  match x, x', h with
  | .error e, .error _, rfl => exact ⟨.nil, rfl⟩
  | .ok x, .ok y, h => exact ⟨.nil, h⟩

theorem same_refl {α : Type} (p : Prog α) : ProgSame (fun x y => y = x) p p := by
  refine ⟨effectsSame_refl _, ?_⟩
  cases p.ending <;> first | exact rfl | trivial

theorem same_runProg {l l' : List RealizationLog} {o o' : Option RunResult} (hl : List.Forall₂ RealizationLog.SameButOrder l l') (ho : Option.Rel RunResult.SameButOrder o o') :
    ProgSame (fun x y => y = x) (runProg l o) (runProg l' o') := by
  have key : ∀ l l', List.Forall₂ RealizationLog.SameButOrder l l' → List.Forall₂ EffectSame (l.map fun x => Effect.log (.realization x)) (l'.map fun x => Effect.log (.realization x)) := fun l l' h => by
    rw [List.forall₂_map_left_iff, List.forall₂_map_right_iff]
    exact h.imp fun _ _ h => .realization _ _ h
  match o, o', ho with
  | none, none, _ => exact ⟨key _ _ hl, trivial⟩
  | some ⟨o, log⟩, some ⟨_, log'⟩, .some ⟨rfl, h⟩ =>
    refine ⟨key _ _ h, ?_⟩
    cases o <;> exact rfl

theorem compute_reorder {σ : Equiv.Perm ℕ} {n : Inputs} {ws : List SWell} (h : Reorders σ n.run.wells ws) {k k' : ℕ} (hk : n.run.target = k) (hk' : σ k' = k) (hp : ∀ w ∈ n.run.wells, w.q.Proper)
    {env : CallEnv} {u : ℕ → ℕ → ℝ} (hu : 1 < n.nrealizations → ∀ i j, u i j = env.run.u i (σ j) ∧ 0 ≤ env.run.u i j ∧ env.run.u i j < 1) :
    ProgSame (fun x y => y = x) (compute n env) (compute (n.withWells ws k') { env with run := { env.run with u := u } }) := by
  unfold compute
  have hw : (n.run.wells.map fun w : SWell => (w.xw, w.yw)).Perm (ws.map fun w : SWell => (w.xw, w.yw)) := h.perm.map _
  refine same_bind (R := fun _ _ => True) ⟨?_, trivial⟩ fun _ _ _ => ?_
  · show List.Forall₂ EffectSame (((filterLog n.run.obs (n.run.wells.map fun w : SWell => (w.xw, w.yw)) n.buffer).map LogLine.filter).map Effect.log)
      (((filterLog n.run.obs (ws.map fun w : SWell => (w.xw, w.yw)) n.buffer).map LogLine.filter).map Effect.log)
    rw [List.map_map, List.map_map, List.forall₂_map_left_iff, List.forall₂_map_right_iff]
    exact (filterLog_reorder hw n.run.obs n.buffer).imp fun _ _ h => .filter _ _ h
  have ef : filterObs (n.withWells ws k').run.obs ((n.withWells ws k').run.wells.map fun w : SWell => (w.xw, w.yw)) (n.withWells ws k').buffer =
    filterObs n.run.obs (n.run.wells.map fun w : SWell => (w.xw, w.yw)) n.buffer := filterObs_reorder hw n.run.obs n.buffer
  rw [ef]
  refine same_bind (same_refl _) fun _ obs e => ?_
  subst e
  refine same_bind (same_refl _) fun _ _ _ => ?_
  refine same_bind (same_refl _) fun _ cols e => ?_
  subst e
  refine same_bind (same_refl _) fun _ _ _ => ?_
  refine same_bind (same_refl _) fun _ _ _ => ?_
  have hn : (n.withWells ws k').nrealizations = n.nrealizations := rfl
  rw [hn]
  split_ifs with hr
  · obtain ⟨h1, h2⟩ := stochastic_reorder (a := { n.run with obs := obs }) (t := (k' : ℤ)) (env := env.run) h (fun i j => (hu hr i j).2) hp hk hk' rfl n.nrealizations
    have ee : ({ env.run with u := u } : Env) = env.run.reorder σ := by
      have : u = fun i j => env.run.u i (σ j) := by
        funext i j
        exact (hu hr i j).1
      rw [this]
      rfl
    have ee' : ({ env with run := { env.run with u := u } } : CallEnv) = { env with run := env.run.reorder σ } := by rw [ee]
    rw [ee']
    refine same_bind (same_runProg h2 h1) fun _ f e => ?_
    subst e
    have hpl := probabilityPlot_reorder h hk' obs env.gaussian f n.smooth
    rw [← hk] at hpl
    refine same_bind (same_lift hpl) fun p p' hpp => ?_
    refine same_bind (R := fun _ _ => True) ⟨.cons (.figure _ _ hpp) .nil, trivial⟩ fun _ _ _ => ?_
    exact same_refl _
  · obtain ⟨h1, h2⟩ := deterministic_reorder (a := { n.run with obs := obs }) (t := (k' : ℤ)) h env.run hp hk hk' rfl
    refine same_bind (same_runProg h2 h1) fun _ f e => ?_
    subst e
    have hpl := deterministicPlot_reorder h hk' obs f
    rw [← hk] at hpl
    refine same_bind (same_lift hpl) fun p p' hpp => ?_
    refine same_bind (R := fun _ _ => True) ⟨.cons (.figure _ _ hpp.2) .nil, trivial⟩ fun _ _ _ => ?_
    rw [hpp.1]
    exact same_refl _

end Oneka
