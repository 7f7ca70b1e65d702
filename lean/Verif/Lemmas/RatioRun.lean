import Verif.Lemmas.Ratio
import Verif.Lemmas.ShiftCall

/-!
# Runs with a multiple of conductivity, porosity and discharges
-/

namespace Oneka

variable {μ : ℝ}

theorem drawWells_times {q : Dist → ℕ → Except PyErr ℝ} (hq : ∀ d j, q (d.times μ) j = (q d j).map (μ * ·)) (ws : List SWell) (j : ℕ) :
    drawWells q (ws.map (SWell.times μ)) j = (drawWells q ws j).map (List.map (Well.times μ)) := by
  induction ws generalizing j with
  | nil => rfl
  | cons w ws ih =>
    have e : (w.times μ).q = w.q.times μ := rfl
    simp only [List.map_cons, drawWells, ih, e, hq]
    cases q w.q j with
    | error e => rfl
    | ok v =>
      simp only [Except.map]
      cases drawWells q ws (j + 1) <;> rfl

theorem drawModel_times {q : Dist → ℕ → Except PyErr ℝ} (hq : ∀ d j, q (d.times μ) j = (q d j).map (μ * ·)) (a : RunArgs) : drawModel (a.times μ) q = (drawModel a q).map (Aquifer.times μ) := by
  unfold drawModel
  have e : (a.times μ).wells = a.wells.map (SWell.times μ) := rfl
  have e1 : (a.times μ).cDist = a.cDist.times μ := rfl
  have e2 : (a.times μ).pDist = a.pDist.times μ := rfl
  have e3 : (a.times μ).tDist = a.tDist := rfl
  simp only [e, e1, e2, e3, drawWells_times hq, hq, List.length_map]
  cases drawWells q a.wells 0 with
  | error e => rfl
  | ok ws =>
    simp only [Except.map]
    cases q a.cDist a.wells.length with
    | error e => rfl
    | ok c =>
      simp only []
      cases q a.pDist (a.wells.length + 1) with
      | error e => rfl
      | ok p =>
        simp only []
        cases q a.tDist (a.wells.length + 2) with
        | error e => rfl
        | ok t =>
          simp only [Aquifer.times, mul_zero]
          rfl

/-- the hypotheses on the linear algebra -/
structure Solves (la : LinAlg) : Prop where
  correct : la.Correct
  converges : la.Converges
  strict : la.Strict

variable {la : LinAlg} {coefs coefs' : (Fin 6 → ℝ) → Matrix (Fin 6) (Fin 6) ℝ → Except PyErr (Fin 6 → ℝ)} {rc : (Fin 6 → ℝ) → ℝ} {q : Dist → ℕ → Except PyErr ℝ}

theorem realize_times (h : 0 < μ) (hla : Solves la) (hq : ∀ d j, q (d.times μ) j = (q d j).map (μ * ·))
    (hc : ∀ ev cov, coefs' (fun k => μ * ev k) (fun k l => μ ^ 2 * cov k l) = (coefs ev cov).map fun c k => μ * c k) (hr : ∀ c, rc (fun k => μ * c k) = μ * rc c)
    (a : RunArgs) (w : SWell) (int : ℕ → ℕ → Option PyErr) (f : PField ℝ) :
    realize (a.times μ) la (w.times μ) q coefs' rc int f = (realize a la w q coefs rc int f).map fun r => (r.1, r.2.map (RealizationLog.times μ)) := by
  unfold realize
  rw [drawModel_times hq]
  cases drawModel a q with
  | error e => rfl
  | ok mo =>
    have hf : (mo.times μ).fitRegionalFlow la (a.times μ).obs (w.times μ).xw (w.times μ).yw = _ := fit_times h hla.correct hla.converges hla.strict mo a.obs w.xw w.yw
    simp only [Except.map, hf]
    obtain ⟨m', o⟩ := mo.fitRegionalFlow la a.obs w.xw w.yw
    cases o with
    | error e => rfl
    | ok r =>
      obtain ⟨ev, cov⟩ := r
      simp only [hc]
      cases coefs ev cov with
      | error e => rfl
      | ok c =>
        have e : runVelocity { m'.times μ with coef := fun k => μ * c k } (a.times μ).confined int = runVelocity { m' with coef := c } a.confined int :=
          runVelocity_times h { m' with coef := c } a.confined int
        simp only [Except.map, e]
        have e2 : computeCapturezone (w.times μ).xw (w.times μ).yw (w.times μ).rw (a.times μ).npaths (a.times μ).duration f (a.times μ).umbra 1 (a.times μ).tol (a.times μ).maxstep
            (runVelocity { m' with coef := c } a.confined int) =
          computeCapturezone w.xw w.yw w.rw a.npaths a.duration f a.umbra 1 a.tol a.maxstep (runVelocity { m' with coef := c } a.confined int) := rfl
        rw [e2]
        cases computeCapturezone w.xw w.yw w.rw a.npaths a.duration f a.umbra 1 a.tol a.maxstep (runVelocity { m' with coef := c } a.confined int) with
        | none => rfl
        | some r =>
          simp only [Option.map_some, List.map_cons, List.map_nil, RealizationLog.times, hr]
          rfl

theorem endlessRealization_times (h : 0 < μ) (hla : Solves la) (hq : ∀ d j, q (d.times μ) j = (q d j).map (μ * ·))
    (hc : ∀ ev cov, coefs' (fun k => μ * ev k) (fun k l => μ ^ 2 * cov k l) = (coefs ev cov).map fun c k => μ * c k) (hr : ∀ c, rc (fun k => μ * c k) = μ * rc c)
    (a : RunArgs) (w : SWell) (int : ℕ → ℕ → Option PyErr) (f : PField ℝ) :
    endlessRealization (a.times μ) la (w.times μ) q coefs' rc int f = (endlessRealization a la w q coefs rc int f).map (RealizationLog.times μ) := by
  unfold endlessRealization
  rw [drawModel_times hq]
  cases drawModel a q with
  | error e => rfl
  | ok mo =>
    have hf : (mo.times μ).fitRegionalFlow la (a.times μ).obs (w.times μ).xw (w.times μ).yw = _ := fit_times h hla.correct hla.converges hla.strict mo a.obs w.xw w.yw
    simp only [Except.map, hf]
    obtain ⟨m', o⟩ := mo.fitRegionalFlow la a.obs w.xw w.yw
    cases o with
    | error e => rfl
    | ok r =>
      obtain ⟨ev, cov⟩ := r
      simp only [hc]
      cases coefs ev cov with
      | error e => rfl
      | ok c =>
        have e : runVelocity { m'.times μ with coef := fun k => μ * c k } (a.times μ).confined int = runVelocity { m' with coef := c } a.confined int :=
          runVelocity_times h { m' with coef := c } a.confined int
        simp only [Except.map, e, List.map_cons, List.map_nil, RealizationLog.times, hr]
        rfl

theorem rc_times (s : ℝ) (c : Fin 6 → ℝ) : s * (μ * c 0 + μ * c 1) = μ * (s * (c 0 + c 1)) := by ring

theorem stochasticLoop_times (h : 0 < μ) {env env' : Env} (hla : Solves env.la) (he : env' = { env with mvn := env'.mvn }) (hm : ScalesNormal μ env.mvn env'.mvn) (a : RunArgs) (w : SWell) (k i : ℕ)
    (f : PField ℝ) (acc : List RealizationLog) :
    stochasticLoop (a.times μ) env' (w.times μ) k i f (acc.map (RealizationLog.times μ)) = (stochasticLoop a env w k i f acc).map (RunResult.times μ) := by
  induction k generalizing i f acc with
  | zero => rfl
  | succ k ih =>
    have e1 : env'.la = env.la := by rw [he]
    have e2 : env'.u = env.u := by rw [he]
    have e3 : env'.interrupt = env.interrupt := by rw [he]
    simp only [stochasticLoop, e1, e2, e3]
    rw [realize_times h hla (fun d j => sample_times h d _) (hm i) (fun c => rc_times 2 c)]
    cases realize a env.la w (fun d j => d.sample (env.u i j)) (env.mvn i) (fun c => 2 * (c 0 + c 1)) (env.interrupt i) f with
    | none => rfl
    | some r =>
      obtain ⟨o, l⟩ := r
      cases o with
      | error e => simp [RunResult.times]
      | ok f' =>
        have := ih (i + 1) f' (acc ++ l)
        rw [List.map_append] at this
        exact this

theorem endlessLoop_times (h : 0 < μ) {env env' : Env} (hla : Solves env.la) (he : env' = { env with mvn := env'.mvn }) (hm : ScalesNormal μ env.mvn env'.mvn) (a : RunArgs) (w : SWell) (k i : ℕ)
    (f : PField ℝ) : endlessLoop (a.times μ) env' (w.times μ) k i f = (endlessLoop a env w k i f).map (RealizationLog.times μ) := by
  induction k generalizing i f with
  | zero => rfl
  | succ k ih =>
    have e1 : env'.la = env.la := by rw [he]
    have e2 : env'.u = env.u := by rw [he]
    have e3 : env'.interrupt = env.interrupt := by rw [he]
    simp only [endlessLoop, e1, e2, e3]
    rw [realize_times h hla (fun d j => sample_times h d _) (hm i) (fun c => rc_times 2 c), endlessRealization_times h hla (fun d j => sample_times h d _) (hm i) (fun c => rc_times 2 c)]
    cases realize a env.la w (fun d j => d.sample (env.u i j)) (env.mvn i) (fun c => 2 * (c 0 + c 1)) (env.interrupt i) f with
    | none => rfl
    | some r =>
      obtain ⟨o, l⟩ := r
      cases o with
      | error e => rfl
      | ok f' => simp [ih]

theorem getWell_times (ws : List SWell) (t : ℤ) : getWell (ws.map (SWell.times μ)) t = (getWell ws t).map (SWell.times μ) := by
  unfold getWell
  simp only [List.length_map, List.getElem?_map]
  by_cases c : (if t < 0 then t + (ws.length : ℤ) else t) < 0
  · simp only [if_pos c]
    rfl
  · simp only [if_neg c]
    cases ws[(if t < 0 then t + (ws.length : ℤ) else t).toNat]? <;> rfl

theorem createStochastic_times (h : 0 < μ) {env env' : Env} (hla : Solves env.la) (he : env' = { env with mvn := env'.mvn }) (hm : ScalesNormal μ env.mvn env'.mvn) (a : RunArgs) (n : ℤ) :
    createStochastic (a.times μ) n env' = (createStochastic a n env).map (RunResult.times μ) := by
  unfold createStochastic
  have e : getWell (a.times μ).wells (a.times μ).target = _ := getWell_times a.wells a.target
  have e2 : (a.times μ).spacing = a.spacing := rfl
  rw [e]
  cases getWell a.wells a.target with
  | error e => rfl
  | ok w =>
    have e3 : (w.times μ).xw = w.xw := rfl
    have e4 : (w.times μ).yw = w.yw := rfl
    simp only [Except.map, e2, e3, e4]
    cases PField.new a.spacing a.spacing (some w.xw) (some w.yw) with
    | error e => rfl
    | ok f => exact stochasticLoop_times h hla he hm a w n.toNat 0 f []

theorem createDeterministic_times (h : 0 < μ) {env env' : Env} (hla : Solves env.la) (he : env' = { env with mvn := env'.mvn }) (a : RunArgs) :
    createDeterministic (a.times μ) env' = (createDeterministic a env).map (RunResult.times μ) := by
  unfold createDeterministic
  have e : getWell (a.times μ).wells (a.times μ).target = _ := getWell_times a.wells a.target
  have e2 : (a.times μ).spacing = a.spacing := rfl
  rw [e]
  cases getWell a.wells a.target with
  | error e => rfl
  | ok w =>
    have e3 : (w.times μ).xw = w.xw := rfl
    have e4 : (w.times μ).yw = w.yw := rfl
    have e5 : env'.la = env.la := by rw [he]
    have e6 : env'.interrupt = env.interrupt := by rw [he]
    simp only [Except.map, e2, e3, e4, e5, e6]
    cases PField.new a.spacing a.spacing (some w.xw) (some w.yw) with
    | error e => rfl
    | ok f =>
      simp only []
      rw [realize_times (coefs := fun ev _ => .ok ev) h hla (fun d _ => mean_times d) (fun _ _ => rfl) (fun c => rc_times (-2) c)]
      cases realize a env.la w (fun d _ => d.mean) (fun ev _ => .ok ev) (fun c => -2 * (c 0 + c 1)) (env.interrupt 0) f with
      | none => rfl
      | some r => rfl

theorem endlessStochastic_times (h : 0 < μ) {env env' : Env} (hla : Solves env.la) (he : env' = { env with mvn := env'.mvn }) (hm : ScalesNormal μ env.mvn env'.mvn) (a : RunArgs) (n : ℤ) :
    endlessStochastic (a.times μ) n env' = (endlessStochastic a n env).map (RealizationLog.times μ) := by
  unfold endlessStochastic
  have e : getWell (a.times μ).wells (a.times μ).target = _ := getWell_times a.wells a.target
  have e2 : (a.times μ).spacing = a.spacing := rfl
  rw [e]
  cases getWell a.wells a.target with
  | error e => rfl
  | ok w =>
    have e3 : (w.times μ).xw = w.xw := rfl
    have e4 : (w.times μ).yw = w.yw := rfl
    simp only [Except.map, e2, e3, e4]
    cases PField.new a.spacing a.spacing (some w.xw) (some w.yw) with
    | error e => rfl
    | ok f => exact endlessLoop_times h hla he hm a w n.toNat 0 f

theorem endlessDeterministic_times (h : 0 < μ) {env env' : Env} (hla : Solves env.la) (he : env' = { env with mvn := env'.mvn }) (a : RunArgs) :
    endlessDeterministic (a.times μ) env' = (endlessDeterministic a env).map (RealizationLog.times μ) := by
  unfold endlessDeterministic
  have e : getWell (a.times μ).wells (a.times μ).target = _ := getWell_times a.wells a.target
  have e2 : (a.times μ).spacing = a.spacing := rfl
  rw [e]
  cases getWell a.wells a.target with
  | error e => rfl
  | ok w =>
    have e3 : (w.times μ).xw = w.xw := rfl
    have e4 : (w.times μ).yw = w.yw := rfl
    have e5 : env'.la = env.la := by rw [he]
    have e6 : env'.interrupt = env.interrupt := by rw [he]
    simp only [Except.map, e2, e3, e4, e5, e6]
    cases PField.new a.spacing a.spacing (some w.xw) (some w.yw) with
    | error e => rfl
    | ok f => exact endlessRealization_times (coefs := fun ev _ => .ok ev) h hla (fun d _ => mean_times d) (fun _ _ => rfl) (fun c => rc_times (-2) c) a w _ f

/-! ## The computation -/

theorem markers_times (t : ℤ) (ws : List SWell) (os : List Obs) : markers t (ws.map (SWell.times μ)) os = markers t ws os := by
  unfold markers
  rw [List.map_map, getWell_times]
  cases getWell ws t <;> rfl

theorem times_bind {α β : Type} {p p' : Prog α} {k k' : α → Prog β} (he : p'.events = p.events.map (Effect.times μ)) (hr : p'.ending = p.ending) (hk : ∀ x, k' x = (k x).times μ) :
    p' >>= k' = (p >>= k).times μ := by
  obtain ⟨ev, en⟩ := p
  obtain ⟨ev', en'⟩ := p'
  simp only at he hr
  subst he hr
  cases en' with
  | returns a =>
    show Prog.mk (ev.map (Effect.times μ) ++ (k' a).events) (k' a).ending = Prog.mk ((ev ++ (k a).events).map (Effect.times μ)) (k a).ending
    rw [hk a, List.map_append]
    rfl
  | raises e => rfl
  | diverges => rfl

theorem times_lift {α β : Type} {x x' : Except PyErr α} {k k' : α → Prog β} (hx : x' = x) (hk : ∀ x, k' x = (k x).times μ) : Prog.lift x' >>= k' = (Prog.lift x >>= k).times μ := by
  subst hx
  refine times_bind ?_ ?_ hk <;> cases x' <;> rfl

theorem times_infos {β : Type} {l l' : List LogLine} {k k' : Unit → Prog β} (hl : l' = l.map (LogLine.times μ)) (hk : ∀ x, k' x = (k x).times μ) : Prog.infos l' >>= k' = (Prog.infos l >>= k).times μ := by
  subst hl
  refine times_bind ?_ rfl hk
  simp [Prog.infos, Effect.times, Function.comp_def]

theorem times_info {β : Type} {l l' : LogLine} {k k' : Unit → Prog β} (hl : l' = l.times μ) (hk : ∀ x, k' x = (k x).times μ) : Prog.info l' >>= k' = (Prog.info l >>= k).times μ := by
  subst hl
  exact times_bind rfl rfl hk

theorem times_figure {β : Type} {f : Figure} {k k' : Unit → Prog β} (hk : ∀ x, k' x = (k x).times μ) : Prog.emit (.figure f) >>= k' = (Prog.emit (.figure f) >>= k).times μ :=
  times_bind rfl rfl hk

theorem times_runProg {β : Type} {l l' : List RealizationLog} {o o' : Option RunResult} {k k' : PField ℝ → Prog β} (hl : l' = l.map (RealizationLog.times μ)) (ho : o' = o.map (RunResult.times μ))
    (hk : ∀ x, k' x = (k x).times μ) : runProg l' o' >>= k' = (runProg l o >>= k).times μ := by
  subst hl ho
  refine times_bind ?_ ?_ hk
  · cases o <;> simp [runProg, Effect.times, LogLine.times, Function.comp_def, RunResult.times]
  · cases o with
    | none => rfl
    | some r =>
      obtain ⟨o, l⟩ := r
      cases o <;> rfl

theorem compute_times (h : 0 < μ) (n : Inputs) {env env' : CallEnv} (hla : Solves env.run.la) (he : env' = { env with run := { env.run with mvn := env'.run.mvn } })
    (hm : 1 < n.nrealizations → ScalesNormal μ env.run.mvn env'.run.mvn) : compute (n.times μ) env' = (compute n env).times μ := by
  have hw : (n.times μ).run.wells = n.run.wells.map (SWell.times μ) := rfl
  have hxy : ((n.run.wells.map (SWell.times μ)).map fun w : SWell => (w.xw, w.yw)) = n.run.wells.map fun w : SWell => (w.xw, w.yw) := by rw [List.map_map]; rfl
  have hrun : env'.run = { env.run with mvn := env'.run.mvn } := by rw [he]
  have hg : env'.gaussian = env.gaussian := by rw [he]
  unfold compute
  simp only [hw, hxy, hg]
  refine times_infos ?_ fun _ => ?_
  · rw [List.map_map]
    rfl
  refine times_lift rfl fun obs => ?_
  refine times_lift rfl fun _ => ?_
  refine times_lift rfl fun cols => ?_
  refine times_info rfl fun _ => ?_
  refine times_info rfl fun _ => ?_
  have hn : (n.times μ).nrealizations = n.nrealizations := rfl
  rw [hn]
  split_ifs with hc
  · refine times_runProg (endlessStochastic_times h hla hrun (hm hc) { n.run with obs := obs } _) (createStochastic_times h hla hrun (hm hc) { n.run with obs := obs } _) fun f => ?_
    refine times_lift ?_ fun plot => ?_
    · unfold createProbabilityPlot
      rw [markers_times]
      rfl
    refine times_figure fun _ => ?_
    refine times_lift rfl fun im => ?_
    refine times_figure fun _ => ?_
    refine times_infos rfl fun _ => ?_
    refine times_lift rfl fun lines => ?_
    refine times_infos ?_ fun _ => ?_
    · simp [LogLine.times, Function.comp_def]
    refine times_info rfl fun _ => ?_
    rfl
  · refine times_runProg (endlessDeterministic_times h hla hrun { n.run with obs := obs }) (createDeterministic_times h hla hrun { n.run with obs := obs }) fun f => ?_
    refine times_lift ?_ fun plot => ?_
    · unfold createDeterministicPlot
      rw [markers_times]
      rfl
    refine times_figure fun _ => ?_
    refine times_info rfl fun _ => ?_
    refine times_info rfl fun _ => ?_
    refine times_info rfl fun _ => ?_
    refine times_info rfl fun _ => ?_
    rfl

theorem collect_times {β : Type} {φ : Effect → Option β} {ψ : β → β} (l : List Effect) (hφ : ∀ e : Effect, φ (e.times μ) = (φ e).map ψ) :
    (l.map (Effect.times μ)).filterMap φ = (l.filterMap φ).map ψ := by
  rw [List.filterMap_map, List.map_filterMap]
  congr 1
  funext e
  exact hφ e

end Oneka
