import Verif.Lemmas.TurnRun
import Verif.Props.Reach
import Verif.Props.Runs
import Verif.Props.Report

/-!
# C128: results do not depend on the orientation of the axes

In exact arithmetic, with the same draws: if the `y` axis is reversed, or the two axes are exchanged, everything a user sees is what it was, with the other axes. (`Turn`: Spec/Turn.lean.) The paths start evenly spaced around the well, from
the direction of the `x` axis; so for the exchange of the axes their number must be a multiple of 4. Examples: `Props/TurnExamples.lean`.
-/

namespace Oneka

open PField

variable (σ : Turn)

/-- **C128.** `Model`. With the other axes potential, head and velocities are the same, at every point, finite or not, or the same exception is raised; and `fit_regional_flow` gives the same expected values and covariances, or the same
exception. -/
theorem C128_model (m : Aquifer ℝ) :
    (∀ p : XR × XR, (m.turn σ).toX.potential (σ.pt p).1 (σ.pt p).2 = m.toX.potential p.1 p.2 ∧ (m.turn σ).toX.head (σ.pt p).1 (σ.pt p).2 = m.toX.head p.1 p.2 ∧
      (m.turn σ).toX.discharge (σ.pt p).1 (σ.pt p).2 = σ.pt (m.toX.discharge p.1 p.2) ∧ (m.turn σ).toX.velocity (σ.pt p).1 (σ.pt p).2 = (m.toX.velocity p.1 p.2).map σ.pt ∧
      (m.turn σ).toX.velocityConfined (σ.pt p).1 (σ.pt p).2 = σ.pt (m.toX.velocityConfined p.1 p.2)) ∧
    ∀ la : LinAlg, la.Correct → la.Converges → la.Strict → ∀ (obs : List Obs) (o : ℝ × ℝ),
      (m.turn σ).fitRegionalFlow la (obs.map (Obs.turn σ)) (σ.pt o).1 (σ.pt o).2 =
        ((m.fitRegionalFlow la obs o.1 o.2).1.turn σ, (m.fitRegionalFlow la obs o.1 o.2).2.map fun r => (σ.coef r.1, σ.cov r.2)) :=
  ⟨fun p => ⟨potential_turn m p, head_turn m p, discharge_turn m p, velocity_turn m p, velocityConfined_turn m p⟩,
    fun _ h1 h2 h3 obs o => fit_turn h1 h2 h3 m obs o.1 o.2⟩

/-- **C128.** `filter_obs` removes and merges the same observations. -/
theorem C128_filter (obs : List Obs) (wells : List (ℝ × ℝ)) (buffer : ℝ) :
    filterObs (obs.map (Obs.turn σ)) (wells.map σ.pt) buffer = (filterObs obs wells buffer).map (List.map (Obs.turn σ)) :=
  filterObs_turn obs wells buffer

/-- **C128.** `compute_backtrace` traces the same path, with the same steps and the same warning, or runs forever as well, for any velocity function `f`, if `g` is `f` with the other axes. -/
theorem C128_backtrace (f g : ℕ → XR × XR → Except PyErr (XR × XR)) (h : ∀ n p, g n (σ.pt p) = (f n p).map σ.pt) (start : XR × XR) (duration tol maxstep : XR) :
    computeBacktrace (σ.pt start).1 (σ.pt start).2 duration tol maxstep g = (computeBacktrace start.1 start.2 duration tol maxstep f).map (Trace.turn σ) :=
  backtrace_turn h duration tol maxstep start

/-- **C128.** The runs never return, raise the same exception or return a field as before, having made the same realizations: the same models, fits, recharges and paths. -/
theorem C128_course (a : RunArgs) (n : ℤ) (env env' : Env) (h1 : env.la.Correct) (h2 : env.la.Converges) (h3 : env.la.Strict) (hn : σ.Fits a.npaths) (he : env.Turned σ a.npaths env') :
    TurnedCourse σ (createStochastic a n env) (createStochastic (a.turn σ) n env') ∧ TurnedCourse σ (createDeterministic a env) (createDeterministic (a.turn σ) env') :=
  ⟨createStochastic_turn ⟨h1, h2, h3⟩ hn he, createDeterministic_turn ⟨h1, h2, h3⟩ hn he⟩

variable {σ}

open Classical in
/-- **C128.** If a stochastic run returns, so does the run with the other axes; the grid has the same nodes; the total weight is the same; and so is the weight of each of the nine positions around the target, and of every
position if the umbra is not larger than the spacing. (Else a position near the edge of the grid may be missed by a path that is traced before the grid has been extended; the paths are traced in another order.) -/
theorem C128_stochastic (a : RunArgs) (n j : ℕ) (env env' : Env) (t : SWell) (hj : a.target = j) (ht : a.wells[j]? = some t) (h1 : env.la.Correct) (h2 : env.la.Converges) (h3 : env.la.Strict)
    (hn : σ.Fits a.npaths) (he : env.Turned σ a.npaths env') (hu : 0 ≤ a.umbra) {r : RunResult} {f : PField ℝ} (h : createStochastic a n env = some r) (ho : r.outcome = .ok f) :
    ∃ r' f', createStochastic (a.turn σ) n env' = some r' ∧ r'.outcome = .ok f' ∧ List.Forall₂ (RealizationLog.Turned σ) r.log r'.log ∧ f'.total = f.total ∧
      (∀ X Y, f'.IsNode (σ.pt (X, Y)).1 (σ.pt (X, Y)).2 ↔ f.IsNode X Y) ∧
      (∀ p q : ℤ, |p| ≤ 1 ∧ |q| ≤ 1 → f'.weightAt (σ.pt (t.xw + p * a.spacing, t.yw + q * a.spacing)).1 (σ.pt (t.xw + p * a.spacing, t.yw + q * a.spacing)).2 =
        f.weightAt (t.xw + p * a.spacing) (t.yw + q * a.spacing)) ∧
      (a.umbra ≤ a.spacing → ∀ X Y, f'.weightAt (σ.pt (X, Y)).1 (σ.pt (X, Y)).2 = f.weightAt X Y) := by
  have hc := (C128_course σ a n env env' h1 h2 h3 hn he).1
  obtain ⟨o, l⟩ := r
  simp only at ho
  subst ho
  rw [h] at hc
  rcases h' : createStochastic (a.turn σ) n env' with _ | ⟨_ | f', l'⟩
  · rw [h'] at hc; exact hc.elim
  · rw [h'] at hc; exact hc.elim
  rw [h'] at hc
  replace hc : List.Forall₂ (RealizationLog.Turned σ) l l' := hc
  have ht' : (a.turn σ).wells[j]? = some (t.turn σ) := by
    show (a.wells.map (SWell.turn σ))[j]? = _
    rw [List.getElem?_map, ht]
    rfl
  obtain ⟨c0, c1, -, c3, c4, -⟩ := C44_frequencies a n j env t hj ht h rfl
  obtain ⟨-, d1, -, d3, d4, -⟩ := C44_frequencies (a.turn σ) n j env' (t.turn σ) hj ht' h' rfl
  have hfit : ∀ L ∈ l, σ.Fits L.traces.length := by
    intro L hL
    obtain ⟨i, hi⟩ := List.mem_iff_getElem?.mp hL
    obtain ⟨L2, e2, hR⟩ := C45_realizations a n j env t hj ht h rfl i (by
      have := (List.getElem?_eq_some_iff.mp hi).1
      simpa [c0] using this)
    have : some L = some L2 := hi.symm.trans e2
    obtain rfl := Option.some.inj this
    rw [hR.traces_length]
    exact fits_toNat hn
  have hnode : ∀ X Y, f'.IsNode (σ.pt (X, Y)).1 (σ.pt (X, Y)).2 ↔ f.IsNode X Y := by
    intro X Y
    rw [(C74_stochastic a n j env t hj ht hu h rfl).1, (C74_stochastic (a.turn σ) n j env' (t.turn σ) hj ht' hu h' rfl).1]
    exact and_congr (onLattice_turn_iff (x := t.xw) (y := t.yw)) (reached_turn_iff (x := t.xw) (y := t.yw) (allVertices_turn hc hfit))
  have hw : ∀ p q : ℤ, (|p| ≤ 1 ∧ |q| ≤ 1) ∨ a.umbra ≤ a.spacing → f'.weightAt (σ.pt (t.xw + p * a.spacing, t.yw + q * a.spacing)).1 (σ.pt (t.xw + p * a.spacing, t.yw + q * a.spacing)).2 =
      f.weightAt (t.xw + p * a.spacing) (t.yw + q * a.spacing) := by
    intro p q hpq
    obtain ⟨p', q', e, hpq'⟩ := lattice_turn (σ := σ) p q
    rw [c3 hu p q hpq]
    have e2 := d3 hu p' q' (hpq.imp hpq' id)
    have e3 := e t.xw t.yw a.spacing
    rw [show ((t.turn σ).xw + p' * (a.turn σ).spacing) = (σ.pt (t.xw + p * a.spacing, t.yw + q * a.spacing)).1 by rw [e3]; rfl,
      show ((t.turn σ).yw + q' * (a.turn σ).spacing) = (σ.pt (t.xw + p * a.spacing, t.yw + q * a.spacing)).2 by rw [e3]; rfl] at e2
    rw [e2]
    refine congrArg _ (countP_turn hc hfit fun L L' hL hf => ?_)
    have : (a.turn σ).umbra = a.umbra := rfl
    simp only [this, captures_turn hL hf]
  refine ⟨_, f', rfl, rfl, hc, by rw [c1, d1], hnode, fun p q hpq => hw p q (Or.inl hpq), fun hus X Y => ?_⟩
  by_cases hN : f.IsNode X Y
  · obtain ⟨p, q, rfl, rfl⟩ := c4 X Y hN
    exact hw p q (Or.inr hus)
  · rw [weight_off hN, weight_off fun hN' => hN ((hnode X Y).mp hN')]

open Classical in
/-- **C128.** The same for the deterministic run. -/
theorem C128_deterministic (a : RunArgs) (j : ℕ) (env env' : Env) (t : SWell) (hj : a.target = j) (ht : a.wells[j]? = some t) (h1 : env.la.Correct) (h2 : env.la.Converges) (h3 : env.la.Strict)
    (hn : σ.Fits a.npaths) (he : env.Turned σ a.npaths env') (hu : 0 ≤ a.umbra) {r : RunResult} {f : PField ℝ} (h : createDeterministic a env = some r) (ho : r.outcome = .ok f) :
    ∃ r' f', createDeterministic (a.turn σ) env' = some r' ∧ r'.outcome = .ok f' ∧ List.Forall₂ (RealizationLog.Turned σ) r.log r'.log ∧ f'.total = f.total ∧
      (∀ X Y, f'.IsNode (σ.pt (X, Y)).1 (σ.pt (X, Y)).2 ↔ f.IsNode X Y) ∧
      (∀ p q : ℤ, |p| ≤ 1 ∧ |q| ≤ 1 → f'.weightAt (σ.pt (t.xw + p * a.spacing, t.yw + q * a.spacing)).1 (σ.pt (t.xw + p * a.spacing, t.yw + q * a.spacing)).2 =
        f.weightAt (t.xw + p * a.spacing) (t.yw + q * a.spacing)) ∧
      (a.umbra ≤ a.spacing → ∀ X Y, f'.weightAt (σ.pt (X, Y)).1 (σ.pt (X, Y)).2 = f.weightAt X Y) := by
  have hc := (C128_course σ a 0 env env' h1 h2 h3 hn he).2
  obtain ⟨o, l⟩ := r
  simp only at ho
  subst ho
  rw [h] at hc
  rcases h' : createDeterministic (a.turn σ) env' with _ | ⟨_ | f', l'⟩
  · rw [h'] at hc; exact hc.elim
  · rw [h'] at hc; exact hc.elim
  rw [h'] at hc
  replace hc : List.Forall₂ (RealizationLog.Turned σ) l l' := hc
  have ht' : (a.turn σ).wells[j]? = some (t.turn σ) := by
    show (a.wells.map (SWell.turn σ))[j]? = _
    rw [List.getElem?_map, ht]
    rfl
  obtain ⟨L, eL, hR, -, c1, -, c3, c4⟩ := C46_deterministic a j env t hj ht h rfl
  obtain ⟨L', eL', -, -, d1, -, d3, d4⟩ := C46_deterministic (a.turn σ) j env' (t.turn σ) hj ht' h' rfl
  obtain ⟨M, eM, c5, -⟩ := C74_deterministic a j env t hj ht hu h rfl
  obtain ⟨M', eM', d5, -⟩ := C74_deterministic (a.turn σ) j env' (t.turn σ) hj ht' hu h' rfl
  simp only at eL eL' eM eM'
  subst eL eL'
  obtain rfl : L = M := by simpa using eM
  obtain rfl : L' = M' := by simpa using eM'
  obtain ⟨hL, -⟩ := List.forall₂_cons.mp hc
  have hfit : σ.Fits L.traces.length := by
    rw [hR.traces_length]
    exact fits_toNat hn
  have hnode : ∀ X Y, f'.IsNode (σ.pt (X, Y)).1 (σ.pt (X, Y)).2 ↔ f.IsNode X Y := by
    intro X Y
    rw [c5, d5]
    exact and_congr (onLattice_turn_iff (x := t.xw) (y := t.yw)) (reached_turn_iff (x := t.xw) (y := t.yw) (vertices_turn hL hfit))
  have hw : ∀ p q : ℤ, (|p| ≤ 1 ∧ |q| ≤ 1) ∨ a.umbra ≤ a.spacing → f'.weightAt (σ.pt (t.xw + p * a.spacing, t.yw + q * a.spacing)).1 (σ.pt (t.xw + p * a.spacing, t.yw + q * a.spacing)).2 =
      f.weightAt (t.xw + p * a.spacing) (t.yw + q * a.spacing) := by
    intro p q hpq
    obtain ⟨p', q', e, hpq'⟩ := lattice_turn (σ := σ) p q
    rw [c3 hu p q hpq]
    have e2 := d3 hu p' q' (hpq.imp hpq' id)
    have e3 := e t.xw t.yw a.spacing
    rw [show ((t.turn σ).xw + p' * (a.turn σ).spacing) = (σ.pt (t.xw + p * a.spacing, t.yw + q * a.spacing)).1 by rw [e3]; rfl,
      show ((t.turn σ).yw + q' * (a.turn σ).spacing) = (σ.pt (t.xw + p * a.spacing, t.yw + q * a.spacing)).2 by rw [e3]; rfl] at e2
    rw [e2]
    have : (a.turn σ).umbra = a.umbra := rfl
    simp only [this, captures_turn hL hfit]
  refine ⟨_, f', rfl, rfl, hc, by rw [c1, d1], hnode, fun p q hpq => hw p q (Or.inl hpq), fun hus X Y => ?_⟩
  by_cases hN : f.IsNode X Y
  · obtain ⟨p, q, rfl, rfl⟩ := c4 X Y hN
    exact hw p q (Or.inr hus)
  · rw [weight_off hN, weight_off fun hN' => hN ((hnode X Y).mp hN')]

open Classical in
/-- **C128.** For the archives of two calls that return, the second one with the other axes (and whatever `smooth` and clock): the same total weight, the same nodes, the same weight around the target, and the same weight everywhere
if the umbra is not larger than the spacing; then calls with at most one realization report the same area. -/
theorem C128_archived (a a' : PyArgs) (n n' : Inputs) (env env' : CallEnv) (v v' : PyVal) (hd : a.Denotes n) (hd' : a'.Denotes n')
    (h : (oneka a env).ending = .returns v) (h' : (oneka a' env').ending = .returns v') (h1 : env.run.la.Correct) (h2 : env.run.la.Converges) (h3 : env.run.la.Strict)
    (hfit : σ.Fits n.run.npaths) (henv : env.run.Turned σ n.run.npaths env'.run)
    (hrun : n'.run = n.run.turn σ) (hn : n'.nrealizations = n.nrealizations) (hbuf : n'.buffer = n.buffer) (fs fs' : Files) :
    ∃ (d d' : Dict) (f f' : PField ℝ) (j : ℕ) (t : SWell),
      loadOneka ((oneka a env).events.foldl Effect.apply fs) env.now.archiveName = .ok d ∧ d.get "pfield" = some (.field (.field f)) ∧
      loadOneka ((oneka a' env').events.foldl Effect.apply fs') env'.now.archiveName = .ok d' ∧ d'.get "pfield" = some (.field (.field f')) ∧
      n.run.target = j ∧ n.run.wells[j]? = some t ∧ f'.total = f.total ∧ 0 < f.total ∧
      (∀ X Y, f'.IsNode (σ.pt (X, Y)).1 (σ.pt (X, Y)).2 ↔ f.IsNode X Y) ∧
      f'.weightAt (σ.pt (t.xw, t.yw)).1 (σ.pt (t.xw, t.yw)).2 = f.weightAt t.xw t.yw ∧
      (n.run.umbra ≤ n.run.spacing → (∀ X Y, f'.weightAt (σ.pt (X, Y)).1 (σ.pt (X, Y)).2 = f.weightAt X Y) ∧
        (n.nrealizations ≤ 1 → areas (oneka a' env').events = areas (oneka a env).events)) := by
  obtain ⟨-, -, ha, -⟩ := returned_course h
  obtain ⟨⟨j, t, hj, ht⟩, -, hs, hu, -⟩ := accepted_inputs ha hd
  have hwf : n'.wellfield = n.wellfield.map σ.pt := by
    unfold Inputs.wellfield
    rw [hrun]
    show ((n.run.wells.map (SWell.turn σ)).map _) = _
    rw [List.map_map, List.map_map]
    rfl
  have hobs : n'.run.obs = n.run.obs.map (Obs.turn σ) := by rw [hrun]; rfl
  rcases returned_cases hd h with ⟨g1, obs, cols, r, f, pl, im, lines, H⟩ | ⟨g1, obs, cols, r, f, pl, H⟩ <;>
    rcases returned_cases hd' h' with ⟨g1', obs', cols', r', f', pl', im', lines', H'⟩ | ⟨g1', obs', cols', r', f', pl', H'⟩
  · obtain rfl : obs' = obs.map (Obs.turn σ) := by
      have e := H'.filtered
      rw [hwf, hobs, hbuf, filterObs_turn, H.filtered] at e
      exact (Except.ok.inj e).symm
    obtain ⟨d, hd1, hd2⟩ := archived_field h H.archived fs
    obtain ⟨d', hd1', hd2'⟩ := archived_field h' H'.archived fs'
    have e1 := H.run
    have e2 := H'.run
    rw [hn, hrun] at e2
    rw [show n.nrealizations = ((n.nrealizations.toNat : ℕ) : ℤ) by omega] at e1 e2
    obtain ⟨r2, f2, k1, k2, -, k4, k5, k6, k7⟩ := C128_stochastic (σ := σ) { n.run with obs := obs } n.nrealizations.toNat j env.run env'.run t hj ht h1 h2 h3 hfit henv hu.le e1 H.outcome
    have e2' : createStochastic (({ n.run with obs := obs } : RunArgs).turn σ) ((n.nrealizations.toNat : ℕ) : ℤ) env'.run = some r' := e2
    rw [e2'] at k1
    obtain rfl := Option.some.inj k1
    rw [H'.outcome] at k2
    obtain rfl := Except.ok.inj k2
    refine ⟨d, d', f, f', j, t, hd1, hd2, hd1', hd2', hj, ht, k4, H.total, k5, ?_, fun hus => ⟨k7 hus, fun hle => by omega⟩⟩
    simpa using k6 0 0 ⟨by simp, by simp⟩
  · omega
  · omega
  · obtain rfl : obs' = obs.map (Obs.turn σ) := by
      have e := H'.filtered
      rw [hwf, hobs, hbuf, filterObs_turn, H.filtered] at e
      exact (Except.ok.inj e).symm
    obtain ⟨d, hd1, hd2⟩ := archived_field h H.archived fs
    obtain ⟨d', hd1', hd2'⟩ := archived_field h' H'.archived fs'
    have e1 := H.run
    have e2 := H'.run
    rw [hrun] at e2
    obtain ⟨r2, f2, k1, k2, -, k4, k5, k6, k7⟩ := C128_deterministic (σ := σ) { n.run with obs := obs } j env.run env'.run t hj ht h1 h2 h3 hfit henv hu.le e1 H.outcome
    have e2' : createDeterministic (({ n.run with obs := obs } : RunArgs).turn σ) env'.run = some r' := e2
    rw [e2'] at k1
    obtain rfl := Option.some.inj k1
    rw [H'.outcome] at k2
    obtain rfl := Except.ok.inj k2
    refine ⟨d, d', f, f', j, t, hd1, hd2, hd1', hd2', hj, ht, k4, H.total, k5, ?_, fun hus => ⟨k7 hus, fun hle => ?_⟩⟩
    · simpa using k6 0 0 ⟨by simp, by simp⟩
    · obtain ⟨D, F, -, -, -, -, -, A, q1, q2, -, -, -, -, -, -, -, -, q3, -, q4, -⟩ := C69_deterministic a n env v hd hle h fs
      obtain ⟨D', F', -, -, -, -, -, A', q1', q2', -, -, -, -, -, -, -, -, q3', -, q4', -⟩ := C69_deterministic a' n' env' v' hd' (by omega) h' fs'
      obtain rfl : F = f := by
        rw [hd1] at q1
        obtain rfl := Except.ok.inj q1
        rw [hd2] at q2
        simpa using q2.symm
      obtain rfl : F' = f' := by
        rw [hd1'] at q1'
        obtain rfl := Except.ok.inj q1'
        rw [hd2'] at q2'
        simpa using q2'.symm
      rw [q3, q3', q4, q4', show n'.run.spacing = n.run.spacing by rw [hrun]; rfl]
      have hset : {p : ℝ × ℝ | F'.IsNode p.1 p.2 ∧ 0 < F'.weightAt p.1 p.2} = σ.pt '' {p : ℝ × ℝ | F.IsNode p.1 p.2 ∧ 0 < F.weightAt p.1 p.2} := by
        ext p
        constructor
        · rintro ⟨p1, p2⟩
          refine ⟨σ.pt p, ⟨?_, ?_⟩, Turn.ptR_back p⟩
          · rw [← k5, show σ.pt ((σ.pt p).1, (σ.pt p).2) = p from Turn.ptR_back p]; exact p1
          · rw [← k7 hus, show σ.pt ((σ.pt p).1, (σ.pt p).2) = p from Turn.ptR_back p]; exact p2
        · rintro ⟨q, ⟨p1, p2⟩, rfl⟩
          exact ⟨(k5 q.1 q.2).mpr p1, by rw [show σ.pt q = σ.pt (q.1, q.2) from rfl, k7 hus]; exact p2⟩
      rw [hset, Set.ncard_image_of_injective _ fun _ _ e => pt_inj e]

end Oneka
