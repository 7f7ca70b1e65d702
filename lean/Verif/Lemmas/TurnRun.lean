import Verif.Lemmas.Turn
import Verif.Lemmas.RatioRun
import Verif.Lemmas.Sensitivity

/-!
# Runs with other axes
-/

namespace Oneka

variable {σ : Turn}

/-! ## Capture zones -/

/-- a starting point with the other axes -/
theorem start_turn {n : ℕ} (hf : σ.Fits n) {k : ℕ} (hk : k < n) (x y r : ℝ) {d tol ms : XR} {f g : ℕ → XR × XR → Except PyErr (XR × XR)} (h : Veers σ f g) :
    computeBacktrace (.fin ((σ.pt (x, y)).1 + r * Real.cos (2 * Real.pi * k / n))) (.fin ((σ.pt (x, y)).2 + r * Real.sin (2 * Real.pi * k / n))) d tol ms g =
      (computeBacktrace (.fin (x + r * Real.cos (2 * Real.pi * (σ.start n k : ℕ) / n))) (.fin (y + r * Real.sin (2 * Real.pi * (σ.start n k : ℕ) / n))) d tol ms f).map (Trace.turn σ) := by
  rw [← backtrace_turn h d tol ms (.fin _, .fin _), Turn.pt_fin (x + r * Real.cos (2 * Real.pi * (σ.start n k : ℕ) / n), y + r * Real.sin (2 * Real.pi * (σ.start n k : ℕ) / n)),
    Turn.start_pt hf hk]

theorem capture_turn_some {x y rt u w u' w' : ℝ} {d tol ms : XR} {f g : ℕ → ℕ → XR × XR → Except PyErr (XR × XR)} {n : ℕ} (hn : σ.Fits n)
    (h : ∀ k < n, Veers σ (f (σ.start n k)) (g k)) {p p' : PField ℝ} (hp : p.WF) (hb : p.body ≠ none) (hp' : p'.WF) {r : CZResult}
    (hr : computeCapturezone x y rt n d p u w tol ms f = some r) :
    ∃ r', computeCapturezone (σ.pt (x, y)).1 (σ.pt (x, y)).2 rt n d p' u' w' tol ms g = some r' := by
  refine capture_returns hp' fun k hk => ?_
  have hk' : k < n := by exact_mod_cast hk
  rw [Int.cast_natCast, start_turn hn hk' x y (rt + 1) (h k hk'), ← capture_traces hp hb hr (Turn.start_lt hk')]
  obtain ⟨-, hl, -, -, -⟩ := capture_spec hp (Or.inl hb) hr
  rw [List.getElem?_eq_getElem (by rw [hl]; exact Turn.start_lt hk')]
  simp

theorem capture_turn {x y rt u w : ℝ} {d tol ms : XR} {f g : ℕ → ℕ → XR × XR → Except PyErr (XR × XR)} {n : ℤ} (hn : σ.Fits n)
    (h : ∀ k < n.toNat, Veers σ (f (σ.start n.toNat k)) (g k)) {p p' : PField ℝ} (hp : p.WF) (hb : p.body ≠ none) (hp' : p'.WF) (hb' : p'.body ≠ none) :
    (computeCapturezone x y rt n d p u w tol ms f = none ∧ computeCapturezone (σ.pt (x, y)).1 (σ.pt (x, y)).2 rt n d p' u w tol ms g = none) ∨
    ∃ r r', computeCapturezone x y rt n d p u w tol ms f = some r ∧ computeCapturezone (σ.pt (x, y)).1 (σ.pt (x, y)).2 rt n d p' u w tol ms g = some r' ∧
      r'.outcome = r.outcome ∧ r'.traces.length = r.traces.length ∧ ∀ k < r.traces.length, r'.traces[k]? = (r.traces[σ.start r.traces.length k]?).map (Trace.turn σ) := by
  rcases (by omega : 0 ≤ n ∨ n < 0) with h0 | h0
  · obtain ⟨m, rfl⟩ := Int.eq_ofNat_of_zero_le h0
    rw [Int.toNat_natCast] at h
    cases hr : computeCapturezone x y rt m d p u w tol ms f with
    | some r =>
      obtain ⟨r', hr'⟩ := capture_turn_some (u' := u) (w' := w) hn h hp hb hp' hr
      refine Or.inr ⟨r, r', rfl, hr', ?_⟩
      obtain ⟨a1, a2, -⟩ := capture_spec hp (Or.inl hb) hr
      obtain ⟨b1, b2, -⟩ := capture_spec hp' (Or.inl hb') hr'
      refine ⟨by rw [a1, b1], by rw [a2, b2], fun k hk => ?_⟩
      rw [a2] at hk ⊢
      rw [capture_traces hp' hb' hr' hk, start_turn hn hk x y (rt + 1) (h k hk), ← capture_traces hp hb hr (Turn.start_lt hk)]
    | none =>
      refine Or.inl ⟨rfl, ?_⟩
      by_contra hne
      obtain ⟨r', hr'⟩ := Option.ne_none_iff_exists'.mp hne
      have hback : ∀ k < m, Veers σ (g (σ.start m k)) (f k) := by
        intro k hk
        have := (h _ (Turn.start_lt (σ := σ) hk)).back
        rwa [Turn.start_back hn hk] at this
      obtain ⟨r, e⟩ := capture_turn_some (x := (σ.pt (x, y)).1) (y := (σ.pt (x, y)).2) (u' := u) (w' := w) hn hback hp' hb' hp hr'
      rw [show σ.pt ((σ.pt (x, y)).1, (σ.pt (x, y)).2) = (x, y) from Turn.ptR_back (x, y)] at e
      rw [hr] at e
      cases e
  · right
    unfold computeCapturezone startAngles
    by_cases h1 : n + 1 < 0
    · rw [if_pos h1]
      exact ⟨_, _, rfl, rfl, rfl, rfl, by simp⟩
    · rw [if_neg h1, Int.toNat_of_nonpos h0.le]
      obtain ⟨q, e, -⟩ := PField.register_view p hp hb w
      obtain ⟨q', e', -⟩ := PField.register_view p' hp' hb' w
      simp only [List.range_zero, List.map_nil, captureLoop, e, e']
      exact ⟨_, _, rfl, rfl, rfl, rfl, by simp⟩

/-! ## Realizations -/

theorem drawWells_turn (q : Dist → ℕ → Except PyErr ℝ) (ws : List SWell) (j : ℕ) :
    drawWells q (ws.map (SWell.turn σ)) j = (drawWells q ws j).map (List.map (Well.turn σ)) := by
  induction ws generalizing j with
  | nil => rfl
  | cons w ws ih =>
    have e : (w.turn σ).q = w.q := rfl
    simp only [List.map_cons, drawWells, ih, e]
    cases q w.q j with
    | error e => rfl
    | ok v =>
      simp only [Except.map]
      cases drawWells q ws (j + 1) <;> rfl

theorem drawModel_turn (q : Dist → ℕ → Except PyErr ℝ) (a : RunArgs) : drawModel (a.turn σ) q = (drawModel a q).map (Aquifer.turn σ) := by
  unfold drawModel
  have e : (a.turn σ).wells = a.wells.map (SWell.turn σ) := rfl
  have e1 : (a.turn σ).cDist = a.cDist := rfl
  have e2 : (a.turn σ).pDist = a.pDist := rfl
  have e3 : (a.turn σ).tDist = a.tDist := rfl
  have e4 : (a.turn σ).base = a.base := rfl
  simp only [e, e1, e2, e3, e4, drawWells_turn, List.length_map]
  cases drawWells q a.wells 0 with
  | error e => rfl
  | ok ws =>
    simp only [Except.map]
    cases q a.cDist a.wells.length with
    | error e => rfl
    | ok c =>
      simp only []
      cases q a.pDist (a.wells.length + 1) with
      | error e => rfl
      | ok p =>
        simp only []
        cases q a.tDist (a.wells.length + 2) with
        | error e => rfl
        | ok t =>
          have h1 : (σ.pt ((0:ℝ), (0:ℝ))) = (0, 0) := by cases σ <;> simp [Turn.pt]
          have h2 : σ.coef (fun _ => (0:ℝ)) = fun _ => 0 := by funext i; simp [Turn.coef]
          simp only [Aquifer.turn, h1, h2]

theorem runVelocity_turn {m : Aquifer ℝ} {c : Bool} {i i' : ℕ → ℕ → Option PyErr} {k k' : ℕ} (h : ∀ j, i' k j = i k' j) :
    Veers σ (runVelocity m c i k') (runVelocity (m.turn σ) c i' k) := by
  intro n p
  unfold runVelocity
  rw [h, backVelocity_turn]
  cases i k' n <;> rfl

theorem realize_turn {la : LinAlg} (hla : Solves la) {q : Dist → ℕ → Except PyErr ℝ} {coefs coefs' : (Fin 6 → ℝ) → Matrix (Fin 6) (Fin 6) ℝ → Except PyErr (Fin 6 → ℝ)}
    (hc : ∀ ev cov, coefs' (σ.coef ev) (σ.cov cov) = (coefs ev cov).map σ.coef) {rc : (Fin 6 → ℝ) → ℝ} (hr : ∀ c, rc (σ.coef c) = rc c) {a : RunArgs} (hn : σ.Fits a.npaths)
    {t : SWell} {i i' : ℕ → ℕ → Option PyErr} (hi : ∀ k j, i' k j = i (σ.start a.npaths.toNat k) j) {p p' : PField ℝ} (hp : p.WF) (hb : p.body ≠ none) (hp' : p'.WF) (hb' : p'.body ≠ none) :
    (realize a la t q coefs rc i p = none ∧ realize (a.turn σ) la (t.turn σ) q coefs' rc i' p' = none) ∨
    (∃ e l l', realize a la t q coefs rc i p = some (.error e, l) ∧ realize (a.turn σ) la (t.turn σ) q coefs' rc i' p' = some (.error e, l') ∧ List.Forall₂ (RealizationLog.Turned σ) l l') ∨
    (∃ g g' l l', realize a la t q coefs rc i p = some (.ok g, l) ∧ realize (a.turn σ) la (t.turn σ) q coefs' rc i' p' = some (.ok g', l') ∧ List.Forall₂ (RealizationLog.Turned σ) l l') := by
  unfold realize
  rw [drawModel_turn]
  cases drawModel a q with
  | error e => exact Or.inr (Or.inl ⟨e, [], [], rfl, rfl, .nil⟩)
  | ok mo =>
    have hf : (mo.turn σ).fitRegionalFlow la (a.turn σ).obs (t.turn σ).xw (t.turn σ).yw = _ := fit_turn hla.correct hla.converges hla.strict mo a.obs t.xw t.yw
    simp only [Except.map, hf]
    rcases mo.fitRegionalFlow la a.obs t.xw t.yw with ⟨m', e | ⟨ev, cov⟩⟩
    · exact Or.inr (Or.inl ⟨e, [], [], rfl, rfl, .nil⟩)
    · simp only [hc]
      cases coefs ev cov with
      | error e => exact Or.inr (Or.inl ⟨e, [], [], rfl, rfl, .nil⟩)
      | ok c =>
        simp only [Except.map]
        have em : ({ m'.turn σ with coef := σ.coef c } : Aquifer ℝ) = ({ m' with coef := c } : Aquifer ℝ).turn σ := rfl
        rw [em]
        have hrc : rc (σ.coef c) = rc c := hr c
        rw [hrc]
        generalize rc c = ρ
        generalize ({ m' with coef := c } : Aquifer ℝ) = M
        rcases capture_turn (x := t.xw) (y := t.yw) (rt := t.rw) (u := a.umbra) (w := 1) (d := a.duration) (tol := a.tol) (ms := a.maxstep) (f := runVelocity M a.confined i)
          (g := runVelocity (M.turn σ) a.confined i') hn (fun k _ => runVelocity_turn fun j => hi k j) hp hb hp' hb' with ⟨h, h'⟩ | ⟨⟨g, o, ts⟩, ⟨g', o', ts'⟩, h, h', ho, hl, ht⟩
        · left
          refine ⟨by rw [h], ?_⟩
          have h2 : computeCapturezone (t.turn σ).xw (t.turn σ).yw (t.turn σ).rw (a.turn σ).npaths (a.turn σ).duration p' (a.turn σ).umbra 1 (a.turn σ).tol (a.turn σ).maxstep
            (runVelocity (M.turn σ) (a.turn σ).confined i') = none := h'
          rw [h2]
        · simp only at ho hl ht
          subst ho
          have h2 : computeCapturezone (t.turn σ).xw (t.turn σ).yw (t.turn σ).rw (a.turn σ).npaths (a.turn σ).duration p' (a.turn σ).umbra 1 (a.turn σ).tol (a.turn σ).maxstep
            (runVelocity (M.turn σ) (a.turn σ).confined i') = some ⟨g', o', ts'⟩ := h'
          rw [h, h2]
          have hL : RealizationLog.Turned σ ⟨M, ev, cov, ρ, ts⟩ ⟨M.turn σ, σ.coef ev, σ.cov cov, ρ, ts'⟩ := ⟨rfl, rfl, rfl, rfl, hl, ht⟩
          cases o' with
          | error e => exact Or.inr (Or.inl ⟨e, _, _, rfl, rfl, .cons hL .nil⟩)
          | ok _ => exact Or.inr (Or.inr ⟨g, g', _, _, rfl, rfl, .cons hL .nil⟩)

/-! ## Runs -/

theorem recharge_turn (s : ℝ) (c : Fin 6 → ℝ) : s * (σ.coef c 0 + σ.coef c 1) = s * (c 0 + c 1) := by
  cases σ
  · simp [Turn.coef, Turn.sign, Turn.index]
  · simp [Turn.coef, Turn.sign, Turn.index, add_comm]

theorem loop_turn {a : RunArgs} {env env' : Env} {t : SWell} (hla : Solves env.la) (hn : σ.Fits a.npaths) (he : env.Turned σ a.npaths env') :
    ∀ (n i : ℕ) (f f' : PField ℝ) (acc acc' : List RealizationLog), f.WF → f'.WF → f.body ≠ none → f'.body ≠ none → List.Forall₂ (RealizationLog.Turned σ) acc acc' →
    TurnedCourse σ (stochasticLoop a env t n i f acc) (stochasticLoop (a.turn σ) env' (t.turn σ) n i f' acc') := by
  intro n
  induction n with
  | zero => intro i f f' acc acc' _ _ _ _ h; exact h
  | succ n ih =>
    intro i f f' acc acc' hf hf' hb hb' hacc
    unfold stochasticLoop
    rw [he.la, he.u]
    rcases realize_turn (a := a) (la := env.la) (t := t) (q := fun d j => d.sample (env.u i j)) (coefs := env.mvn i) (coefs' := env'.mvn i)
      (rc := fun c => 2 * (c 0 + c 1)) (i := env.interrupt i) (i' := env'.interrupt i) hla (he.mvn i) (fun c => recharge_turn 2 c) hn (he.interrupt i) hf hb hf' hb' with
      ⟨h, h'⟩ | ⟨e, l, l', h, h', hl⟩ | ⟨g, g', l, l', h, h', hl⟩
    · rw [h, h']; exact trivial
    · rw [h, h']; exact ⟨rfl, List.rel_append hacc hl⟩
    · obtain ⟨-, -, -, -, w, b⟩ := realize_run hf hb h
      obtain ⟨-, -, -, -, w', b'⟩ := realize_run hf' hb' h'
      rw [h, h']
      exact ih (i+1) g g' _ _ w w' b b' (List.rel_append hacc hl)

theorem getWell_turn (ws : List SWell) (t : ℤ) : getWell (ws.map (SWell.turn σ)) t = (getWell ws t).map (SWell.turn σ) := by
  unfold getWell
  simp only [List.length_map, List.getElem?_map]
  by_cases c : (if t < 0 then t + (ws.length : ℤ) else t) < 0
  · simp only [if_pos c]
    rfl
  · simp only [if_neg c]
    cases ws[(if t < 0 then t + (ws.length : ℤ) else t).toNat]? <;> rfl

theorem new_bad {s xo yo xo' yo' : ℝ} (hs : ¬ 0 < s) : ∃ e, (PField.new s s (some xo) (some yo) : Except PyErr (PField ℝ)) = .error e ∧ (PField.new s s (some xo') (some yo') : Except PyErr (PField ℝ)) = .error e := by
  unfold PField.new
  rw [if_pos (not_lt.mp hs), if_pos (not_lt.mp hs)]
  exact ⟨_, rfl, rfl⟩

theorem createStochastic_turn {a : RunArgs} {n : ℤ} {env env' : Env} (hla : Solves env.la) (hn : σ.Fits a.npaths) (he : env.Turned σ a.npaths env') :
    TurnedCourse σ (createStochastic a n env) (createStochastic (a.turn σ) n env') := by
  unfold createStochastic
  have e : getWell (a.turn σ).wells (a.turn σ).target = _ := getWell_turn a.wells a.target
  have e2 : (a.turn σ).spacing = a.spacing := rfl
  rw [e, e2]
  cases getWell a.wells a.target with
  | error e => exact ⟨rfl, .nil⟩
  | ok t =>
    simp only [Except.map]
    by_cases hs : 0 < a.spacing
    · obtain ⟨f0, e0, wf0, b0⟩ := new_pos (xo := t.xw) (yo := t.yw) hs
      obtain ⟨f0', e0', wf0', b0'⟩ := new_pos (xo := (t.turn σ).xw) (yo := (t.turn σ).yw) hs
      simp only [e0', e0]
      exact loop_turn hla hn he _ 0 f0 f0' [] [] wf0 wf0' b0 b0' .nil
    · obtain ⟨e, e1, e2⟩ := new_bad (xo := t.xw) (yo := t.yw) (xo' := (t.turn σ).xw) (yo' := (t.turn σ).yw) hs
      simp only [e1, e2]
      exact ⟨rfl, .nil⟩

theorem createDeterministic_turn {a : RunArgs} {env env' : Env} (hla : Solves env.la) (hn : σ.Fits a.npaths) (he : env.Turned σ a.npaths env') :
    TurnedCourse σ (createDeterministic a env) (createDeterministic (a.turn σ) env') := by
  unfold createDeterministic
  have e : getWell (a.turn σ).wells (a.turn σ).target = _ := getWell_turn a.wells a.target
  have e2 : (a.turn σ).spacing = a.spacing := rfl
  rw [e, e2, he.la]
  cases getWell a.wells a.target with
  | error e => exact ⟨rfl, .nil⟩
  | ok t =>
    simp only [Except.map]
    by_cases hs : 0 < a.spacing
    · obtain ⟨f0, e0, wf0, b0⟩ := new_pos (xo := t.xw) (yo := t.yw) hs
      obtain ⟨f0', e0', wf0', b0'⟩ := new_pos (xo := (t.turn σ).xw) (yo := (t.turn σ).yw) hs
      simp only [e0', e0]
      rcases realize_turn (a := a) (la := env.la) (t := t) (q := fun d _ => d.mean) (coefs := fun ev _ => .ok ev) (coefs' := fun ev _ => .ok ev)
        (rc := fun c => -2 * (c 0 + c 1)) (i := env.interrupt 0) (i' := env'.interrupt 0) hla (fun _ _ => rfl) (fun c => recharge_turn (-2) c) hn (he.interrupt 0) wf0 b0 wf0' b0' with
        ⟨h, h'⟩ | ⟨e, l, l', h, h', hl⟩ | ⟨g, g', l, l', h, h', hl⟩
      · rw [h, h']; exact trivial
      · rw [h, h']; exact ⟨rfl, hl⟩
      · rw [h, h']; exact hl
    · obtain ⟨e, e1, e2⟩ := new_bad (xo := t.xw) (yo := t.yw) (xo' := (t.turn σ).xw) (yo' := (t.turn σ).yw) hs
      simp only [e1, e2]
      exact ⟨rfl, .nil⟩

/-! ## Tracks -/

theorem path_turn (r : Trace XR) : (r.turn σ).path = r.path.map σ.pt := by
  unfold Trace.path Trace.turn
  simp only [List.map_map]
  refine List.map_congr_left fun v _ => ?_
  obtain ⟨a, b⟩ := v
  cases σ
  · cases a <;> cases b <;> first | rfl | exact Prod.ext rfl neg_zero.symm
  · rfl

theorem pt_inj {p q : ℝ × ℝ} (h : σ.pt p = σ.pt q) : p = q := by
  rw [← Turn.ptR_back (σ := σ) p, h, Turn.ptR_back]

theorem nearTrack_turn {vs : List (ℝ × ℝ)} {u X Y : ℝ} (h : NearTrack vs u X Y) : NearTrack (vs.map σ.pt) u (σ.pt (X, Y)).1 (σ.pt (X, Y)).2 := by
  obtain ⟨a, b, h1, h2, t, h3, h4, h5⟩ := h
  refine ⟨σ.pt a, σ.pt b, ?_, fun e => h2 (pt_inj e), t, h3, h4, ?_⟩
  · simpa using h1.map σ.pt
  · refine lt_of_eq_of_lt ?_ h5
    cases σ <;> simp only [Turn.pt] <;> ring

theorem nearTrack_turn_iff {vs : List (ℝ × ℝ)} {u X Y : ℝ} : NearTrack (vs.map σ.pt) u (σ.pt (X, Y)).1 (σ.pt (X, Y)).2 ↔ NearTrack vs u X Y := by
  refine ⟨fun h => ?_, nearTrack_turn⟩
  have := nearTrack_turn (σ := σ) h
  rw [List.map_map, show σ.pt ((σ.pt (X, Y)).1, (σ.pt (X, Y)).2) = (X, Y) from Turn.ptR_back (X, Y)] at this
  simpa [Function.comp_def, Turn.ptR_back] using this

variable {L L' : RealizationLog}

theorem turned_paths (h : L.Turned σ L') {k : ℕ} (hk : k < L.traces.length) : L'.paths[k]? = (L.paths[σ.start L.traces.length k]?).map (List.map σ.pt) := by
  unfold RealizationLog.paths
  rw [List.getElem?_map, List.getElem?_map, h.traces k hk]
  cases L.traces[σ.start L.traces.length k]? with
  | none => rfl
  | some t => simp only [Option.map_some, path_turn]

theorem turned_mem (h : L.Turned σ L') (hf : σ.Fits L.traces.length) (vs : List (ℝ × ℝ)) : vs ∈ L.paths ↔ vs.map σ.pt ∈ L'.paths := by
  have hl : L.paths.length = L.traces.length := by simp [RealizationLog.paths]
  have hl' : L'.paths.length = L.traces.length := by simp [RealizationLog.paths, h.count]
  have hinj : ∀ ws : List (ℝ × ℝ), ws.map σ.pt = vs.map σ.pt → ws = vs := fun ws e => List.map_injective_iff.mpr (fun _ _ e => pt_inj e) e
  constructor
  · intro hv
    obtain ⟨k, hk⟩ := List.mem_iff_getElem?.mp hv
    have hlt : k < L.traces.length := by rw [← hl]; exact (List.getElem?_eq_some_iff.mp hk).1
    have := turned_paths h (Turn.start_lt (σ := σ) hlt)
    rw [Turn.start_back hf hlt, hk] at this
    exact List.mem_of_getElem? this
  · intro hv
    obtain ⟨k, hk⟩ := List.mem_iff_getElem?.mp hv
    have hlt : k < L.traces.length := by rw [← hl']; exact (List.getElem?_eq_some_iff.mp hk).1
    have := turned_paths h hlt
    rw [hk] at this
    cases e : L.paths[σ.start L.traces.length k]? with
    | none => rw [e] at this; simp at this
    | some ws =>
      rw [e] at this
      obtain rfl := hinj ws (Option.some.inj this).symm
      exact List.mem_of_getElem? e

theorem turned_mem' (h : L.Turned σ L') {vs : List (ℝ × ℝ)} (hv : vs ∈ L'.paths) : ∃ ws ∈ L.paths, vs = ws.map σ.pt := by
  obtain ⟨k, hk⟩ := List.mem_iff_getElem?.mp hv
  have hlt : k < L.traces.length := by
    have := (List.getElem?_eq_some_iff.mp hk).1
    simpa [RealizationLog.paths, h.count] using this
  have := turned_paths h hlt
  rw [hk] at this
  cases e : L.paths[σ.start L.traces.length k]? with
  | none => rw [e] at this; simp at this
  | some ws =>
    rw [e] at this
    exact ⟨ws, List.mem_of_getElem? e, Option.some.inj this⟩

theorem captures_paths (L : RealizationLog) (u X Y : ℝ) : L.Captures u X Y ↔ ∃ vs ∈ L.paths, NearTrack vs u X Y := by
  unfold RealizationLog.Captures RealizationLog.paths
  simp

theorem captures_turn (h : L.Turned σ L') (hf : σ.Fits L.traces.length) (u X Y : ℝ) : L'.Captures u (σ.pt (X, Y)).1 (σ.pt (X, Y)).2 ↔ L.Captures u X Y := by
  rw [captures_paths, captures_paths]
  constructor
  · rintro ⟨vs, hv, hn⟩
    obtain ⟨ws, hw, rfl⟩ := turned_mem' h hv
    exact ⟨ws, hw, nearTrack_turn_iff.mp hn⟩
  · rintro ⟨vs, hv, hn⟩
    exact ⟨_, (turned_mem h hf vs).mp hv, nearTrack_turn hn⟩

theorem vertices_turn (h : L.Turned σ L') (hf : σ.Fits L.traces.length) (p : ℝ × ℝ) : σ.pt p ∈ L'.paths.flatten ↔ p ∈ L.paths.flatten := by
  simp only [List.mem_flatten]
  constructor
  · rintro ⟨vs, hv, hp⟩
    obtain ⟨ws, hw, rfl⟩ := turned_mem' h hv
    obtain ⟨q, hq, e⟩ := List.mem_map.mp hp
    exact ⟨ws, hw, pt_inj e ▸ hq⟩
  · rintro ⟨vs, hv, hp⟩
    exact ⟨_, (turned_mem h hf vs).mp hv, List.mem_map_of_mem hp⟩

theorem allVertices_turn {l l' : List RealizationLog} (h : List.Forall₂ (RealizationLog.Turned σ) l l') (hf : ∀ L ∈ l, σ.Fits L.traces.length) (p : ℝ × ℝ) :
    σ.pt p ∈ allVertices l' ↔ p ∈ allVertices l := by
  unfold allVertices
  induction h with
  | nil => simp
  | cons hr _ ih =>
    simp only [List.flatMap_cons, List.mem_append]
    rw [vertices_turn hr (hf _ (by simp)), ih fun L hL => hf L (by simp [hL])]

theorem countP_turn {l l' : List RealizationLog} (h : List.Forall₂ (RealizationLog.Turned σ) l l') (hf : ∀ L ∈ l, σ.Fits L.traces.length) {P P' : RealizationLog → Bool}
    (hP : ∀ L L', RealizationLog.Turned σ L L' → σ.Fits L.traces.length → P' L' = P L) : l'.countP P' = l.countP P := by
  induction h with
  | nil => rfl
  | cons hr _ ih => rw [List.countP_cons, List.countP_cons, ih fun L hL => hf L (by simp [hL]), hP _ _ hr (hf _ (by simp))]

theorem inReach_neg {o d X : ℝ} {s s' : List ℝ} (hs : ∀ x ∈ s, -x ∈ s') (h : InReach o d s X) : InReach (-o) d s' (-X) := by
  obtain ⟨h1, h2⟩ := h
  refine ⟨h2.imp (fun h => by linarith) ?_, h1.imp (fun h => by linarith) ?_⟩
  · rintro ⟨x, hx, h⟩; exact ⟨-x, hs x hx, by linarith⟩
  · rintro ⟨x, hx, h⟩; exact ⟨-x, hs x hx, by linarith⟩

theorem reached_turn {x y d X Y : ℝ} {s s' : List (ℝ × ℝ)} (hs : ∀ p ∈ s, σ.pt p ∈ s') (h : Reached x y d d s X Y) :
    Reached (σ.pt (x, y)).1 (σ.pt (x, y)).2 d d s' (σ.pt (X, Y)).1 (σ.pt (X, Y)).2 := by
  cases σ
  · refine ⟨inReach_mono le_rfl ?_ h.1, inReach_neg ?_ h.2⟩
    · intro a ha
      obtain ⟨p, hp, rfl⟩ := List.mem_map.mp ha
      exact List.mem_map.mpr ⟨_, hs p hp, rfl⟩
    · intro a ha
      obtain ⟨p, hp, rfl⟩ := List.mem_map.mp ha
      exact List.mem_map.mpr ⟨_, hs p hp, rfl⟩
  · refine ⟨inReach_mono le_rfl ?_ h.2, inReach_mono le_rfl ?_ h.1⟩
    · intro a ha
      obtain ⟨p, hp, rfl⟩ := List.mem_map.mp ha
      exact List.mem_map.mpr ⟨_, hs p hp, rfl⟩
    · intro a ha
      obtain ⟨p, hp, rfl⟩ := List.mem_map.mp ha
      exact List.mem_map.mpr ⟨_, hs p hp, rfl⟩

theorem reached_turn_iff {x y d X Y : ℝ} {s s' : List (ℝ × ℝ)} (hs : ∀ p, σ.pt p ∈ s' ↔ p ∈ s) :
    Reached (σ.pt (x, y)).1 (σ.pt (x, y)).2 d d s' (σ.pt (X, Y)).1 (σ.pt (X, Y)).2 ↔ Reached x y d d s X Y := by
  refine ⟨fun h => ?_, reached_turn fun p hp => (hs p).mpr hp⟩
  have h2 := reached_turn (σ := σ) (s' := s) (fun p hp => (hs _).mp (by rwa [Turn.ptR_back])) h
  rwa [show σ.pt ((σ.pt (X, Y)).1, (σ.pt (X, Y)).2) = (X, Y) from Turn.ptR_back (X, Y), show σ.pt ((σ.pt (x, y)).1, (σ.pt (x, y)).2) = (x, y) from Turn.ptR_back (x, y)] at h2

/-- position `(p, q)` of the lattice is position `(p', q')` with the other axes -/
theorem lattice_turn (p q : ℤ) : ∃ p' q' : ℤ, (∀ x y d : ℝ, σ.pt (x + p * d, y + q * d) = ((σ.pt (x, y)).1 + p' * d, (σ.pt (x, y)).2 + q' * d)) ∧ (|p| ≤ 1 ∧ |q| ≤ 1 → |p'| ≤ 1 ∧ |q'| ≤ 1) := by
  cases σ
  · refine ⟨p, -q, fun x y d => ?_, fun h => ⟨h.1, by rw [abs_neg]; exact h.2⟩⟩
    refine Prod.ext rfl ?_
    simp only [Turn.pt]
    push_cast
    ring
  · exact ⟨q, p, fun x y d => rfl, fun h => ⟨h.2, h.1⟩⟩

theorem onLattice_turn {x y d X Y : ℝ} (h : OnLattice x y d d X Y) : OnLattice (σ.pt (x, y)).1 (σ.pt (x, y)).2 d d (σ.pt (X, Y)).1 (σ.pt (X, Y)).2 := by
  obtain ⟨p, q, rfl, rfl⟩ := h
  obtain ⟨p', q', e, -⟩ := lattice_turn (σ := σ) p q
  exact ⟨p', q', by rw [e], by rw [e]⟩

theorem onLattice_turn_iff {x y d X Y : ℝ} : OnLattice (σ.pt (x, y)).1 (σ.pt (x, y)).2 d d (σ.pt (X, Y)).1 (σ.pt (X, Y)).2 ↔ OnLattice x y d d X Y := by
  refine ⟨fun h => ?_, onLattice_turn⟩
  have h2 := onLattice_turn (σ := σ) h
  rwa [show σ.pt ((σ.pt (X, Y)).1, (σ.pt (X, Y)).2) = (X, Y) from Turn.ptR_back (X, Y), show σ.pt ((σ.pt (x, y)).1, (σ.pt (x, y)).2) = (x, y) from Turn.ptR_back (x, y)] at h2

theorem fits_toNat {n : ℤ} (h : σ.Fits n) : σ.Fits (n.toNat : ℕ) := by
  cases σ
  · trivial
  · obtain ⟨m, rfl⟩ : 4 ∣ n := h
    exact (by omega : (4 : ℤ) ∣ ((4 * m).toNat : ℕ))

end Oneka
