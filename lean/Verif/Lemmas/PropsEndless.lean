import Verif.Props.Causes

/-!
# Lemmas for Props/Endless.lean
-/

namespace Oneka

open PField

theorem completed_spec {xt yt rt u : ℝ} {d tol ms : XR} {fe : ℕ → ℕ → XR × XR → Except PyErr (XR × XR)} (θs : List ℝ) :
    ∀ (i : ℕ) (f : PField ℝ) (acc : List (Trace XR)), f.WF → captureLoop xt yt rt d u tol ms fe θs i f acc = none →
      (completedTraces xt yt rt d u tol ms fe θs i f).length < θs.length ∧
      ∀ k θ, k ≤ (completedTraces xt yt rt d u tol ms fe θs i f).length → θs[k]? = some θ →
        computeBacktrace (.fin (startAt xt yt rt θ).1) (.fin (startAt xt yt rt θ).2) d tol ms (fe (i + k)) =
          (completedTraces xt yt rt d u tol ms fe θs i f)[k]? := by
  induction θs with
  | nil => intro i f acc _ h; simp [captureLoop] at h
  | cons θ θs ih =>
    intro i f acc hf h
    unfold captureLoop at h
    unfold completedTraces
    cases hb : computeBacktrace (.fin ((rt + 1) * Real.cos θ + xt)) (.fin ((rt + 1) * Real.sin θ + yt)) d tol ms (fe i) with
    | none =>
      refine ⟨by simp, fun k θ' hk hθ => ?_⟩
      obtain rfl : k = 0 := by simpa using hk
      obtain rfl : θ = θ' := by simpa using hθ
      exact hb
    | some t =>
      rw [hb] at h
      have hv := trace_vertices hb
      have hne : t.path.map Prod.fst ≠ [] := by unfold Trace.path; rw [hv]; simp
      obtain ⟨f1, e1, v, -⟩ := rasterize_view f hf (t.path.map Prod.fst) (t.path.map Prod.snd) u hne (by simp)
      simp only [e1] at h ⊢
      obtain ⟨h1, h2⟩ := ih (i+1) f1 (acc ++ [t]) v.wf h
      refine ⟨by simp [h1], fun k θ' hk hθ => ?_⟩
      cases k with
      | zero =>
        obtain rfl : θ = θ' := by simpa using hθ
        exact hb
      | succ k =>
        have := h2 k θ' (by simpa using hk) (by simpa using hθ)
        rw [show i + 1 + k = i + (k + 1) by ring] at this
        rw [this]
        simp

theorem endless_traces {xt yt rt u w : ℝ} {d tol ms : XR} {fe : ℕ → ℕ → XR × XR → Except PyErr (XR × XR)} {n : ℤ} {f : PField ℝ}
    (hf : f.WF) (h : computeCapturezone xt yt rt n d f u w tol ms fe = none) :
    ((endlessTraces xt yt rt n d f u tol ms fe).length : ℤ) < n ∧
    ∀ k : ℕ, k ≤ (endlessTraces xt yt rt n d f u tol ms fe).length →
      computeBacktrace (.fin (xt + (rt + 1) * Real.cos (2 * Real.pi * k / n))) (.fin (yt + (rt + 1) * Real.sin (2 * Real.pi * k / n)))
        d tol ms (fe k) = (endlessTraces xt yt rt n d f u tol ms fe)[k]? := by
  unfold computeCapturezone at h
  unfold endlessTraces
  cases ha : startAngles n with
  | error e => rw [ha] at h; simp at h
  | ok θs =>
    rw [ha] at h
    simp only at h ⊢
    have hnone : captureLoop xt yt rt d u tol ms fe θs 0 f [] = none := by
      cases hc : captureLoop xt yt rt d u tol ms fe θs 0 f [] with
      | none => rfl
      | some c =>
        rw [hc] at h
        obtain ⟨cf, co, ct⟩ := c
        cases co with
        | error e => simp at h
        | ok _ =>
          simp only at h
          cases hreg : cf.register w <;> rw [hreg] at h <;> simp at h
    obtain ⟨h1, h2⟩ := completed_spec θs 0 f [] hf hnone
    unfold startAngles at ha
    split at ha
    · simp at ha
    obtain rfl := Except.ok.inj ha
    simp only [List.length_map, List.length_range] at h1
    refine ⟨by omega, fun k hk => ?_⟩
    have := h2 k ((k:ℝ) * (2 * Real.pi / n)) hk (by
      rw [List.getElem?_map, List.getElem?_range (by omega)]
      rfl)
    rw [← this]
    simp only [startAt, Nat.zero_add]
    rw [show (k:ℝ) * (2 * Real.pi / n) = 2 * Real.pi * k / n by ring, add_comm xt, add_comm yt]

theorem endless_realization {a : RunArgs} {la : LinAlg} {t : SWell} {q : Dist → ℕ → Except PyErr ℝ}
    {coefs : (Fin 6 → ℝ) → Matrix (Fin 6) (Fin 6) ℝ → Except PyErr (Fin 6 → ℝ)} {recharge : (Fin 6 → ℝ) → ℝ}
    {interrupt : ℕ → ℕ → Option PyErr} {f : PField ℝ} (hf : f.WF) (h : realize a la t q coefs recharge interrupt f = none) :
    ∃ L, endlessRealization a la t q coefs recharge interrupt f = [L] ∧ Stalled a la t q coefs interrupt L ∧ L.recharge = recharge L.model.coef := by
  unfold realize at h
  unfold endlessRealization
  split at h
  · simp at h
  rename_i mo hmo
  split at h
  · simp at h
  rename_i mo' ev cov hfit
  split at h
  · simp at h
  rename_i c hc
  simp only at h
  split at h
  swap
  · simp at h
  rename_i hr
  obtain ⟨t1, t2⟩ := endless_traces hf hr
  obtain ⟨d1, d2, d3, d4, d5⟩ := drawModel_ok hmo
  obtain ⟨w1, w2⟩ := drawWells_ok _ _ _ d2
  have e := fit_model hfit
  subst e
  refine ⟨_, rfl, ?_, rfl⟩
  refine ⟨d1, w1, ?_, d3, d4, d5, ⟨rfl, rfl⟩, ?_, hc, t1, ?_⟩
  · intro j w hj
    obtain ⟨d, x, y⟩ := w2 j w hj
    exact ⟨d, x, by simpa using y⟩
  · rw [← show (mo.fitRegionalFlow la a.obs t.xw t.yw).2 = .ok (ev, cov) by rw [hfit]]
    refine fit_congr ?_ ?_ ?_ ?_ _ _ _ <;> rfl
  · intro k hk
    simp only [Aquifer.reverseVelocity_eq]
    exact t2 k hk

/-- a realization that raises has logged nothing -/
theorem realize_error_log {a : RunArgs} {la : LinAlg} {t : SWell} {q : Dist → ℕ → Except PyErr ℝ}
    {coefs : (Fin 6 → ℝ) → Matrix (Fin 6) (Fin 6) ℝ → Except PyErr (Fin 6 → ℝ)} {recharge : (Fin 6 → ℝ) → ℝ}
    {interrupt : ℕ → ℕ → Option PyErr} {f : PField ℝ} (hf : f.WF) (hb : f.body ≠ none) (hn : 0 ≤ a.npaths) {e : PyErr} {l : List RealizationLog}
    (h : realize a la t q coefs recharge interrupt f = some (.error e, l)) : l = [] := by
  unfold realize at h
  split at h
  · simp at h; exact h.2
  split at h
  · simp at h; exact h.2
  split at h
  · simp at h; exact h.2
  simp only at h
  split at h
  · simp at h
  rename_i r hr
  rw [← Int.toNat_of_nonneg hn] at hr
  obtain ⟨ho, -⟩ := capture_spec hf (.inl hb) hr
  rw [ho] at h
  simp [Except.map] at h

/-- the log of a run that ends -/
theorem loop_log {a : RunArgs} {env : Env} {t : SWell} (hn : 0 ≤ a.npaths) : ∀ (k i : ℕ) (f : PField ℝ) (acc : List RealizationLog) (r : RunResult),
    f.Reachable → f.body ≠ none → (∀ X Y, ¬ f.markedAt X Y) → stochasticLoop a env t k i f acc = some r →
    ∃ Ls, r.log = acc ++ Ls ∧ Ls.length ≤ k ∧ (∀ e, r.outcome = .error e → Ls.length < k) ∧
      ∀ (j : ℕ) (L : RealizationLog), Ls[j]? = some L →
        Realized a env.la t (fun d m => d.sample (env.u (i + j) m)) (env.mvn (i + j)) (env.interrupt (i + j)) L ∧ L.recharge = 2 * (L.model.coef 0 + L.model.coef 1) := by
  intro k
  induction k with
  | zero =>
    intro i f acc r _ _ _ h
    obtain rfl := Option.some.inj h
    exact ⟨[], by simp, by simp, by simp, by simp⟩
  | succ k ih =>
    intro i f acc r hf hb hc h
    unfold stochasticLoop at h
    split at h
    · simp at h
    · rename_i e l hreal
      obtain rfl := Option.some.inj h
      obtain rfl := realize_error_log (reachable_wf hf) hb hn hreal
      exact ⟨[], by simp, by simp, by simp, by simp⟩
    · rename_i f1 l hreal
      obtain ⟨b, hb'⟩ := Option.ne_none_iff_exists'.mp hb
      obtain ⟨L, rfl, hL, hrc, hf1, i1, c1, -⟩ := realize_spec hf hb' hc hreal
      obtain ⟨b1, hb1, hlat⟩ := i1.lattice b hb'
      obtain ⟨Ls, h1, h2, h2', h3⟩ := ih (i+1) f1 _ r hf1 (by rw [hb1]; simp) c1 h
      refine ⟨L :: Ls, by rw [h1]; simp, by simpa using h2, fun e he => by simpa using h2' e he, fun j L' hj => ?_⟩
      cases j with
      | zero =>
        obtain rfl : L = L' := by simpa using hj
        exact ⟨hL, hrc⟩
      | succ j =>
        have := h3 j L' (by simpa using hj)
        rwa [show i + 1 + j = i + (j + 1) by ring] at this

/-- the log of a run that never ends -/
theorem loop_endless_log {a : RunArgs} {env : Env} {t : SWell} : ∀ (k i : ℕ) (f : PField ℝ) (acc : List RealizationLog),
    f.Reachable → f.body ≠ none → (∀ X Y, ¬ f.markedAt X Y) → stochasticLoop a env t k i f acc = none →
    ∃ Ls S, endlessLoop a env t k i f = Ls ++ [S] ∧ Ls.length < k ∧
      (∀ (j : ℕ) (L : RealizationLog), Ls[j]? = some L →
        Realized a env.la t (fun d m => d.sample (env.u (i + j) m)) (env.mvn (i + j)) (env.interrupt (i + j)) L ∧ L.recharge = 2 * (L.model.coef 0 + L.model.coef 1)) ∧
      Stalled a env.la t (fun d m => d.sample (env.u (i + Ls.length) m)) (env.mvn (i + Ls.length)) (env.interrupt (i + Ls.length)) S ∧
      S.recharge = 2 * (S.model.coef 0 + S.model.coef 1) := by
  intro k
  induction k with
  | zero => intro i f acc _ _ _ h; simp [stochasticLoop] at h
  | succ k ih =>
    intro i f acc hf hb hc h
    unfold stochasticLoop at h
    unfold endlessLoop
    split at h
    · rename_i hreal
      obtain ⟨S, h1, h2, h3⟩ := endless_realization (reachable_wf hf) hreal
      rw [hreal]
      exact ⟨[], S, by simpa using h1, by simp, by simp, h2, h3⟩
    · simp at h
    · rename_i f1 l hreal
      obtain ⟨b, hb'⟩ := Option.ne_none_iff_exists'.mp hb
      obtain ⟨L, rfl, hL, hrc, hf1, i1, c1, -⟩ := realize_spec hf hb' hc hreal
      obtain ⟨b1, hb1, hlat⟩ := i1.lattice b hb'
      obtain ⟨Ls, S, h1, h2, h3, h4, h5⟩ := ih (i+1) f1 _ hf1 (by rw [hb1]; simp) c1 h
      rw [hreal]
      refine ⟨L :: Ls, S, by simp [h1], by simpa using h2, fun j L' hj => ?_, ?_, h5⟩
      · cases j with
        | zero =>
          obtain rfl : L = L' := by simpa using hj
          exact ⟨hL, hrc⟩
        | succ j =>
          have := h3 j L' (by simpa using hj)
          rwa [show i + 1 + j = i + (j + 1) by ring] at this
      · rwa [show i + 1 + Ls.length = i + (L :: Ls).length by simp; ring] at h4

/-- What a call with accepted arguments logs about its realizations, and how it ends. -/
theorem logged_course {a : PyArgs} {n : Inputs} (env : CallEnv) (ha : Acceptable a) (hd : a.Denotes n) {obs : List Obs}
    (ho : filterObs n.run.obs n.wellfield n.buffer = .ok obs) :
    (realizations (oneka a env).events = [] ∧ obs.length ≤ 6 ∧ (oneka a env).ending = .raises .assertionError) ∨
    (realizations (oneka a env).events = theEndless n env obs ∧ theRun n env obs = none ∧ (oneka a env).ending = .diverges) ∨
    ∃ r, realizations (oneka a env).events = r.log ∧ theRun n env obs = some r ∧ (oneka a env).ending ≠ .diverges ∧
      (∀ f, r.outcome = .ok f → ∀ e, (oneka a env).ending = .raises e → env.openError = some e ∨ env.writeError = some e) := by
  obtain ⟨⟨k, t, hk, ht⟩, -⟩ := accepted_inputs ha hd
  have hst : stage a env = compute n env := by unfold stage; rw [inputs_of_denotes hd]
  obtain ⟨ws, os, -, -, hlog⟩ := log_accepted ha hd.nrealizations
  have hp := fullLog_effects (a := a) (s := decide (1 < n.nrealizations)) (ws := ws) (os := os)
  have hev : realizations (oneka a env).events = realizations (compute n env).events := by
    rcases course a env with ⟨e', h1, -⟩ | ⟨e', -, h1, h2⟩ | ⟨e', -, -, h1, h2⟩ | ⟨-, -, h1, h2⟩ | ⟨f, e', -, -, -, -, h2⟩ | ⟨f, e', -, -, -, -, -, h2⟩ | ⟨f, -, -, -, -, -, h2⟩
    · exact absurd ha h1
    · rw [hlog] at h1; simp at h1
    all_goals
      rw [h2, hst, hlog]
      simp only [realizations_append, realizations_plain hp, List.nil_append]
      try rfl
    all_goals
      simp [realizations]
  have hend : ∀ e, (compute n env).ending = .raises e → (oneka a env).ending = .raises e := fun e h => stage_raises ha hd (by rw [hst]; exact h)
  have hret : ∀ f, (compute n env).ending = .returns f → (oneka a env).ending ≠ .diverges ∧
      ∀ e, (oneka a env).ending = .raises e → env.openError = some e ∨ env.writeError = some e := by
    intro f h
    rcases course a env with ⟨e', h1, -⟩ | ⟨e', -, h1, h2⟩ | ⟨e', -, -, h1, h2⟩ | ⟨-, -, h1, h2⟩ | ⟨f, e', -, -, -, h1, h2⟩ | ⟨f, e', -, -, -, -, h1, h2⟩ | ⟨f, -, -, -, -, -, h2⟩
    · exact absurd ha h1
    · rw [hlog] at h1; simp at h1
    · rw [hst, h] at h1; simp at h1
    · rw [hst, h] at h1; simp at h1
    · rw [h2, h1]; simp
    · rw [h2, h1]; simp
    · rw [h2]; simp
  rcases computed env ho hk ht with ⟨h6, c⟩ | ⟨cols, -, -, hrun, c⟩ | ⟨cols, r, e, -, -, hrun, hout, c⟩ | ⟨cols, r, f, pl, im, lines, -, -, -, hrun, hout, -, -, -, -, -, c⟩ |
    ⟨cols, r, f, pl, -, -, -, hrun, hout, -, -, -, c⟩
  · exact .inl ⟨by rw [hev, c, realizations_filterEvents], h6, hend _ (by rw [c])⟩
  · refine .inr (.inl ⟨?_, hrun, ?_⟩)
    · rw [hev, c]
      unfold preLog
      simp only [realizations_append, realizations_filterEvents]
      have : realizations ((theEndless n env obs).map fun l => .log (.realization l)) = theEndless n env obs := by
        unfold realizations
        rw [List.filterMap_map]
        exact List.filterMap_some
      rw [this]
      simp [realizations]
    · rcases course a env with ⟨e', h1, -⟩ | ⟨e', -, h1, h2⟩ | ⟨e', -, -, h1, h2⟩ | ⟨-, -, h1, h2⟩ | ⟨f, e', -, -, h1, -, h2⟩ | ⟨f, e', -, -, h1, -, -, h2⟩ | ⟨f, -, -, h1, -, -, h2⟩
      · exact absurd ha h1
      · rw [hlog] at h1; simp at h1
      · rw [hst, c] at h1; simp at h1
      · rw [h2]
      all_goals rw [hst, c] at h1; simp at h1
  · refine .inr (.inr ⟨r, ?_, hrun, ?_, ?_⟩)
    · rw [hev, c]
      unfold preLog
      simp only [realizations_append, realizations_filterEvents, realizations_runLog]
      simp [realizations]
    · rw [hend e (by rw [c])]; simp
    · intro f hf; rw [hf] at hout; simp at hout
  · refine .inr (.inr ⟨r, ?_, hrun, (hret _ (by rw [c])).1, fun _ _ => (hret _ (by rw [c])).2⟩)
    rw [hev, c]
    unfold preLog
    simp only [realizations_append, realizations_filterEvents, realizations_runLog, realizations_lines]
    simp [realizations, decileHeader]
  · refine .inr (.inr ⟨r, ?_, hrun, (hret _ (by rw [c])).1, fun _ _ => (hret _ (by rw [c])).2⟩)
    rw [hev, c]
    unfold preLog
    simp only [realizations_append, realizations_filterEvents, realizations_runLog]
    simp [realizations]

end Oneka
