import Verif.Lemmas.Run
import Verif.Props.Variate
import Verif.Props.Fit
import Verif.Props.Aquifer

/-!
# Lemmas for Props/Runs.lean
-/

namespace Oneka

open PField Aquifer

/-- a draw from a distribution on `[lo, hi]` -/
theorem sample_mem {d : Dist} {lo hi : ℝ} (h : IsDist d.toPy lo hi) {u v : ℝ} (hu : 0 ≤ u) (hu1 : u < 1) (hv : d.sample u = .ok v) :
    lo ≤ v ∧ v ≤ hi := by
  obtain ⟨w, x, h1, h2, h3, h4, -⟩ := C41_in_range h hu hu1
  unfold Dist.sample at hv
  rw [h1] at hv
  cases w <;> simp only [PyVal.asReal, reduceCtorEq] at hv
  rename_i z
  cases z <;> simp only [PyVal.asReal, reduceCtorEq, Except.ok.injEq] at hv
  simp only [PyVal.num, Option.some.injEq, XR.fin.injEq] at h2
  rw [← hv, h2]
  exact ⟨h3, h4⟩

theorem realize_error {a : RunArgs} {la : LinAlg} {t : SWell} {q : Dist → ℕ → Except PyErr ℝ}
    {coefs : (Fin 6 → ℝ) → Matrix (Fin 6) (Fin 6) ℝ → Except PyErr (Fin 6 → ℝ)} {recharge : (Fin 6 → ℝ) → ℝ}
    {interrupt : ℕ → ℕ → Option PyErr} {f : PField ℝ} {e : PyErr} {l : List RealizationLog} (hf : f.WF) (hb : f.body ≠ none)
    (hn : -1 ≤ a.npaths) (h : realize a la t q coefs recharge interrupt f = some (.error e, l)) :
    drawModel a q = .error e ∨ ∃ m, drawModel a q = .ok m ∧ ((m.fitRegionalFlow la a.obs t.xw t.yw).2 = .error e ∨
      ∃ ev cov, (m.fitRegionalFlow la a.obs t.xw t.yw).2 = .ok (ev, cov) ∧ coefs ev cov = .error e) := by
  unfold realize at h
  split at h
  · rename_i e' hd
    simp only [Option.some.injEq, Prod.mk.injEq, Except.error.injEq] at h
    exact Or.inl (h.1 ▸ hd)
  rename_i mo hmo
  right
  refine ⟨mo, hmo, ?_⟩
  split at h
  · rename_i e' hfit
    simp only [Option.some.injEq, Prod.mk.injEq, Except.error.injEq] at h
    left
    rw [hfit, h.1]
  rename_i mo' ev cov hfit
  right
  refine ⟨ev, cov, by rw [hfit], ?_⟩
  split at h
  · rename_i e' hc
    simp only [Option.some.injEq, Prod.mk.injEq, Except.error.injEq] at h
    exact h.1 ▸ hc
  rename_i c hc
  exfalso
  simp only at h
  split at h <;> [simp at h; skip]
  rename_i r hr
  simp only [Option.some.injEq, Prod.mk.injEq] at h
  have hr' : ∃ m : ℕ, computeCapturezone t.xw t.yw t.rw m a.duration f a.umbra 1 a.tol a.maxstep
      (runVelocity { mo' with coef := c } a.confined interrupt) = some r := by
    rcases (by omega : 0 ≤ a.npaths ∨ a.npaths = -1) with h0 | h0
    · exact ⟨a.npaths.toNat, by rw [Int.toNat_of_nonneg h0]; exact hr⟩
    · refine ⟨0, ?_⟩
      rw [← hr, h0]
      have e : startAngles ((0 : ℕ) : ℤ) = startAngles (-1) := by
        unfold startAngles
        simp
      unfold computeCapturezone
      rw [e]
  obtain ⟨m, hr'⟩ := hr'
  obtain ⟨ho, -⟩ := capture_spec hf (Or.inl hb) hr'
  rw [ho] at h
  simp [Except.map] at h

theorem loop_error {a : RunArgs} {env : Env} {t : SWell} (hn : -1 ≤ a.npaths) : ∀ (k i : ℕ) (f : PField ℝ) (acc : List RealizationLog)
    (r : RunResult) (e : PyErr),
    f.Reachable → f.body ≠ none → (∀ X Y, ¬ f.markedAt X Y) → stochasticLoop a env t k i f acc = some r → r.outcome = .error e →
    ∃ j, i ≤ j ∧ j < i + k ∧ (drawModel a (fun d m => d.sample (env.u j m)) = .error e ∨
      ∃ m, drawModel a (fun d m => d.sample (env.u j m)) = .ok m ∧ ((m.fitRegionalFlow env.la a.obs t.xw t.yw).2 = .error e ∨
        ∃ ev cov, (m.fitRegionalFlow env.la a.obs t.xw t.yw).2 = .ok (ev, cov) ∧ env.mvn j ev cov = .error e)) := by
  intro k
  induction k with
  | zero =>
    intro i f acc r e _ _ _ h ho
    obtain rfl := Option.some.inj h
    simp at ho
  | succ k ih =>
    intro i f acc r e hf hb hc h ho
    unfold stochasticLoop at h
    split at h
    · simp at h
    · rename_i e' l hreal
      obtain rfl := Option.some.inj h
      obtain rfl := Except.error.inj ho
      exact ⟨i, le_rfl, by omega, realize_error (reachable_wf hf) hb hn hreal⟩
    · rename_i f1 l hreal
      obtain ⟨b, hb'⟩ := Option.ne_none_iff_exists'.mp hb
      obtain ⟨L, rfl, hL, hrc, hf1, i1, c1, -⟩ := realize_spec hf hb' hc hreal
      obtain ⟨b1, hb1, hlat⟩ := i1.lattice b hb'
      obtain ⟨j, j1, j2, hj⟩ := ih (i+1) f1 _ r e hf1 (by rw [hb1]; simp) c1 h ho
      exact ⟨j, by omega, by omega, hj⟩

theorem loop_returns {a : RunArgs} {env : Env} {t : SWell}
    (H : ∀ m i k x y, ∃ tr, computeBacktrace (.fin x) (.fin y) a.duration a.tol a.maxstep (runVelocity m a.confined (env.interrupt i) k) = some tr) :
    ∀ (k i : ℕ) (f : PField ℝ) (acc : List RealizationLog),
    f.Reachable → f.body ≠ none → (∀ X Y, ¬ f.markedAt X Y) → ∃ r, stochasticLoop a env t k i f acc = some r := by
  intro k
  induction k with
  | zero => intro i f acc _ _ _; exact ⟨_, rfl⟩
  | succ k ih =>
    intro i f acc hf hb hc
    unfold stochasticLoop
    have hreal : ∃ o, realize a env.la t (fun d j => d.sample (env.u i j)) (env.mvn i) (fun c => 2 * (c 0 + c 1))
        (env.interrupt i) f = some o := by
      unfold realize
      split
      · exact ⟨_, rfl⟩
      split
      · exact ⟨_, rfl⟩
      rename_i mo' ev cov _
      split
      · exact ⟨_, rfl⟩
      rename_i c _
      simp only
      obtain ⟨r, hr⟩ := capture_terminates (xt := t.xw) (yt := t.yw) (rt := t.rw) (u := a.umbra) (w := 1) (d := a.duration)
        (tol := a.tol) (ms := a.maxstep) (n := a.npaths) (fe := runVelocity { mo' with coef := c } a.confined (env.interrupt i)) (reachable_wf hf) (fun k θ => H _ i k _ _)
      rw [hr]
      exact ⟨_, rfl⟩
    obtain ⟨⟨o, l⟩, ho⟩ := hreal
    rw [ho]
    cases o with
    | error e => exact ⟨_, rfl⟩
    | ok f1 =>
      obtain ⟨b, hb'⟩ := Option.ne_none_iff_exists'.mp hb
      obtain ⟨L, rfl, hL, hrc, hf1, i1, c1, -⟩ := realize_spec hf hb' hc ho
      obtain ⟨b1, hb1, hlat⟩ := i1.lattice b hb'
      exact ih (i+1) f1 _ hf1 (by rw [hb1]; simp) c1

/-- a run returns if all its traces do -/
theorem stochastic_returns {a : RunArgs} {n : ℤ} {env : Env}
    (H : ∀ m i k x y, ∃ tr, computeBacktrace (.fin x) (.fin y) a.duration a.tol a.maxstep (runVelocity m a.confined (env.interrupt i) k) = some tr) :
    ∃ r, createStochastic a n env = some r := by
  unfold createStochastic
  split
  · exact ⟨_, rfl⟩
  split
  · exact ⟨_, rfl⟩
  rename_i f hnew
  obtain ⟨hs, hdx, hdy, h0, hr0, hm0, hw0, ⟨b, hb, hbx, hby⟩, hnr, hnc⟩ := new_spec hnew
  exact loop_returns H _ 0 f [] hr0 (by rw [hb]; simp) hm0

/-- a trace interrupted at its first velocity evaluation has only its starting point -/
theorem interrupted_at_once {xs ys d tol ms : XR} {fe : ℕ → XR × XR → Except PyErr (XR × XR)} {e : PyErr} (h : ∀ p, fe 0 p = .error e)
    {tr : Trace XR} (ht : computeBacktrace xs ys d tol ms fe = some tr) : tr.vertices = [(xs, ys)] := by
  unfold computeBacktrace at ht
  rw [h] at ht
  simp only [Option.some.injEq] at ht
  rw [← ht]

end Oneka
