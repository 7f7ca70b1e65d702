import Verif.Props.Report
import Verif.Lemmas.Draw
import Verif.Props.Wells
import Verif.Spec.Causes

/-!
# Lemmas for Props/Causes.lean
-/

namespace Oneka

open PField

theorem capture_endless {xt yt rt u w : ℝ} {d tol ms : XR} {fe : ℕ → ℕ → XR × XR → Except PyErr (XR × XR)} {n : ℤ} {f : PField ℝ}
    (hf : f.WF) (h : computeCapturezone xt yt rt n d f u w tol ms fe = none) :
    ∃ k : ℕ, (k : ℤ) < n ∧ computeBacktrace (.fin (xt + (rt + 1) * Real.cos (2 * Real.pi * k / n))) (.fin (yt + (rt + 1) * Real.sin (2 * Real.pi * k / n)))
      d tol ms (fe k) = none := by
  by_contra hcon
  push Not at hcon
  unfold computeCapturezone at h
  cases ha : startAngles n with
  | error e => rw [ha] at h; simp at h
  | ok θs =>
    rw [ha] at h
    simp only at h
    obtain ⟨c, hc⟩ := captureLoop_terminates (xt := xt) (yt := yt) (rt := rt) (d := d) (u := u) (tol := tol) (ms := ms)
      (fe := fe) θs 0 f [] hf (by
        intro k θ hk
        unfold startAngles at ha
        split at ha
        · simp at ha
        · obtain rfl := Except.ok.inj ha
          rw [List.getElem?_map] at hk
          have hkn : k < n.toNat := by
            by_contra hh
            rw [List.getElem?_eq_none (by simpa using hh)] at hk
            simp at hk
          rw [List.getElem?_range hkn] at hk
          obtain rfl : (k:ℝ) * (2 * Real.pi / n) = θ := by simpa using hk
          have := hcon k (by omega)
          obtain ⟨t, ht⟩ := Option.ne_none_iff_exists'.mp this
          refine ⟨t, ?_⟩
          rw [← ht]
          simp only [startAt, Nat.zero_add]
          rw [show (k:ℝ) * (2 * Real.pi / n) = 2 * Real.pi * k / n by ring, add_comm xt, add_comm yt])
    rw [hc] at h
    obtain ⟨cf, co, ct⟩ := c
    cases co with
    | error e => simp at h
    | ok _ =>
      simp only at h
      cases hreg : cf.register w <;> rw [hreg] at h <;> simp at h

theorem realize_endless {a : RunArgs} {la : LinAlg} {t : SWell} {q : Dist → ℕ → Except PyErr ℝ}
    {coefs : (Fin 6 → ℝ) → Matrix (Fin 6) (Fin 6) ℝ → Except PyErr (Fin 6 → ℝ)} {recharge : (Fin 6 → ℝ) → ℝ}
    {interrupt : ℕ → ℕ → Option PyErr} {f : PField ℝ} (hf : f.WF) (h : realize a la t q coefs recharge interrupt f = none) :
    EndlessTrace a la t q coefs interrupt := by
  unfold realize at h
  split at h
  · simp at h
  rename_i mo hmo
  split at h
  · simp at h
  rename_i mo' ev cov hfit
  split at h
  · simp at h
  rename_i c hc
  simp only at h
  split at h
  swap
  · simp at h
  rename_i hr
  obtain ⟨k, hk, htr⟩ := capture_endless hf hr
  refine ⟨mo, ev, cov, c, drawModel_iff.mp hmo, by rw [hfit], hc, k, hk, ?_⟩
  simp only [Aquifer.reverseVelocity_eq]
  rw [← htr, fit_model hfit]
  rfl

theorem loop_endless {a : RunArgs} {env : Env} {t : SWell} : ∀ (k i : ℕ) (f : PField ℝ) (acc : List RealizationLog),
    f.Reachable → f.body ≠ none → (∀ X Y, ¬ f.markedAt X Y) → stochasticLoop a env t k i f acc = none →
    ∃ j, i ≤ j ∧ j < i + k ∧ EndlessTrace a env.la t (fun d m => d.sample (env.u j m)) (env.mvn j) (env.interrupt j) := by
  intro k
  induction k with
  | zero => intro i f acc _ _ _ h; simp [stochasticLoop] at h
  | succ k ih =>
    intro i f acc hf hb hc h
    unfold stochasticLoop at h
    split at h
    · rename_i hreal
      exact ⟨i, le_rfl, by omega, realize_endless (reachable_wf hf) hreal⟩
    · simp at h
    · rename_i f1 l hreal
      obtain ⟨b, hb'⟩ := Option.ne_none_iff_exists'.mp hb
      obtain ⟨L, rfl, hL, hrc, hf1, i1, c1, -⟩ := realize_spec hf hb' hc hreal
      obtain ⟨b1, hb1, hlat⟩ := i1.lattice b hb'
      obtain ⟨j, j1, j2, hj⟩ := ih (i+1) f1 _ hf1 (by rw [hb1]; simp) c1 h
      exact ⟨j, by omega, by omega, hj⟩

theorem stochastic_endless {a : RunArgs} {n k : ℕ} {env : Env} {t : SWell} (hk : a.target = k) (ht : a.wells[k]? = some t)
    (h : createStochastic a n env = none) :
    ∃ j < n, EndlessTrace a env.la t (fun d m => d.sample (env.u j m)) (env.mvn j) (env.interrupt j) := by
  unfold createStochastic at h
  rw [hk, getWell_nat ht] at h
  simp only at h
  split at h
  · simp at h
  rename_i f0 hnew
  obtain ⟨hs, hdx, hdy, h0, hr0, hm0, hw0, ⟨b, hb, hbx, hby⟩, hnr, hnc⟩ := new_spec hnew
  obtain ⟨j, -, j2, hj⟩ := loop_endless _ 0 f0 [] hr0 (by rw [hb]; simp) hm0 h
  exact ⟨j, by simpa using j2, hj⟩

theorem deterministic_endless {a : RunArgs} {k : ℕ} {env : Env} {t : SWell} (hk : a.target = k) (ht : a.wells[k]? = some t)
    (h : createDeterministic a env = none) :
    EndlessTrace a env.la t (fun d _ => d.mean) (fun ev _ => .ok ev) (env.interrupt 0) := by
  unfold createDeterministic at h
  rw [hk, getWell_nat ht] at h
  simp only at h
  split at h
  · simp at h
  rename_i f0 hnew
  obtain ⟨hs, hdx, hdy, h0, hr0, hm0, hw0, ⟨b, hb, hbx, hby⟩, hnr, hnc⟩ := new_spec hnew
  split at h
  · rename_i hreal
    exact realize_endless (reachable_wf hr0) hreal
  · simp at h

theorem deterministic_error {a : RunArgs} {k : ℕ} {env : Env} {t : SWell} (hk : a.target = k) (ht : a.wells[k]? = some t) (hs : 0 < a.spacing)
    (hn : 0 ≤ a.npaths) {r : RunResult} {e : PyErr} (h : createDeterministic a env = some r) (ho : r.outcome = .error e) :
    drawModel a (fun d _ => d.mean) = .error e ∨ ∃ m, drawModel a (fun d _ => d.mean) = .ok m ∧ (m.fitRegionalFlow env.la a.obs t.xw t.yw).2 = .error e := by
  unfold createDeterministic at h
  rw [hk, getWell_nat ht] at h
  simp only at h
  split at h
  · rename_i e' hnew
    unfold PField.new at hnew
    rw [if_neg (by linarith), if_neg (by linarith)] at hnew
    simp at hnew
  · rename_i f0 hnew
    obtain ⟨hs, hdx, hdy, h0, hr0, hm0, hw0, ⟨b, hb, hbx, hby⟩, hnr, hnc⟩ := new_spec hnew
    split at h
    · simp at h
    rename_i o l hreal
    obtain rfl := Option.some.inj h
    simp only at ho
    subst ho
    rcases realize_error (reachable_wf hr0) (by rw [hb]; simp) (by omega) hreal with h | ⟨m, hm, h | ⟨ev, cov, -, h⟩⟩
    · exact .inl h
    · exact .inr ⟨m, hm, h⟩
    · simp at h

/-- an exception of the computations is an exception of the call -/
theorem stage_raises {a : PyArgs} {n : Inputs} {env : CallEnv} (ha : Acceptable a) (hd : a.Denotes n) {e : PyErr} (h : (stage a env).ending = .raises e) :
    (oneka a env).ending = .raises e := by
  obtain ⟨ws, os, -, -, hl⟩ := log_accepted ha hd.nrealizations
  rcases course a env with ⟨e', h1, -⟩ | ⟨e', -, h1, -⟩ | ⟨e', -, -, h1, h2⟩ | ⟨-, -, h1, h2⟩ | ⟨f, e', -, -, h1, -⟩ | ⟨f, e', -, -, h1, -⟩ | ⟨f, -, -, h1, -⟩
  · exact absurd ha h1
  · rw [hl] at h1; simp at h1
  · obtain rfl : e' = e := by rw [h] at h1; simpa using h1.symm
    rw [h2]
  all_goals rw [h] at h1; simp at h1

/-- a failing fit ends the realization -/
theorem realize_fit_error {a : RunArgs} {la : LinAlg} {t : SWell} {q : Dist → ℕ → Except PyErr ℝ}
    {coefs : (Fin 6 → ℝ) → Matrix (Fin 6) (Fin 6) ℝ → Except PyErr (Fin 6 → ℝ)} {recharge : (Fin 6 → ℝ) → ℝ}
    {interrupt : ℕ → ℕ → Option PyErr} {f : PField ℝ} {m : Aquifer ℝ} {e : PyErr} (hm : drawModel a q = .ok m)
    (h : (m.fitRegionalFlow la a.obs t.xw t.yw).2 = .error e) : realize a la t q coefs recharge interrupt f = some (.error e, []) := by
  unfold realize
  rw [hm]
  simp only
  split
  · rename_i e' hfit
    rw [hfit] at h
    simp only [Except.error.injEq] at h
    rw [h]
  · rename_i hfit
    rw [hfit] at h
    simp at h

theorem new_ok {s x y : ℝ} (hs : 0 < s) : ∃ f : PField ℝ, PField.new s s (some x) (some y) = .ok f := by
  unfold PField.new
  rw [if_neg (by linarith), if_neg (by linarith)]
  exact ⟨_, rfl⟩

theorem stochastic_fit_error {a : RunArgs} {n k : ℕ} {env : Env} {t : SWell} (hk : a.target = k) (ht : a.wells[k]? = some t) (hs : 0 < a.spacing)
    {m : Aquifer ℝ} {e : PyErr} (hm : drawModel a (fun d j => d.sample (env.u 0 j)) = .ok m) (h : (m.fitRegionalFlow env.la a.obs t.xw t.yw).2 = .error e) :
    createStochastic a (n + 1 : ℕ) env = some ⟨.error e, []⟩ := by
  unfold createStochastic
  obtain ⟨f0, hf0⟩ := new_ok (x := t.xw) (y := t.yw) hs
  simp only [hk, getWell_nat ht, hf0, Int.toNat_natCast]
  unfold stochasticLoop
  rw [realize_fit_error hm h]
  rfl

theorem deterministic_fit_error {a : RunArgs} {k : ℕ} {env : Env} {t : SWell} (hk : a.target = k) (ht : a.wells[k]? = some t) (hs : 0 < a.spacing)
    {m : Aquifer ℝ} {e : PyErr} (hm : drawModel a (fun d _ => d.mean) = .ok m) (h : (m.fitRegionalFlow env.la a.obs t.xw t.yw).2 = .error e) :
    createDeterministic a env = some ⟨.error e, []⟩ := by
  unfold createDeterministic
  obtain ⟨f0, hf0⟩ := new_ok (x := t.xw) (y := t.yw) hs
  simp only [hk, getWell_nat ht, hf0]
  rw [realize_fit_error hm h]

/-- with a second well where the first trace starts, the first realization of a run never ends -/
theorem realize_hangs {a : RunArgs} {la : LinAlg} {t : SWell} {q : Dist → ℕ → Except PyErr ℝ}
    {coefs : (Fin 6 → ℝ) → Matrix (Fin 6) (Fin 6) ℝ → Except PyErr (Fin 6 → ℝ)} {recharge : (Fin 6 → ℝ) → ℝ}
    {interrupt : ℕ → ℕ → Option PyErr} {f : PField ℝ} {m : Aquifer ℝ} {ev : Fin 6 → ℝ} {cov : Matrix (Fin 6) (Fin 6) ℝ} {c : Fin 6 → ℝ} {d : ℝ}
    (hm : drawModel a q = .ok m) (hp : m.Physical) (h : (m.fitRegionalFlow la a.obs t.xw t.yw).2 = .ok (ev, cov)) (hc : coefs ev cov = .ok c)
    (hi : ∀ k n, interrupt k n = none) (hcf : a.confined = true) (hd : a.duration = .fin d) (hd0 : d ≠ 0) (hn : 0 < a.npaths)
    (hw : ∃ w ∈ a.wells, (w.xw, w.yw) = (t.xw + (t.rw + 1), t.yw)) : realize a la t q coefs recharge interrupt f = none := by
  unfold realize
  rw [hm]
  simp only
  split
  · rename_i hfit
    rw [hfit] at h
    simp at h
  · rename_i mo' ev' cov' hfit
    have e : (ev', cov') = (ev, cov) := by rw [hfit] at h; exact Except.ok.inj h
    obtain ⟨rfl, rfl⟩ := Prod.mk.inj e
    simp only [hc]
    have hmo := fit_model hfit
    have hv : runVelocity { mo' with coef := c } a.confined interrupt =
        fun _ _ => ({ m with xo := t.xw, yo := t.yw, coef := c } : Aquifer ℝ).toX.reverseVelocity true := by
      funext k n p
      unfold runVelocity
      rw [hi, hcf, hmo, Aquifer.reverseVelocity_eq]
    rw [hv, hd]
    rw [C21_fails_for_second_well_east ({ m with xo := t.xw, yo := t.yw, coef := c } : Aquifer ℝ) ⟨hp.1, hp.2, hp.3⟩ true _ _ _ _ _ _ _ _ _ hn _ hd0 ?_]
    obtain ⟨w, hwm, hwe⟩ := hw
    obtain ⟨j, hj, rfl⟩ := List.mem_iff_getElem.mp hwm
    obtain ⟨-, d2, -⟩ := drawModel_ok hm
    obtain ⟨-, w2⟩ := drawWells_ok _ _ _ d2
    obtain ⟨q', h1, -⟩ := w2 j _ (List.getElem?_eq_getElem hj)
    exact ⟨_, List.mem_of_getElem? h1, hwe, .inl rfl⟩

theorem stochastic_hangs {a : RunArgs} {n k : ℕ} {env : Env} {t : SWell} (hk : a.target = k) (ht : a.wells[k]? = some t) {f : PField ℝ}
    (hf : PField.new a.spacing a.spacing (some t.xw) (some t.yw) = .ok f)
    (h : realize a env.la t (fun d j => d.sample (env.u 0 j)) (env.mvn 0) (fun c => 2 * (c 0 + c 1)) (env.interrupt 0) f = none) :
    createStochastic a (n + 1 : ℕ) env = none := by
  unfold createStochastic
  simp only [hk, getWell_nat ht, hf, Int.toNat_natCast]
  unfold stochasticLoop
  rw [h]

theorem deterministic_hangs {a : RunArgs} {k : ℕ} {env : Env} {t : SWell} (hk : a.target = k) (ht : a.wells[k]? = some t) {f : PField ℝ}
    (hf : PField.new a.spacing a.spacing (some t.xw) (some t.yw) = .ok f)
    (h : realize a env.la t (fun d _ => d.mean) (fun ev _ => .ok ev) (fun c => -2 * (c 0 + c 1)) (env.interrupt 0) f = none) :
    createDeterministic a env = none := by
  unfold createDeterministic
  simp only [hk, getWell_nat ht, hf]
  rw [h]

section

variable {a : PyArgs} {n : Inputs} {env : CallEnv} (ha : Acceptable a) (hd : a.Denotes n) (hr : n.Regular)
  (hs : 1 < n.nrealizations → n.Spread ∧ ∀ i j, 0 ≤ env.run.u i j ∧ env.run.u i j < 1)
  (hla : env.run.la.Correct) (hc : env.run.la.Converges)

include ha hd hr hs hla hc

/-- a failing run -/
theorem run_failure {obs : List Obs} (ho : filterObs n.run.obs n.wellfield n.buffer = .ok obs) {r : RunResult} {e : PyErr} (h : theRun n env obs = some r)
    (he : r.outcome = .error e) : Failure n obs env e := by
  obtain ⟨⟨k, t, hk, ht⟩, hnp, hsp, -, -, hbuf, -⟩ := accepted_inputs ha hd
  have hstd := retained_std ho hr.2.2
  have fit : ∀ m : Aquifer ℝ, m.base = n.run.base → 0 < m.conductivity → 0 < m.thickness → (∀ o ∈ obs, m.OffWells o.x o.y) → (m.fitRegionalFlow env.run.la obs t.xw t.yw).2 = .error e →
      Failure n obs env e := by
    intro m hb hK hT hoff hf
    rcases fit_causes hla hc hK hT hstd hoff hf with ⟨rfl, o, ho, hz⟩ | ⟨rfl, hcon⟩
    · exact .dry o ho (by rw [← hb]; exact hz)
    · exact .conic hcon
  unfold theRun at h
  split at h
  · rename_i h1
    obtain ⟨hspread, hu⟩ := hs h1
    rw [show n.nrealizations = ((n.nrealizations.toNat : ℕ) : ℤ) by omega] at h
    obtain ⟨i, hi, hcase⟩ := C65_only_parameters_raise { n.run with obs := obs } n.nrealizations.toNat k env.run t hk ht hsp hnp.le h he
    obtain ⟨m, hm, mb, mK, mT⟩ := draw_stochastic ha hd hr hspread obs (hu i)
    rcases hcase with hcase | ⟨m', hm', hcase⟩
    · exact absurd hcase (drawModel_iff.mp hm).not_fails
    · obtain rfl : m = m' := (drawModel_iff.mp hm).unique hm'
      rcases hcase with hf | ⟨ev, cov, -, hmv⟩
      · exact fit m mb mK mT (retained_off hm hbuf ho) hf
      · exact .coefficients i ev cov e h1 (by omega) hmv
  · obtain ⟨m, hm, mb, mK, mT⟩ := draw_deterministic ha hd hr obs
    rcases deterministic_error (a := { n.run with obs := obs }) hk ht hsp hnp.le h he with hcase | ⟨m', hm', hf⟩
    · rw [hm] at hcase; simp at hcase
    · obtain rfl : m = m' := by rw [hm] at hm'; exact Except.ok.inj hm'
      exact fit m mb mK mT (retained_off hm hbuf ho) hf

end

end Oneka
