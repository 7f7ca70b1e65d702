import Verif.Lemmas.Certain
import Verif.Props.Runs
import Verif.Props.Reach
import Verif.Spec.Visualize

/-!
# C132: a stochastic run in which every draw takes its mean

`a.Certain env n`: in the first `n` realizations every draw takes its mean (Spec/Certain.lean). Examples: Props/CertainExamples.lean.
-/

namespace Oneka

open PField

/-- **C132.** If every draw takes its mean, then a stochastic run of one or more realizations ends as the deterministic run does: it never returns if that one never returns, it raises the same exception, and it returns if that one
returns. -/
theorem C132_course (a : RunArgs) (n : ℕ) (env : Env) (hn : 0 ≤ a.npaths) (h1 : 0 < n) (hc : a.Certain env n) :
    (createStochastic a n env = none ↔ createDeterministic a env = none) ∧
    (∀ e, (∃ r, createStochastic a n env = some r ∧ r.outcome = .error e) ↔ ∃ r, createDeterministic a env = some r ∧ r.outcome = .error e) ∧
    ((∃ r f, createStochastic a n env = some r ∧ r.outcome = .ok f) ↔ ∃ r f, createDeterministic a env = some r ∧ r.outcome = .ok f) := by
  unfold createStochastic createDeterministic
  cases ht : getWell a.wells a.target with
  | error e => simp
  | ok t =>
    simp only
    cases hnew : PField.new a.spacing a.spacing (some t.xw) (some t.yw) with
    | error e => simp
    | ok f0 =>
      simp only
      obtain ⟨-, -, -, -, hr0, -, -, ⟨b, hb, -⟩, -⟩ := new_spec hnew
      have hb0 : f0.body ≠ none := by rw [hb]; simp
      rcases loop_certain (recharge := fun c => -2 * (c 0 + c 1)) hn hc (reachable_wf hr0) hb0 rfl (t := t) n 0 f0 [] (by omega) h1 (reachable_wf hr0) hb0 with ⟨e1, e2⟩ | ⟨e, e1, e2⟩ | ⟨g, l, r, g', e1, e2, e3⟩
      · rw [e1, Int.toNat_natCast, e2]
        simp
      · rw [e1, Int.toNat_natCast, e2]
        simp
      · rw [e1, Int.toNat_natCast, e2]
        simp [e3]

open Classical in
/-- **C132.** If both return: every realization has the model, the fit and the traces of the deterministic run, and reports the opposite recharge. The two grids have the same nodes. At each node the weight is that of the deterministic run
plus `n - 1` if a trace passes within the umbra. So no probability is smaller than in the deterministic run; and if the umbra does not exceed the spacing, the probabilities are the same: 0 or 1. -/
theorem C132_result (a : RunArgs) (n k : ℕ) (env : Env) (t : SWell) (hk : a.target = k) (ht : a.wells[k]? = some t) (hu : 0 ≤ a.umbra) (h1 : 0 < n) (hc : a.Certain env n)
    {r r' : RunResult} {f f' : PField ℝ} (h : createStochastic a n env = some r) (ho : r.outcome = .ok f) (h' : createDeterministic a env = some r') (ho' : r'.outcome = .ok f') :
    ∃ L, r'.log = [L] ∧ r.log.length = n ∧ (∀ L' ∈ r.log, L.SameButRecharge L') ∧ f.total = n ∧ f'.total = 1 ∧ (∀ X Y, f.IsNode X Y ↔ f'.IsNode X Y) ∧
      (∀ X Y, f'.IsNode X Y → f.weightAt X Y = f'.weightAt X Y + (n - 1) * if L.Captures a.umbra X Y then 1 else 0) ∧
      (∀ X Y, f'.probAt X Y ≤ f.probAt X Y) ∧
      (a.umbra ≤ a.spacing → ∀ X Y, f.probAt X Y = f'.probAt X Y) := by
  obtain ⟨L, hL, R, -, t1, w1, w2, l1⟩ := C46_deterministic a k env t hk ht h' ho'
  obtain ⟨L2, hL2, n1, d1⟩ := C74_deterministic a k env t hk ht hu h' ho'
  obtain rfl : L2 = L := by rw [hL] at hL2; exact (List.singleton_inj.mp hL2).symm
  obtain ⟨len, tot, -⟩ := C44_frequencies a n k env t hk ht h ho
  obtain ⟨n2, d2, -⟩ := C74_stochastic a n k env t hk ht hu h ho
  have hrec : ∀ L' ∈ r.log, L'.recharge = 2 * (L'.model.coef 0 + L'.model.coef 1) := by
    have h2 := h
    unfold createStochastic at h2
    rw [hk, getWell_nat ht] at h2
    simp only at h2
    split at h2
    · obtain rfl := Option.some.inj h2
      simp at ho
    · rename_i f0 hnew
      obtain ⟨-, -, -, -, hr0, hm0, -, ⟨b, hb, -⟩, -⟩ := new_spec hnew
      obtain ⟨ls, a1, -, a3, -⟩ := loop_spec _ 0 f0 b [] r f hr0 hb hm0 h2 ho
      rw [List.nil_append] at a1
      intro L' hL'
      rw [a1] at hL'
      obtain ⟨j, hj, rfl⟩ := List.mem_iff_getElem.mp hL'
      exact (a3 j _ (List.getElem?_eq_getElem hj)).2
  have hrec' : L2.recharge = -2 * (L2.model.coef 0 + L2.model.coef 1) := by
    have h2 := h'
    unfold createDeterministic at h2
    rw [hk, getWell_nat ht] at h2
    simp only at h2
    split at h2
    · obtain rfl := Option.some.inj h2
      simp at ho'
    · rename_i f0 hnew
      obtain ⟨-, -, -, -, hr0, hm0, -, ⟨b, hb, -⟩, -⟩ := new_spec hnew
      split at h2
      · simp at h2
      rename_i o l hreal
      obtain rfl := Option.some.inj h2
      simp only at ho' hL
      subst ho'
      obtain ⟨L3, rfl, -, hrc, -⟩ := realize_spec hr0 hb hm0 hreal
      obtain rfl := List.singleton_inj.mp hL
      exact hrc
  have same : ∀ L' ∈ r.log, L2.SameButRecharge L' := by
    intro L' hL'
    obtain ⟨i, hi, rfl⟩ := List.mem_iff_getElem.mp hL'
    have hin : i < n := by omega
    obtain ⟨L3, e, R'⟩ := C45_realizations a n k env t hk ht h ho i hin
    rw [List.getElem?_eq_getElem hi] at e
    obtain rfl := Option.some.inj e
    obtain ⟨m1, m2, m3, m4⟩ := realized_unique (fun _ _ _ => rfl) R (realized_certain hc hin R')
    exact ⟨m1, m2, m3, m4, by rw [hrec _ hL', hrec', m1]; ring⟩
  have hpaths : ∀ L' ∈ r.log, L'.paths = L2.paths := fun L' hL' => by unfold RealizationLog.paths; rw [(same L' hL').traces]
  have hne : r.log ≠ [] := by
    intro e
    rw [e] at len
    simp at len
    omega
  have hnode : ∀ X Y, f.IsNode X Y ↔ f'.IsNode X Y := fun X Y => by rw [n1, n2, reached_repeated hpaths hne]
  obtain ⟨m, rfl⟩ : ∃ m, n = m + 1 := ⟨n - 1, by omega⟩
  have hweight : ∀ X Y, f'.IsNode X Y → f.weightAt X Y = f'.weightAt X Y + (((m + 1 : ℕ) : ℝ) - 1) * if L2.Captures a.umbra X Y then 1 else 0 := by
    intro X Y hN
    rw [d2 X Y ((hnode X Y).mpr hN), d1 X Y hN, recorded_repeated ((n1 X Y).mp hN).2 len hpaths]
    push_cast
    rw [add_sub_cancel_right]
    congr 2
    exact if_congr captures_paths.symm rfl rfl
  have hoff : ∀ X Y, ¬ f'.IsNode X Y → f.weightAt X Y = 0 ∧ f'.weightAt X Y = 0 := fun X Y hN => ⟨lookAt_not f _ _ X Y (fun e => hN ((hnode X Y).mp e)), lookAt_not f' _ _ X Y hN⟩
  have hm : (0:ℝ) < ((m + 1 : ℕ) : ℝ) := by positivity
  refine ⟨L2, hL, len, same, tot, t1, hnode, hweight, fun X Y => ?_, fun hus X Y => ?_⟩
  · unfold PField.probAt
    rw [tot, t1, div_one, le_div_iff₀ hm]
    by_cases hN : f'.IsNode X Y
    · rw [hweight X Y hN, d1 X Y hN]
      by_cases hR : RecordsInOrder t.xw t.yw a.spacing a.spacing [] a.umbra L2.paths X Y
      · rw [if_pos hR, if_pos (captures_paths.mpr (recordsInOrder_near hR))]
        push_cast
        linarith
      · rw [if_neg hR]
        split_ifs
        · push_cast
          have : (0:ℝ) ≤ m := Nat.cast_nonneg m
          linarith
        · simp
    · rw [(hoff X Y hN).1, (hoff X Y hN).2, zero_mul]
  · unfold PField.probAt
    rw [tot, t1, div_one, div_eq_iff hm.ne']
    by_cases hN : f'.IsNode X Y
    · rw [hweight X Y hN]
      obtain ⟨p, q, rfl, rfl⟩ := l1 X Y hN
      rw [w2 hu p q (.inr hus)]
      push_cast
      split_ifs <;> ring
    · rw [(hoff X Y hN).1, (hoff X Y hN).2, zero_mul]

/-- **C132** for two calls with the same accepted arguments, except that one asks for one realization and the other for more: if every draw takes its mean, and enough observations are left, then either both return or raise at some time, or
neither does. -/
theorem C132_calls (a a' : PyArgs) (n n' : Inputs) (env env' : CallEnv) (ha : Acceptable a) (ha' : Acceptable a') (hd : a.Denotes n) (hd' : a'.Denotes n') (hrun : n'.run = n.run) (hbuf : n'.buffer = n.buffer)
    (henv : env'.run = env.run) (h1 : 1 < n.nrealizations) (h1' : n'.nrealizations ≤ 1) (hc : n.run.Certain env.run n.nrealizations.toNat) {obs : List Obs}
    (ho : filterObs n.run.obs (n.run.wells.map fun w => (w.xw, w.yw)) n.buffer = .ok obs) (h7 : 7 ≤ obs.length) :
    (oneka a env).ending = .diverges ↔ (oneka a' env').ending = .diverges := by
  obtain ⟨-, hnp, -⟩ := accepted_inputs ha hd
  have hkey : createStochastic { n.run with obs := obs } n.nrealizations env.run = none ↔ createDeterministic { n.run with obs := obs } env.run = none := by
    have := (C132_course { n.run with obs := obs } n.nrealizations.toNat env.run (by simp only; omega) (by omega) (certain_obs hc obs)).1
    rwa [Int.toNat_of_nonneg (by omega)] at this
  have e1 : theRun n env obs = createStochastic { n.run with obs := obs } n.nrealizations env.run := if_pos h1
  have e2 : theRun n' env' obs = createDeterministic { n.run with obs := obs } env.run := by
    unfold theRun
    rw [if_neg (by omega), hrun, henv]
  have c1 : (oneka a env).ending = .diverges ↔ theRun n env obs = none := by
    rcases logged_course env ha hd ho with ⟨-, h, -⟩ | ⟨-, h, h2⟩ | ⟨r, -, h, h2, -⟩
    · omega
    · simp [h, h2]
    · simp [h, h2]
  have c2 : (oneka a' env').ending = .diverges ↔ theRun n' env' obs = none := by
    rcases logged_course env' ha' hd' (obs := obs) (by unfold Inputs.wellfield; rw [hrun, hbuf]; exact ho) with ⟨-, h, -⟩ | ⟨-, h, h2⟩ | ⟨r, -, h, h2, -⟩
    · omega
    · simp [h, h2]
    · simp [h, h2]
  rw [c1, c2, e1, e2, hkey]

open Classical in
/-- **C132** for the archives of two such calls that return. -/
theorem C132_archived (a a' : PyArgs) (n n' : Inputs) (env env' : CallEnv) (v v' : PyVal) (hd : a.Denotes n) (hd' : a'.Denotes n') (h : (oneka a env).ending = .returns v)
    (h' : (oneka a' env').ending = .returns v') (fs fs' : Files) (hrun : n'.run = n.run) (hbuf : n'.buffer = n.buffer) (henv : env'.run = env.run) (h1 : 1 < n.nrealizations) (h1' : n'.nrealizations ≤ 1)
    (hc : n.run.Certain env.run n.nrealizations.toNat) :
    ∃ (d d' : Dict) (f f' : PField ℝ) (L : RealizationLog),
      loadOneka ((oneka a env).events.foldl Effect.apply fs) env.now.archiveName = .ok d ∧ d.get "pfield" = some (.field (.field f)) ∧
      loadOneka ((oneka a' env').events.foldl Effect.apply fs') env'.now.archiveName = .ok d' ∧ d'.get "pfield" = some (.field (.field f')) ∧
      realizations (oneka a' env').events = [L] ∧ (∀ L' ∈ realizations (oneka a env).events, L.SameButRecharge L') ∧
      (∀ X Y, f.IsNode X Y ↔ f'.IsNode X Y) ∧
      (∀ X Y, f'.IsNode X Y → f.weightAt X Y = f'.weightAt X Y + (n.nrealizations - 1) * if L.Captures n.run.umbra X Y then 1 else 0) ∧
      (∀ X Y, f'.probAt X Y ≤ f.probAt X Y) ∧
      (n.run.umbra ≤ n.run.spacing → ∀ P : ℝ → Prop, f.nodesWhere P = f'.nodesWhere P) := by
  obtain ⟨-, -, ha, -⟩ := returned_course h
  obtain ⟨⟨k, t, hk, ht⟩, -, -, hu, -⟩ := accepted_inputs ha hd
  rcases returned_cases hd h with ⟨-, obs, cols, r, f, pl, im, lines, H⟩ | ⟨h2, -⟩
  · rcases returned_cases hd' h' with ⟨h2, -⟩ | ⟨-, obs', cols', r', f', pl', H'⟩
    · omega
    · obtain ⟨d, hd1, hd2⟩ := archived_field h H.archived fs
      obtain ⟨d', hd1', hd2'⟩ := archived_field h' H'.archived fs'
      obtain rfl : obs' = obs := by
        have e := H.filtered
        have e' := H'.filtered
        unfold Inputs.wellfield at e e'
        rw [hrun, hbuf] at e'
        exact Except.ok.inj (e'.symm.trans e)
      have hr := H.run
      rw [show n.nrealizations = ((n.nrealizations.toNat : ℕ) : ℤ) by omega] at hr
      have hr' := H'.run
      rw [hrun, henv] at hr'
      obtain ⟨L, c1, -, c2, -, -, c3, c4, c5, c6⟩ := C132_result { n.run with obs := obs' } n.nrealizations.toNat k env.run t hk ht hu.le (by omega) (certain_obs hc obs') hr H.outcome hr' H'.outcome
      refine ⟨d, d', f, f', L, hd1, hd2, hd1', hd2', by rw [H'.realizations_eq, c1], by rw [H.realizations_eq]; exact c2, c3, fun X Y hN => ?_, c5, fun hus P => ?_⟩
      · rw [c4 X Y hN]
        have : ((n.nrealizations.toNat : ℕ) : ℝ) = (n.nrealizations : ℝ) := by
          rw [← Int.cast_natCast, Int.toNat_of_nonneg (by omega)]
        rw [this]
      · ext p
        show f.IsNode p.1 p.2 ∧ P (f.probAt p.1 p.2) ↔ f'.IsNode p.1 p.2 ∧ P (f'.probAt p.1 p.2)
        rw [c3, c6 hus]
  · omega

end Oneka
