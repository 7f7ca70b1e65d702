import Verif.Lemmas.Sensitivity
import Verif.Props.Reach
import Verif.Props.Runs

/-!
# C127: how the umbra, the spacing and the number of paths act on the result

`a.redrawn u s` are the arguments `a` with umbra `u` and spacing `s`, `a.denser k u s` also have `k` times as many paths (Spec/Sensitivity.lean). Examples: Props/SensitivityExamples.lean.
-/

namespace Oneka

open PField

open Classical in
/-- **C127.** A larger umbra, a coarser grid and a multiple of the number of paths never lower a weight. If the stochastic run with them returns, then so does the run without, with the same random numbers: all its
models, fits and traces are among those of the former, the total weight is the same, and at no position on the coarser lattice is its weight higher. -/
theorem C127_stochastic (a : RunArgs) (n k j : ℕ) (env env' : Env) (t : SWell) (hj : a.target = j) (ht : a.wells[j]? = some t) (hk : 0 < k)
    (henv : env.Denser k env') {u' s' : ℝ} (hu : 0 ≤ a.umbra) (huu : a.umbra ≤ u') (hs : 0 < a.spacing) (hss : a.spacing ≤ s')
    {r' : RunResult} {f' : PField ℝ} (h : createStochastic (a.denser k u' s') n env' = some r') (ho : r'.outcome = .ok f') :
    ∃ r f, createStochastic a n env = some r ∧ r.outcome = .ok f ∧ List.Forall₂ (RealizationLog.Within k) r.log r'.log ∧
      f.total = f'.total ∧
      ∀ X Y, OnLattice t.xw t.yw s' s' X Y → (f.IsNode X Y → f'.IsNode X Y) ∧ f.weightAt X Y ≤ f'.weightAt X Y := by
  obtain ⟨f0, e0, wf0, b0⟩ := new_pos (xo := t.xw) (yo := t.yw) hs
  obtain ⟨f0', e0', wf0', b0'⟩ := new_pos (xo := t.xw) (yo := t.yw) (lt_of_lt_of_le hs hss)
  obtain ⟨r, f, hr, hro, hlog⟩ : ∃ r f, createStochastic a n env = some r ∧ r.outcome = .ok f ∧
      List.Forall₂ (RealizationLog.Within k) r.log r'.log := by
    have h' := h
    unfold createStochastic at h' ⊢
    rw [show (a.denser k u' s').wells = a.wells from rfl, show (a.denser k u' s').target = a.target from rfl, hj, getWell_nat ht] at h'
    rw [hj, getWell_nat ht]
    simp only [show (a.denser k u' s').spacing = s' from rfl, e0', e0] at h' ⊢
    exact loop_denser hk henv _ 0 f0 f0' [] [] r' f' wf0 b0 wf0' b0' .nil h' ho
  refine ⟨r, f, hr, hro, hlog, ?_, ?_⟩
  · rw [(C44_frequencies a n j env t hj ht hr hro).2.1, (C44_frequencies (a.denser k u' s') n j env' t hj ht h ho).2.1]
  · obtain ⟨c1, c2, -⟩ := C74_stochastic a n j env t hj ht hu hr hro
    obtain ⟨d1, d2, -⟩ := C74_stochastic (a.denser k u' s') n j env' t hj ht (hu.trans huu) h ho
    intro X Y hL
    have hnode : f.IsNode X Y → f'.IsNode X Y := fun hn =>
      (d1 X Y).mpr ⟨hL, reached_mono hss (allVertices_subset hlog) ((c1 X Y).mp hn).2⟩
    refine ⟨hnode, ?_⟩
    by_cases hn : f.IsNode X Y
    · rw [c2 X Y hn, d2 X Y (hnode hn)]
      refine Nat.cast_le.mpr (List.countP_mono_left fun i _ hi => ?_)
      simp only [decide_eq_true_eq] at hi ⊢
      exact within_recordedBy hk hlog hss hu huu hi
    · rw [weight_off hn]
      obtain ⟨m, -, e⟩ := (C44_frequencies (a.denser k u' s') n j env' t hj ht h ho).2.2.1 X Y
      rw [e]
      exact Nat.cast_nonneg m

open Classical in
/-- **C127.** The same for the deterministic run: with a larger umbra, a coarser grid and a multiple of the number of paths the capture zone contains the former one. -/
theorem C127_deterministic (a : RunArgs) (k j : ℕ) (env env' : Env) (t : SWell) (hj : a.target = j) (ht : a.wells[j]? = some t) (hk : 0 < k)
    (henv : env.Denser k env') {u' s' : ℝ} (hu : 0 ≤ a.umbra) (huu : a.umbra ≤ u') (hs : 0 < a.spacing) (hss : a.spacing ≤ s')
    {r' : RunResult} {f' : PField ℝ} (h : createDeterministic (a.denser k u' s') env' = some r') (ho : r'.outcome = .ok f') :
    ∃ r f, createDeterministic a env = some r ∧ r.outcome = .ok f ∧ List.Forall₂ (RealizationLog.Within k) r.log r'.log ∧
      f.total = f'.total ∧
      ∀ X Y, OnLattice t.xw t.yw s' s' X Y → (f.IsNode X Y → f'.IsNode X Y) ∧ f.weightAt X Y ≤ f'.weightAt X Y := by
  obtain ⟨f0, e0, wf0, b0⟩ := new_pos (xo := t.xw) (yo := t.yw) hs
  obtain ⟨f0', e0', wf0', b0'⟩ := new_pos (xo := t.xw) (yo := t.yw) (lt_of_lt_of_le hs hss)
  obtain ⟨r, f, hr, hro, hlog⟩ : ∃ r f, createDeterministic a env = some r ∧ r.outcome = .ok f ∧
      List.Forall₂ (RealizationLog.Within k) r.log r'.log := by
    have h' := h
    unfold createDeterministic at h' ⊢
    rw [show (a.denser k u' s').wells = a.wells from rfl, show (a.denser k u' s').target = a.target from rfl, hj, getWell_nat ht] at h'
    rw [hj, getWell_nat ht]
    simp only [show (a.denser k u' s').spacing = s' from rfl, e0', e0, henv.la] at h' ⊢
    split at h'
    · simp at h'
    · rename_i o l hreal
      obtain rfl := Option.some.inj h'
      simp only at ho
      subst ho
      obtain ⟨g, L, L', hr, rfl, hw⟩ := realize_denser (i := env.interrupt 0) hk (henv.interrupt 0) wf0 b0 wf0' b0' hreal
      rw [hr]
      exact ⟨_, g, rfl, rfl, .cons hw .nil⟩
  refine ⟨r, f, hr, hro, hlog, ?_, ?_⟩
  · obtain ⟨-, -, -, -, t1, -⟩ := C46_deterministic a j env t hj ht hr hro
    obtain ⟨-, -, -, -, t2, -⟩ := C46_deterministic (a.denser k u' s') j env' t hj ht h ho
    rw [t1, t2]
  · obtain ⟨L, eL, c1, c2⟩ := C74_deterministic a j env t hj ht hu hr hro
    obtain ⟨L', eL', d1, d2⟩ := C74_deterministic (a.denser k u' s') j env' t hj ht (hu.trans huu) h ho
    rw [eL, eL'] at hlog
    obtain ⟨hw, -⟩ := List.forall₂_cons.mp hlog
    intro X Y hL
    have hnode : f.IsNode X Y → f'.IsNode X Y := fun hn => (d1 X Y).mpr ⟨hL, reached_mono hss (within_subset hw) ((c1 X Y).mp hn).2⟩
    refine ⟨hnode, ?_⟩
    by_cases hn : f.IsNode X Y
    · rw [c2 X Y hn, d2 X Y (hnode hn)]
      by_cases hrec : RecordsInOrder t.xw t.yw a.spacing a.spacing [] a.umbra L.paths X Y
      · have := within_records hk hw hss hu huu (s := []) (s' := []) (by simp) hrec
        rw [if_pos hrec]
        exact (if_pos this).ge
      · rw [if_neg hrec]
        split_ifs <;> norm_num
    · rw [weight_off hn]
      obtain ⟨-, -, -, -, -, hw, -⟩ := C46_deterministic (a.denser k u' s') j env' t hj ht h ho
      rcases hw X Y with e | e <;> rw [e] <;> norm_num

/-- **C127.** The umbra and the spacing have no influence on anything but the grid: with any other umbra and any other positive spacing a run returns, raises the same exception or never returns as before, and
draws, fits and traces the same. -/
theorem C127_course (a : RunArgs) (n : ℤ) (env : Env) (u' s' : ℝ) (hs : 0 < a.spacing) (hs' : 0 < s') :
    SameCourse (createStochastic a n env) (createStochastic (a.redrawn u' s') n env) ∧
    SameCourse (createDeterministic a env) (createDeterministic (a.redrawn u' s') env) := by
  unfold createStochastic createDeterministic
  rw [show (a.redrawn u' s').wells = a.wells from rfl, show (a.redrawn u' s').target = a.target from rfl]
  cases getWell a.wells a.target with
  | error e => exact ⟨⟨rfl, rfl⟩, rfl, rfl⟩
  | ok t =>
    obtain ⟨f0, e0, wf0, b0⟩ := new_pos (xo := t.xw) (yo := t.yw) hs
    obtain ⟨f0', e0', wf0', b0'⟩ := new_pos (xo := t.xw) (yo := t.yw) hs'
    simp only [show (a.redrawn u' s').spacing = s' from rfl, e0', e0]
    refine ⟨redrawn_loop _ 0 f0 f0' [] wf0 wf0' b0 b0', ?_⟩
    rcases redrawn_realize (a := a) (la := env.la) (t := t) (q := fun d _ => d.mean) (coefs := fun ev _ => .ok ev)
      (recharge := fun c => -2 * (c 0 + c 1)) (i := env.interrupt 0) (u' := u') (s' := s') wf0 wf0' b0 b0' with ⟨h, h'⟩ | ⟨e, l, h, h'⟩ | ⟨g, g', l, h, h'⟩
    · rw [h, h']; exact trivial
    · rw [h, h']; exact ⟨rfl, rfl⟩
    · rw [h, h']; exact rfl

open Classical in
/-- **C127.** On grids no finer than the umbra the spacing only selects the positions: two runs that differ in nothing but the spacing, neither spacing below the umbra, have the same weight wherever both lattices have a position
(also where one of the grids has no node: the weight is then 0 in both). -/
theorem C127_spacing (a : RunArgs) (n j : ℕ) (env : Env) (t : SWell) (hj : a.target = j) (ht : a.wells[j]? = some t) (hu : 0 ≤ a.umbra) {s' : ℝ}
    (hs : a.umbra ≤ a.spacing) (hs' : a.umbra ≤ s') (hp : 0 < a.spacing) (hp' : 0 < s') {r : RunResult} {f : PField ℝ}
    (h : createStochastic a n env = some r) (ho : r.outcome = .ok f) :
    ∃ f', createStochastic (a.redrawn a.umbra s') n env = some ⟨.ok f', r.log⟩ ∧
      ∀ X Y, OnLattice t.xw t.yw a.spacing a.spacing X Y → OnLattice t.xw t.yw s' s' X Y → f.weightAt X Y = f'.weightAt X Y := by
  have hc := (C127_course a n env a.umbra s' hp hp').1
  obtain ⟨o, l⟩ := r
  simp only at ho
  subst ho
  rw [h] at hc
  rcases h' : createStochastic (a.redrawn a.umbra s') n env with _ | ⟨_ | f', l'⟩
  · rw [h'] at hc; exact hc.elim
  · rw [h'] at hc; exact hc.elim
  · rw [h'] at hc
    obtain rfl : l = l' := hc
    refine ⟨f', rfl, ?_⟩
    rintro X Y ⟨p, q, rfl, rfl⟩ ⟨p', q', e1, e2⟩
    rw [(C44_frequencies a n j env t hj ht h rfl).2.2.2.1 hu p q (Or.inr hs), e1, e2]
    exact ((C44_frequencies (a.redrawn a.umbra s') n j env t hj ht h' rfl).2.2.2.1 hu p' q' (Or.inr hs')).symm

open Classical in
/-- **C127.** For the archives of two calls that return, the second one with a larger umbra, a coarser grid and a multiple of the number of paths (and whatever `smooth` and clock): the same total weight, and nowhere on the coarser lattice a smaller
weight, hence nowhere a smaller frequency. -/
theorem C127_archived (a a' : PyArgs) (n n' : Inputs) (env env' : CallEnv) (v v' : PyVal) (hd : a.Denotes n) (hd' : a'.Denotes n')
    (h : (oneka a env).ending = .returns v) (h' : (oneka a' env').ending = .returns v') {k : ℕ} (hk : 0 < k) (henv : env.run.Denser k env'.run) {u' s' : ℝ}
    (hrun : n'.run = n.run.denser k u' s') (hn : n'.nrealizations = n.nrealizations) (hbuf : n'.buffer = n.buffer)
    (huu : n.run.umbra ≤ u') (hss : n.run.spacing ≤ s') (fs fs' : Files) :
    ∃ (d d' : Dict) (f f' : PField ℝ) (j : ℕ) (t : SWell),
      loadOneka ((oneka a env).events.foldl Effect.apply fs) env.now.archiveName = .ok d ∧ d.get "pfield" = some (.field (.field f)) ∧
      loadOneka ((oneka a' env').events.foldl Effect.apply fs') env'.now.archiveName = .ok d' ∧ d'.get "pfield" = some (.field (.field f')) ∧
      n.run.target = j ∧ n.run.wells[j]? = some t ∧ f.total = f'.total ∧ 0 < f.total ∧
      ∀ X Y, OnLattice t.xw t.yw s' s' X Y → f.weightAt X Y ≤ f'.weightAt X Y := by
  obtain ⟨-, -, ha, -⟩ := returned_course h
  obtain ⟨⟨j, t, hj, ht⟩, -, hs, hu, -⟩ := accepted_inputs ha hd
  have hwf : n'.wellfield = n.wellfield := by unfold Inputs.wellfield; rw [hrun]; rfl
  have hobs : n'.run.obs = n.run.obs := by rw [hrun]; rfl
  rcases returned_cases hd h with ⟨h1, obs, cols, r, f, pl, im, lines, H⟩ | ⟨h1, obs, cols, r, f, pl, H⟩ <;>
    rcases returned_cases hd' h' with ⟨h1', obs', cols', r', f', pl', im', lines', H'⟩ | ⟨h1', obs', cols', r', f', pl', H'⟩
  · obtain rfl : obs' = obs := by
      have e := H'.filtered
      rw [hwf, hobs, hbuf, H.filtered] at e
      exact (Except.ok.inj e).symm
    obtain ⟨d, hd1, hd2⟩ := archived_field h H.archived fs
    obtain ⟨d', hd1', hd2'⟩ := archived_field h' H'.archived fs'
    have e1 := H.run
    have e2 := H'.run
    rw [hn, hrun] at e2
    rw [show n.nrealizations = ((n.nrealizations.toNat : ℕ) : ℤ) by omega] at e1 e2
    obtain ⟨r2, f2, k1, k2, -, k4, k5⟩ := C127_stochastic { n.run with obs := obs' } n.nrealizations.toNat k j env.run env'.run t hj ht hk henv hu.le huu hs hss
      e2 H'.outcome
    rw [e1] at k1
    obtain rfl := Option.some.inj k1
    rw [H.outcome] at k2
    obtain rfl := Except.ok.inj k2
    exact ⟨d, d', f, f', j, t, hd1, hd2, hd1', hd2', hj, ht, k4, H.total, fun X Y hL => (k5 X Y hL).2⟩
  · omega
  · omega
  · obtain rfl : obs' = obs := by
      have e := H'.filtered
      rw [hwf, hobs, hbuf, H.filtered] at e
      exact (Except.ok.inj e).symm
    obtain ⟨d, hd1, hd2⟩ := archived_field h H.archived fs
    obtain ⟨d', hd1', hd2'⟩ := archived_field h' H'.archived fs'
    have e1 := H.run
    have e2 := H'.run
    rw [hrun] at e2
    obtain ⟨r2, f2, k1, k2, -, k4, k5⟩ := C127_deterministic { n.run with obs := obs' } k j env.run env'.run t hj ht hk henv hu.le huu hs hss
      e2 H'.outcome
    rw [e1] at k1
    obtain rfl := Option.some.inj k1
    rw [H.outcome] at k2
    obtain rfl := Except.ok.inj k2
    exact ⟨d, d', f, f', j, t, hd1, hd2, hd1', hd2', hj, ht, k4, H.total, fun X Y hL => (k5 X Y hL).2⟩

end Oneka
