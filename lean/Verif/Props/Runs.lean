import Verif.Lemmas.PropsRuns

/-!
# C30 (logged recharge), C44–C46, C65: whole runs

`createStochastic a n env = some r` reads "the stochastic run with arguments `a` and `n` realizations returns or raises"; `r.outcome` is the
probability field or the exception, `r.log` what happened in each realization. `env` (random draws, linear algebra, interrupts) is arbitrary.
-/

namespace Oneka

open PField Aquifer

/-! ## C44 -/

open Classical in
/-- C44: after a stochastic run with `n` realizations the total weight is `n`, and the weight of each node is a whole number between 0 and `n`: (at the nodes
around the target, or everywhere if the umbra does not exceed the spacing) the number of realizations with a trace passing within the umbra. All nodes lie on the
lattice through the target. Example: below, with `exampleArgs`. -/
theorem C44_frequencies (a : RunArgs) (n k : ℕ) (env : Env) (t : SWell) (hk : a.target = k) (ht : a.wells[k]? = some t)
    {r : RunResult} {f : PField ℝ} (h : createStochastic a n env = some r) (ho : r.outcome = .ok f) :
    r.log.length = n ∧ f.total = n ∧
    (∀ X Y, ∃ m : ℕ, m ≤ n ∧ f.weightAt X Y = m) ∧
    (0 ≤ a.umbra → ∀ p q : ℤ, (|p| ≤ 1 ∧ |q| ≤ 1) ∨ a.umbra ≤ a.spacing →
      f.weightAt (t.xw + p * a.spacing) (t.yw + q * a.spacing) =
        (r.log.countP fun L => L.Captures a.umbra (t.xw + p * a.spacing) (t.yw + q * a.spacing))) ∧
    (∀ X Y, f.IsNode X Y → ∃ p q : ℤ, X = t.xw + p * a.spacing ∧ Y = t.yw + q * a.spacing) ∧
    (∀ X Y, ¬ f.markedAt X Y) ∧ f.deltax = a.spacing ∧ f.deltay = a.spacing := by
  unfold createStochastic at h
  rw [hk, getWell_nat ht] at h
  simp only at h
  split at h
  · obtain rfl := Option.some.inj h
    simp at ho
  · rename_i f0 hnew
    obtain ⟨hs, hdx, hdy, h0, hr0, hm0, hw0, ⟨b, hb, hbx, hby⟩, hnr, hnc⟩ := new_spec hnew
    obtain ⟨ls, a1, a2, -, -, a5, a6, a7, a8, a9⟩ := loop_spec _ 0 f0 b [] r f hr0 hb hm0 h ho
    rw [Int.toNat_natCast] at a2 a7 a8
    simp only [List.nil_append] at a1
    have lat : ∀ X Y, OnLattice b.xmin b.ymin f0.deltax f0.deltay X Y ↔
        ∃ p q : ℤ, X = t.xw + p * a.spacing ∧ Y = t.yw + q * a.spacing := by
      intro X Y
      unfold OnLattice
      rw [hbx, hby, hdx, hdy]
      constructor
      · rintro ⟨p, q, rfl, rfl⟩
        exact ⟨p - 1, q - 1, by push_cast; ring, by push_cast; ring⟩
      · rintro ⟨p, q, rfl, rfl⟩
        exact ⟨p + 1, q + 1, by push_cast; ring, by push_cast; ring⟩
    refine ⟨by rw [a1, a2], by rw [a8, h0, zero_add], ?_, ?_, ?_, a6, by rw [a5.dx, hdx], by rw [a5.dy, hdy]⟩
    · intro X Y
      obtain ⟨m, hm, e⟩ := a7 X Y
      exact ⟨m, hm, by rw [e, hw0, zero_add]⟩
    · intro hu p q hpq
      rw [a9 hu _ _ ?_, hw0, zero_add, a1]
      rcases hpq with ⟨hp, hq⟩ | hle
      · left
        rw [abs_le] at hp hq
        refine ⟨b, hb, (q + 1).toNat, (p + 1).toNat, by omega, by omega, ?_, ?_⟩
        · have : (((p + 1).toNat : ℕ) : ℝ) = p + 1 := by
            have := Int.toNat_of_nonneg (show 0 ≤ p + 1 by omega)
            exact_mod_cast this
          rw [this, hbx, hdx]; ring
        · have : (((q + 1).toNat : ℕ) : ℝ) = q + 1 := by
            have := Int.toNat_of_nonneg (show 0 ≤ q + 1 by omega)
            exact_mod_cast this
          rw [this, hby, hdy]; ring
      · right
        exact ⟨(lat _ _).mpr ⟨p, q, rfl, rfl⟩, by rw [hdx]; exact hle, by rw [hdy]; exact hle⟩
    · intro X Y hn
      by_contra hcon
      exact weightAt_off_lattice hb a5 (fun hl => hcon ((lat X Y).mp hl)) hn

/-! ## C45 -/

/-- C45: realization `i` of a stochastic run is a faithful realization: wells at the given places with the given radii and
discharges, conductivity, porosity, thickness drawn from their distributions, the given base, the origin at the target, coefficients drawn
from the normal distribution of its own fit, and the traces follow this model. Example: below, with `exampleArgs`. -/
theorem C45_realizations (a : RunArgs) (n k : ℕ) (env : Env) (t : SWell) (hk : a.target = k) (ht : a.wells[k]? = some t)
    {r : RunResult} {f : PField ℝ} (h : createStochastic a n env = some r) (ho : r.outcome = .ok f) (i : ℕ) (hi : i < n) :
    ∃ L, r.log[i]? = some L ∧
      Realized a env.la t (fun d j => d.sample (env.u i j)) (env.mvn i) (env.interrupt i) L := by
  unfold createStochastic at h
  rw [hk, getWell_nat ht] at h
  simp only at h
  split at h
  · obtain rfl := Option.some.inj h
    simp at ho
  · rename_i f0 hnew
    obtain ⟨hs, hdx, hdy, h0, hr0, hm0, hw0, ⟨b, hb, hbx, hby⟩, hnr, hnc⟩ := new_spec hnew
    obtain ⟨ls, a1, a2, a3, -⟩ := loop_spec _ 0 f0 b [] r f hr0 hb hm0 h ho
    rw [Int.toNat_natCast] at a2
    simp only [List.nil_append] at a1
    obtain ⟨L, hL⟩ : ∃ L, ls[i]? = some L := ⟨ls[i], List.getElem?_eq_getElem (by omega)⟩
    exact ⟨L, by rw [a1, hL], by simpa using (a3 i L hL).1⟩

/-- C45: … so if the distributions are distributions on `[lo, hi]` and the draws are in `[0,1)`, all parameters of all realizations lie in
their ranges. Example: below, with `exampleArgs`. -/
theorem C45_ranges (a : RunArgs) (n k : ℕ) (env : Env) (t : SWell) (hk : a.target = k) (ht : a.wells[k]? = some t)
    (hu : ∀ i j, 0 ≤ env.u i j ∧ env.u i j < 1) {clo chi plo phi tlo thi : ℝ} (hc : IsDist a.cDist.toPy clo chi)
    (hp : IsDist a.pDist.toPy plo phi) (htt : IsDist a.tDist.toPy tlo thi)
    {r : RunResult} {f : PField ℝ} (h : createStochastic a n env = some r) (ho : r.outcome = .ok f) :
    ∀ L ∈ r.log, clo ≤ L.model.conductivity ∧ L.model.conductivity ≤ chi ∧ plo ≤ L.model.porosity ∧ L.model.porosity ≤ phi ∧
      tlo ≤ L.model.thickness ∧ L.model.thickness ≤ thi ∧
      ∀ (j : ℕ) (w : SWell) (lo hi : ℝ), a.wells[j]? = some w → IsDist w.q.toPy lo hi →
        ∃ q, L.model.wells[j]? = some ⟨w.xw, w.yw, w.rw, q⟩ ∧ lo ≤ q ∧ q ≤ hi := by
  intro L hL
  obtain ⟨i, hi, rfl⟩ := List.mem_iff_getElem.mp hL
  obtain ⟨hlen, -⟩ := C44_frequencies a n k env t hk ht h ho
  obtain ⟨L', e, R⟩ := C45_realizations a n k env t hk ht h ho i (by omega)
  rw [List.getElem?_eq_getElem hi] at e
  obtain rfl := Option.some.inj e
  obtain ⟨c1, c2⟩ := sample_mem hc (hu _ _).1 (hu _ _).2 R.conductivity
  obtain ⟨p1, p2⟩ := sample_mem hp (hu _ _).1 (hu _ _).2 R.porosity
  obtain ⟨t1, t2⟩ := sample_mem htt (hu _ _).1 (hu _ _).2 R.thickness
  refine ⟨c1, c2, p1, p2, t1, t2, fun j w lo hi' hj hd => ?_⟩
  obtain ⟨q, q1, q2⟩ := R.wells j w hj
  obtain ⟨q3, q4⟩ := sample_mem hd (hu _ _).1 (hu _ _).2 q2
  exact ⟨q, q1, q3, q4⟩

/-! ## C46 -/

open Classical in
/-- C46: a deterministic run is a single realization with all distributions replaced by their means and with the fitted
coefficients; total weight is 1, and the weight of each node is 1 or 0 according to whether a trace passes within the umbra. Example: below, with `exampleArgs`. -/
theorem C46_deterministic (a : RunArgs) (k : ℕ) (env : Env) (t : SWell) (hk : a.target = k) (ht : a.wells[k]? = some t)
    {r : RunResult} {f : PField ℝ} (h : createDeterministic a env = some r) (ho : r.outcome = .ok f) :
    ∃ L, r.log = [L] ∧ Realized a env.la t (fun d _ => d.mean) (fun ev _ => .ok ev) (env.interrupt 0) L ∧ L.model.coef = L.ev ∧
    f.total = 1 ∧ (∀ X Y, f.weightAt X Y = 0 ∨ f.weightAt X Y = 1) ∧
    (0 ≤ a.umbra → ∀ p q : ℤ, (|p| ≤ 1 ∧ |q| ≤ 1) ∨ a.umbra ≤ a.spacing →
      f.weightAt (t.xw + p * a.spacing) (t.yw + q * a.spacing) =
        if L.Captures a.umbra (t.xw + p * a.spacing) (t.yw + q * a.spacing) then 1 else 0) ∧
    (∀ X Y, f.IsNode X Y → ∃ p q : ℤ, X = t.xw + p * a.spacing ∧ Y = t.yw + q * a.spacing) := by
  unfold createDeterministic at h
  rw [hk, getWell_nat ht] at h
  simp only at h
  split at h
  · obtain rfl := Option.some.inj h
    simp at ho
  · rename_i f0 hnew
    obtain ⟨hs, hdx, hdy, h0, hr0, hm0, hw0, ⟨b, hb, hbx, hby⟩, hnr, hnc⟩ := new_spec hnew
    split at h
    · simp at h
    rename_i o l hreal
    obtain rfl := Option.some.inj h
    simp only at ho
    subst ho
    obtain ⟨L, rfl, hL, -, -, i1, -, w1, t1, p1⟩ := realize_spec hr0 hb hm0 hreal
    have lat : ∀ X Y, OnLattice b.xmin b.ymin f0.deltax f0.deltay X Y ↔
        ∃ p q : ℤ, X = t.xw + p * a.spacing ∧ Y = t.yw + q * a.spacing := by
      intro X Y
      unfold OnLattice
      rw [hbx, hby, hdx, hdy]
      constructor
      · rintro ⟨p, q, rfl, rfl⟩
        exact ⟨p - 1, q - 1, by push_cast; ring, by push_cast; ring⟩
      · rintro ⟨p, q, rfl, rfl⟩
        exact ⟨p + 1, q + 1, by push_cast; ring, by push_cast; ring⟩
    refine ⟨L, rfl, hL, (Except.ok.inj hL.coef).symm, by rw [t1, h0, zero_add], ?_, ?_, ?_⟩
    · intro X Y
      have := w1 X Y
      rwa [hw0, zero_add] at this
    · intro hu p q hpq
      rw [p1 hu _ _ ?_, hw0, zero_add]
      rcases hpq with ⟨hp, hq⟩ | hle
      · left
        rw [abs_le] at hp hq
        refine ⟨b, hb, (q + 1).toNat, (p + 1).toNat, by omega, by omega, ?_, ?_⟩
        · have : (((p + 1).toNat : ℕ) : ℝ) = p + 1 := by
            have := Int.toNat_of_nonneg (show 0 ≤ p + 1 by omega)
            exact_mod_cast this
          rw [this, hbx, hdx]; ring
        · have : (((q + 1).toNat : ℕ) : ℝ) = q + 1 := by
            have := Int.toNat_of_nonneg (show 0 ≤ q + 1 by omega)
            exact_mod_cast this
          rw [this, hby, hdy]; ring
      · right
        exact ⟨(lat _ _).mpr ⟨p, q, rfl, rfl⟩, by rw [hdx]; exact hle, by rw [hdy]; exact hle⟩
    · intro X Y hn
      by_contra hcon
      exact weightAt_off_lattice hb i1 (fun hl => hcon ((lat X Y).mp hl)) hn

/-! ## C30 -/

/-- C30 for deterministic runs: the logged recharge is the divergence of the discharge of the traced model, at every place off the wells. Example: below, with `exampleArgs`. -/
theorem C30_deterministic_log (a : RunArgs) (k : ℕ) (env : Env) (t : SWell) (hk : a.target = k) (ht : a.wells[k]? = some t)
    {r : RunResult} {f : PField ℝ} (h : createDeterministic a env = some r) (ho : r.outcome = .ok f) :
    ∀ L ∈ r.log, ∀ x y, L.model.OffWells x y → ∃ Qxx Qyy,
      HasDerivAt (fun s => (L.model.discharge s y).1) Qxx x ∧ HasDerivAt (fun s => (L.model.discharge x s).2) Qyy y ∧
      L.recharge = Qxx + Qyy := by
  unfold createDeterministic at h
  rw [hk, getWell_nat ht] at h
  simp only at h
  split at h
  · obtain rfl := Option.some.inj h
    simp at ho
  · rename_i f0 hnew
    obtain ⟨hs, hdx, hdy, h0, hr0, hm0, hw0, ⟨b, hb, hbx, hby⟩, hnr, hnc⟩ := new_spec hnew
    split at h
    · simp at h
    rename_i o l hreal
    obtain rfl := Option.some.inj h
    simp only at ho
    subst ho
    obtain ⟨L, rfl, hL, hrc, -⟩ := realize_spec hr0 hb hm0 hreal
    intro L' hL' x y hoff
    obtain rfl := List.mem_singleton.mp hL'
    obtain ⟨Qxx, Qxy, Qyx, Qyy, d1, -, -, d4, e, -⟩ := C30_divergence_curl L'.model x y hoff
    exact ⟨Qxx, Qyy, d1, d4, by rw [hrc, e]⟩

/-- C30 fails for stochastic runs: the logged recharge is minus the divergence of the discharge of the traced model. Example: below, with `exampleArgs`. -/
theorem C30_fails_for_stochastic_log (a : RunArgs) (n k : ℕ) (env : Env) (t : SWell) (hk : a.target = k) (ht : a.wells[k]? = some t)
    {r : RunResult} {f : PField ℝ} (h : createStochastic a n env = some r) (ho : r.outcome = .ok f) :
    ∀ L ∈ r.log, ∀ x y, L.model.OffWells x y → ∃ Qxx Qyy,
      HasDerivAt (fun s => (L.model.discharge s y).1) Qxx x ∧ HasDerivAt (fun s => (L.model.discharge x s).2) Qyy y ∧
      L.recharge = -(Qxx + Qyy) := by
  unfold createStochastic at h
  rw [hk, getWell_nat ht] at h
  simp only at h
  split at h
  · obtain rfl := Option.some.inj h
    simp at ho
  · rename_i f0 hnew
    obtain ⟨hs, hdx, hdy, h0, hr0, hm0, hw0, ⟨b, hb, hbx, hby⟩, hnr, hnc⟩ := new_spec hnew
    obtain ⟨ls, a1, a2, a3, -⟩ := loop_spec _ 0 f0 b [] r f hr0 hb hm0 h ho
    intro L hL x y hoff
    simp only [List.nil_append] at a1
    rw [a1] at hL
    obtain ⟨j, hj, rfl⟩ := List.mem_iff_getElem.mp hL
    have hrc := (a3 j _ (List.getElem?_eq_getElem hj)).2
    obtain ⟨Qxx, Qxy, Qyx, Qyy, d1, -, -, d4, e, -⟩ := C30_divergence_curl _ x y hoff
    exact ⟨Qxx, Qyy, d1, d4, by rw [hrc, e]; ring⟩

/-! ## C65 -/

/-- C65: a stochastic run raises only what drawing the parameters, fitting the regional flow, or drawing the coefficients
raises in one of the realizations. -/
theorem C65_only_parameters_raise (a : RunArgs) (n k : ℕ) (env : Env) (t : SWell) (hk : a.target = k) (ht : a.wells[k]? = some t)
    (hs : 0 < a.spacing) (hn : 0 ≤ a.npaths) {r : RunResult} {e : PyErr} (h : createStochastic a n env = some r)
    (ho : r.outcome = .error e) :
    ∃ i < n, DrawFails a (fun d m => d.sample (env.u i m)) e ∨
      ∃ m, DrawnModel a (fun d m => d.sample (env.u i m)) m ∧ ((m.fitRegionalFlow env.la a.obs t.xw t.yw).2 = .error e ∨
        ∃ ev cov, (m.fitRegionalFlow env.la a.obs t.xw t.yw).2 = .ok (ev, cov) ∧ env.mvn i ev cov = .error e) := by
  unfold createStochastic at h
  rw [hk, getWell_nat ht] at h
  simp only at h
  split at h
  · rename_i e' hnew
    unfold PField.new at hnew
    rw [if_neg (by linarith), if_neg (by linarith)] at hnew
    simp at hnew
  · rename_i f0 hnew
    obtain ⟨hs, hdx, hdy, h0, hr0, hm0, hw0, ⟨b, hb, hbx, hby⟩, hnr, hnc⟩ := new_spec hnew
    obtain ⟨j, -, j2, hj⟩ := loop_error (by omega) _ 0 f0 [] r e hr0 (by rw [hb]; simp) hm0 h ho
    refine ⟨j, by simpa using j2, ?_⟩
    rcases hj with hj | ⟨m, hm, hj⟩
    · exact .inl (drawModel_error hj)
    · exact .inr ⟨m, drawModel_iff.mp hm, hj⟩

/-- C65: pressing Ctrl-C does not stop a run. If every velocity evaluation raises KeyboardInterrupt, a run whose parameters are fine still returns normally, as if it had made
`n` realizations: total weight `n`, and (at the nodes around the target, or everywhere if the umbra does not exceed the spacing) probability zero. -/
theorem C65_interrupts_are_swallowed (a : RunArgs) (n k : ℕ) (env : Env) (t : SWell) (hk : a.target = k)
    (ht : a.wells[k]? = some t) (hs : 0 < a.spacing) (hn : 0 ≤ a.npaths)
    (hi : ∀ i k m, env.interrupt i k m = some .keyboardInterrupt)
    (hp : ∀ i < n, ∃ m ev cov c, DrawnModel a (fun d j => d.sample (env.u i j)) m ∧
      (m.fitRegionalFlow env.la a.obs t.xw t.yw).2 = .ok (ev, cov) ∧ env.mvn i ev cov = .ok c) :
    ∃ r f, createStochastic a n env = some r ∧ r.outcome = .ok f ∧ f.total = n ∧
      (0 ≤ a.umbra → ∀ p q : ℤ, (|p| ≤ 1 ∧ |q| ≤ 1) ∨ a.umbra ≤ a.spacing →
        f.weightAt (t.xw + p * a.spacing) (t.yw + q * a.spacing) = 0) := by
  classical
  obtain ⟨r, hr⟩ := stochastic_returns (a := a) (n := n) (env := env) (by
    intro m i k x y
    exact interrupted_terminates (N := 0) (fun p => ⟨.keyboardInterrupt, by simp [runVelocity, hi]⟩) _ _ _ _ _)
  cases ho : r.outcome with
  | error e =>
    exfalso
    obtain ⟨i, hin, h⟩ := C65_only_parameters_raise a n k env t hk ht hs hn hr ho
    obtain ⟨m, ev, cov, c, h1, h2, h3⟩ := hp i hin
    rcases h with h | ⟨m', h, h'⟩
    · exact h1.not_fails h
    · obtain rfl : m = m' := h1.unique h
      rcases h' with h' | ⟨ev', cov', h', h''⟩
      · rw [h2] at h'; simp at h'
      · rw [h2] at h'
        simp only [Except.ok.injEq, Prod.mk.injEq] at h'
        rw [← h'.1, ← h'.2, h3] at h''
        simp at h''
  | ok f =>
    obtain ⟨c1, c2, -, c4, -⟩ := C44_frequencies a n k env t hk ht hr ho
    refine ⟨r, f, hr, ho, c2, fun hu p q hpq => ?_⟩
    rw [c4 hu p q hpq]
    have : (r.log.countP fun L => L.Captures a.umbra (t.xw + p * a.spacing) (t.yw + q * a.spacing)) = 0 := by
      rw [List.countP_eq_zero]
      intro L hL
      obtain ⟨i, hi', rfl⟩ := List.mem_iff_getElem.mp hL
      obtain ⟨L', e, R⟩ := C45_realizations a n k env t hk ht hr ho i (by omega)
      rw [List.getElem?_eq_getElem hi'] at e
      obtain rfl := Option.some.inj e
      simp only [decide_eq_true_eq]
      rintro ⟨tr, htr, A, B, hAB, -, -⟩
      obtain ⟨j, hj, rfl⟩ := List.mem_iff_getElem.mp htr
      have := interrupted_at_once (e := .keyboardInterrupt) (by intro p; simp [hi]) (R.traces j _ (List.getElem?_eq_getElem hj))
      unfold Trace.path at hAB
      rw [this] at hAB
      have := hAB.length_le
      simp at this
    rw [this]
    simp

/-! ## Example -/

/-- one well pumping 500 to 1000, triangular conductivity, uniform porosity, six observations -/
noncomputable def exampleArgs : RunArgs where
  target := 0
  npaths := 10
  duration := .fin 3650
  base := 0
  cDist := .tuple [5, 10, 20]
  pDist := .tuple [0.2, 0.25]
  tDist := .const 20
  wells := [⟨0, 0, 0.25, .tuple [500, 1000]⟩]
  obs := sixObs
  spacing := 4
  umbra := 4
  confined := true
  tol := .fin 1
  maxstep := .fin 10

/-- exact linear algebra, all draws in the middle, the coefficients equal to their expectation, and every trace interrupted after `N` velocity
evaluations (`N` is arbitrary) -/
noncomputable def exampleEnv (N : ℕ) : Env where
  la := perfect
  u _ _ := 1/2
  mvn _ ev _ := .ok ev
  interrupt _ _ m := if m < N then none else some .keyboardInterrupt

/-- the hypotheses of C45 on the distributions are met -/
theorem exampleArgs_dists : IsDist exampleArgs.cDist.toPy 5 20 ∧ IsDist exampleArgs.pDist.toPy 0.2 0.25 ∧
    IsDist exampleArgs.tDist.toPy 20 20 :=
  ⟨.triple _ _ _ 5 10 20 rfl rfl rfl (by norm_num) (by norm_num) (by norm_num), .pair _ _ _ _ rfl rfl (by norm_num), .scalar _ _ rfl⟩

theorem example_model (N i : ℕ) : ∃ m ev cov c, DrawnModel exampleArgs (fun d j => d.sample ((exampleEnv N).u i j)) m ∧
    (m.fitRegionalFlow (exampleEnv N).la exampleArgs.obs 0 0).2 = .ok (ev, cov) ∧ (exampleEnv N).mvn i ev cov = .ok c := by
  have e1 : Dist.sample (.tuple [500, 1000]) (1/2) = .ok (500 + (1000 - 500) * (1/2)) := rfl
  obtain ⟨c, hc, hc1⟩ : ∃ x, Dist.sample (.tuple [5, 10, 20]) (1/2) = .ok x ∧ 5 ≤ x := by
    have hg := Variate.gen_triple (a := .float (.fin 5)) (m := .float (.fin 10)) (b := .float (.fin 20)) (x := 5) (c := 10) (y := 20)
      rfl rfl rfl (by norm_num) (by norm_num) (by norm_num) (u := 1/2) (by norm_num) (by norm_num)
    refine ⟨Variate.tri 5 10 20 (1/2), ?_, (Variate.tri_mem (by norm_num) (by norm_num) (by norm_num) _).1⟩
    unfold Dist.sample
    show PyVal.asReal (generateRandomVariate (.tuple [.float (.fin 5), .float (.fin 10), .float (.fin 20)]) (1/2)) = _
    rw [hg]
    rfl
  have e3 : Dist.sample (.tuple [0.2, 0.25]) (1/2) = .ok (0.2 + (0.25 - 0.2) * (1/2)) := rfl
  have e4 : Dist.sample (.const 20) (1/2) = .ok 20 := rfl
  have hd : drawModel exampleArgs (fun d j => d.sample ((exampleEnv N).u i j)) = .ok
      ⟨0, c, 0.2 + (0.25 - 0.2) * (1/2), 20, [⟨0, 0, 0.25, 500 + (1000 - 500) * (1/2)⟩], 0, 0, fun _ => 0⟩ := by
    unfold drawModel drawWells exampleArgs exampleEnv
    simp only [e1, e3, e4, hc, drawWells]
  obtain ⟨⟨ev, cov⟩, hfit⟩ := (C37_degenerate perfect perfect_correct perfect_converges
    ⟨0, c, 0.2 + (0.25 - 0.2) * (1/2), 20, [⟨0, 0, 0.25, 500 + (1000 - 500) * (1/2)⟩], 0, 0, fun _ => 0⟩
    (by show 0 < c; linarith) (by norm_num) sixObs 0 0 (sixObs_usable_of rfl (by simp))).2 sixObs_general
  exact ⟨_, ev, cov, ev, drawModel_iff.mp hd, hfit, rfl⟩

/-- the hypotheses of C30, C44, C45 are met -/
theorem exampleRun_returns' (N : ℕ → ℕ) (n : ℕ) :
    ∃ r f, createStochastic exampleArgs n { exampleEnv 0 with interrupt := fun i => (exampleEnv (N i)).interrupt i } = some r ∧ r.outcome = .ok f := by
  obtain ⟨r, hr⟩ := stochastic_returns (a := exampleArgs) (n := n) (env := { exampleEnv 0 with interrupt := fun i => (exampleEnv (N i)).interrupt i }) (by
    intro m i k x y
    exact interrupted_terminates (N := N i) (fun p => ⟨.keyboardInterrupt, by simp [runVelocity, exampleEnv]⟩) _ _ _ _ _)
  cases ho : r.outcome with
  | ok f => exact ⟨r, f, hr, ho⟩
  | error e =>
    exfalso
    obtain ⟨i, -, h⟩ := C65_only_parameters_raise exampleArgs n 0 { exampleEnv 0 with interrupt := fun i => (exampleEnv (N i)).interrupt i } ⟨0, 0, 0.25, .tuple [500, 1000]⟩ rfl rfl
      (by norm_num [exampleArgs]) (by norm_num [exampleArgs]) hr ho
    obtain ⟨m, ev, cov, c, h1, h2, h3⟩ := example_model 0 i
    rcases h with h | ⟨m', h, h'⟩
    · exact h1.not_fails h
    · obtain rfl : m = m' := h1.unique h
      rcases h' with h' | ⟨ev', cov', h', h''⟩
      · rw [h2] at h'; simp at h'
      · simp [exampleEnv] at h''

/-- the same with all traces interrupted at the same time -/
theorem exampleRun_returns (N n : ℕ) : ∃ r f, createStochastic exampleArgs n (exampleEnv N) = some r ∧ r.outcome = .ok f :=
  exampleRun_returns' (fun _ => N) n

/-- the hypotheses of C46 are met -/
example (N : ℕ) : ∃ r f, createDeterministic exampleArgs (exampleEnv N) = some r ∧ r.outcome = .ok f := by
  have e1 : Dist.mean (.tuple [500, 1000]) = .ok ((500 + 1000) / 2) := by
    unfold Dist.mean Dist.toPy
    simp [computeVariateMean, PyVal.num, XR.fin_add, XR.fin_div, PyVal.asReal]
  have e2 : Dist.mean (.tuple [5, 10, 20]) = .ok ((5 + 10 + 20) / 3) := by
    unfold Dist.mean Dist.toPy
    simp [computeVariateMean, PyVal.num, XR.fin_add, XR.fin_div, PyVal.asReal]
  have e3 : Dist.mean (.tuple [0.2, 0.25]) = .ok ((0.2 + 0.25) / 2) := by
    unfold Dist.mean Dist.toPy
    simp [computeVariateMean, PyVal.num, XR.fin_add, XR.fin_div, PyVal.asReal]
  have e4 : Dist.mean (.const 20) = .ok 20 := rfl
  have hd : drawModel exampleArgs (fun d _ => d.mean) = .ok
      ⟨0, (5 + 10 + 20) / 3, (0.2 + 0.25) / 2, 20, [⟨0, 0, 0.25, (500 + 1000) / 2⟩], 0, 0, fun _ => 0⟩ := by
    unfold drawModel drawWells exampleArgs
    simp only [e1, e2, e3, e4, drawWells]
  obtain ⟨⟨ev, cov⟩, hfit⟩ := (C37_degenerate perfect perfect_correct perfect_converges
    ⟨0, (5 + 10 + 20) / 3, (0.2 + 0.25) / 2, 20, [⟨0, 0, 0.25, (500 + 1000) / 2⟩], 0, 0, fun _ => 0⟩
    (by norm_num) (by norm_num) sixObs 0 0 (sixObs_usable_of rfl (by simp))).2 sixObs_general
  unfold createDeterministic
  rw [show getWell exampleArgs.wells exampleArgs.target = .ok ⟨0, 0, 0.25, .tuple [500, 1000]⟩ from rfl]
  simp only
  cases hnew : PField.new exampleArgs.spacing exampleArgs.spacing (some (0:ℝ)) (some 0) with
  | error e =>
    unfold PField.new exampleArgs at hnew
    rw [if_neg (by norm_num), if_neg (by norm_num)] at hnew
    simp at hnew
  | ok f0 =>
    obtain ⟨-, -, -, -, hr0, -, -, ⟨b, hb, -, -⟩, -⟩ := new_spec hnew
    simp only
    unfold realize
    rw [hd]
    simp only
    obtain ⟨m', hm'⟩ : ∃ m', fitRegionalFlow (exampleEnv N).la
        ⟨0, (5 + 10 + 20) / 3, (0.2 + 0.25) / 2, 20, [⟨0, 0, 0.25, (500 + 1000) / 2⟩], 0, 0, fun _ => 0⟩ exampleArgs.obs 0 0 =
          (m', .ok (ev, cov)) := ⟨_, Prod.ext rfl hfit⟩
    rw [hm']
    simp only
    obtain ⟨c, hc⟩ := capture_terminates (xt := 0) (yt := 0) (rt := 0.25) (u := exampleArgs.umbra) (w := 1) (d := exampleArgs.duration)
      (tol := exampleArgs.tol) (ms := exampleArgs.maxstep) (n := exampleArgs.npaths)
      (fe := runVelocity { m' with coef := ev } exampleArgs.confined ((exampleEnv N).interrupt 0)) (reachable_wf hr0)
      (fun k θ => interrupted_terminates (N := N) (fun p => ⟨.keyboardInterrupt, by simp [runVelocity, exampleEnv]⟩) _ _ _ _ _)
    rw [hc]
    obtain ⟨ho, -⟩ := capture_spec (n := 10) (reachable_wf hr0) (Or.inl (by rw [hb]; simp)) hc
    simp only [ho]
    exact ⟨_, _, rfl, rfl⟩

/-- the hypotheses of C65 are met -/
example (n : ℕ) : (∀ i k m, (exampleEnv 0).interrupt i k m = some .keyboardInterrupt) ∧
    ∀ i < n, ∃ m ev cov c, DrawnModel exampleArgs (fun d j => d.sample ((exampleEnv 0).u i j)) m ∧
      (m.fitRegionalFlow (exampleEnv 0).la exampleArgs.obs 0 0).2 = .ok (ev, cov) ∧ (exampleEnv 0).mvn i ev cov = .ok c :=
  ⟨fun _ _ _ => rfl, fun i _ => example_model 0 i⟩

end Oneka
