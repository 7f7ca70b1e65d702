import Verif.Lemmas.PropsStatistics

/-!
# C96: what the archived frequencies estimate

The numbers that the realizations consume are random: independent from realization to realization, with one law `ν`. Nothing else is assumed about them; of the generator of the
coefficients only that it is a measurable function of its parameters and its numbers.
-/

namespace Oneka

open MeasureTheory Filter Topology

section
variable (a : RunArgs) (k : ℕ) (t : SWell) (hk : a.target = k) (ht : a.wells[k]? = some t)
  {la : LinAlg} (hla : la.Correct) (hc : la.Converges) (hst : la.Strict) {mv : NormalGen} (hmv : mv.IsMeasurable)
  {Ω : Type} [MeasurableSpace Ω] {μ : Measure Ω} {ν : Measure Numbers} {x : ℕ → Ω → Numbers} (hx : IidNumbers μ ν x)

include hk ht hla hc hst hmv hx

/-- C96: a run of `n` realizations returns with the `n`-th power of the probability that one realization can be carried out. So if realizations fail with a positive probability, however small, long runs almost
never return. -/
theorem C96_returns (hs : 0 < a.spacing) (hn : 0 ≤ a.npaths) (n : ℕ) :
    μ {ω | ∃ r f, createStochastic a n (envOf la mv fun i => x i ω) = some r ∧ r.outcome = .ok f} = ν {y | ReturnsWith a la mv t y} ^ n := by
  simp only [run_returns_iff hk ht hs hn]
  have := hx.inter n (A := fun _ => {y | ReturnsWith a la mv t y}) fun _ => meas_returnsWith a hla hc hst hmv t
  rw [Finset.prod_const, Finset.card_range] at this
  exact this

/-- C96: the weight of a node (one of those around the target; any node if the umbra does not exceed the spacing) has a binomial law: it is `m` with the probability that `m` of `n` independent
realizations have a trace passing within the umbra of it. -/
theorem C96_binomial (hs : 0 < a.spacing) (hn : 0 ≤ a.npaths) (hu : 0 ≤ a.umbra) (n m : ℕ) (p q : ℤ) (hpq : (|p| ≤ 1 ∧ |q| ≤ 1) ∨ a.umbra ≤ a.spacing) :
    μ {ω | ∃ r f, createStochastic a n (envOf la mv fun i => x i ω) = some r ∧ r.outcome = .ok f ∧ f.weightAt (t.xw + p * a.spacing) (t.yw + q * a.spacing) = m} =
      n.choose m * ν {y | CapturedWith a la mv t (t.xw + p * a.spacing) (t.yw + q * a.spacing) y} ^ m *
        ν {y | ReturnsWith a la mv t y ∧ ¬ CapturedWith a la mv t (t.xw + p * a.spacing) (t.yw + q * a.spacing) y} ^ (n - m) := by
  classical
  have := hx.binomial n m (meas_capturedWith a hla hc hst hmv t (t.xw + p * a.spacing) (t.yw + q * a.spacing)) (meas_returnsWith a hla hc hst hmv t) captured_returns
  refine Eq.trans (congrArg μ ?_) this
  ext ω
  constructor
  · rintro ⟨r, f, h, ho, hw⟩
    refine ⟨(run_returns_iff hk ht hs hn).mp ⟨r, f, h, ho⟩, ?_⟩
    have := (run_weight hk ht hu h ho p q hpq).2
    rw [hw] at this
    exact_mod_cast this.symm
  · rintro ⟨h1, h2⟩
    obtain ⟨r, f, h, ho⟩ := (run_returns_iff (x := fun i => x i ω) hk ht hs hn).mpr h1
    refine ⟨r, f, h, ho, ?_⟩
    rw [(run_weight hk ht hu h ho p q hpq).2]
    exact_mod_cast h2

/-- C96: almost surely, as the number of realizations grows (and as long as all realizations return), the capture frequency of such a node converges to the probability that one realization has a trace passing
within the umbra of it. -/
theorem C96_converges (hu : 0 ≤ a.umbra) (p q : ℤ) (hpq : (|p| ≤ 1 ∧ |q| ≤ 1) ∨ a.umbra ≤ a.spacing) :
    ∀ᵐ ω ∂μ, ∀ f : ℕ → PField ℝ, (∀ n : ℕ, ∃ r, createStochastic a n (envOf la mv fun i => x i ω) = some r ∧ r.outcome = .ok (f n)) →
      Tendsto (fun n => (f n).weightAt (t.xw + p * a.spacing) (t.yw + q * a.spacing) / (f n).total) atTop
        (𝓝 (ν.real {y | CapturedWith a la mv t (t.xw + p * a.spacing) (t.yw + q * a.spacing) y})) := by
  classical
  filter_upwards [hx.lln (meas_capturedWith a hla hc hst hmv t (t.xw + p * a.spacing) (t.yw + q * a.spacing))] with ω hω f hf
  refine hω.congr fun n => ?_
  obtain ⟨r, h, ho⟩ := hf n
  obtain ⟨h1, h2⟩ := run_weight hk ht hu h ho p q hpq
  rw [h1, h2]
  rfl

/-- C96: how far a frequency is off: for any `ε` the probability that a run of `n` realizations returns a field whose frequency at such a node differs by `ε` or more from that probability is at
most `2·exp(-2nε²)`. -/
theorem C96_error (hu : 0 ≤ a.umbra) (n : ℕ) (hn : 0 < n) (p q : ℤ) (hpq : (|p| ≤ 1 ∧ |q| ≤ 1) ∨ a.umbra ≤ a.spacing) (ε : ℝ) (hε : 0 ≤ ε) :
    μ.real {ω | ∃ r f, createStochastic a n (envOf la mv fun i => x i ω) = some r ∧ r.outcome = .ok f ∧
        ε ≤ |f.weightAt (t.xw + p * a.spacing) (t.yw + q * a.spacing) / f.total - ν.real {y | CapturedWith a la mv t (t.xw + p * a.spacing) (t.yw + q * a.spacing) y}|} ≤
      2 * Real.exp (-2 * n * ε ^ 2) := by
  classical
  have := hx.prob
  refine le_trans (measureReal_mono ?_) (hx.hoeffding (meas_capturedWith a hla hc hst hmv t (t.xw + p * a.spacing) (t.yw + q * a.spacing)) n hε)
  rintro ω ⟨r, f, h, ho, hd⟩
  obtain ⟨h1, h2⟩ := run_weight hk ht hu h ho p q hpq
  rw [h1, h2] at hd
  exact frequency_error hn hd

end

/-- C96: and so it is for whole calls: the probability that a call returns, having archived a field whose frequency at such a node differs by `ε` or more from the probability
that one realization (with the retained observations) has a trace passing within the umbra of it, is at most `2·exp(-2nε²)`. -/
theorem C96_call (a : PyArgs) (n : Inputs) (env : CallEnv) (hd : a.Denotes n) (h1 : 1 < n.nrealizations) (obs : List Obs) (k : ℕ) (t : SWell)
    (ho : filterObs n.run.obs (n.run.wells.map fun w => (w.xw, w.yw)) n.buffer = .ok obs) (hk : n.run.target = k) (ht : n.run.wells[k]? = some t)
    {la : LinAlg} (hla : la.Correct) (hc : la.Converges) (hst : la.Strict) {mv : NormalGen} (hmv : mv.IsMeasurable)
    {Ω : Type} [MeasurableSpace Ω] {μ : Measure Ω} {ν : Measure Numbers} {x : ℕ → Ω → Numbers} (hx : IidNumbers μ ν x) (fs : Files)
    (p q : ℤ) (hpq : (|p| ≤ 1 ∧ |q| ≤ 1) ∨ n.run.umbra ≤ n.run.spacing) (ε : ℝ) (hε : 0 ≤ ε) :
    μ.real {ω | ∃ v d f, (oneka a { env with run := envOf la mv fun i => x i ω }).ending = .returns v ∧
        loadOneka ((oneka a { env with run := envOf la mv fun i => x i ω }).events.foldl Effect.apply fs) env.now.archiveName = .ok d ∧
        d.get "pfield" = some (.field (.field f)) ∧
        ε ≤ |f.weightAt (t.xw + p * n.run.spacing) (t.yw + q * n.run.spacing) / f.total -
          ν.real {y | CapturedWith { n.run with obs := obs } la mv t (t.xw + p * n.run.spacing) (t.yw + q * n.run.spacing) y}|} ≤
      2 * Real.exp (-2 * n.nrealizations * ε ^ 2) := by
  classical
  have hp := hx.prob
  obtain ⟨N, hN⟩ : ∃ N : ℕ, n.nrealizations = N := ⟨n.nrealizations.toNat, by omega⟩
  have hh := hx.hoeffding (meas_capturedWith { n.run with obs := obs } hla hc hst hmv t (t.xw + p * n.run.spacing) (t.yw + q * n.run.spacing)) N hε
  rw [hN]
  refine le_trans (measureReal_mono ?_ (measure_ne_top μ _)) (by exact_mod_cast hh)
  rintro ω ⟨v, d, f, h, hl, hf, hdev⟩
  obtain ⟨d', f', obs', k', t', g1, g2, g3, -, g5, g6, g7, g8, g9, g10, -⟩ := C68_stochastic a n { env with run := envOf la mv fun i => x i ω } v hd h1 h fs
  have e1 : loadOneka ((oneka a { env with run := envOf la mv fun i => x i ω }).events.foldl Effect.apply fs) env.now.archiveName = .ok d' := g1
  rw [hl] at e1
  obtain rfl := Except.ok.inj e1
  rw [hf] at g2
  obtain rfl : f = f' := by simpa using g2
  rw [ho] at g3
  obtain rfl := Except.ok.inj g3
  obtain rfl : k = k' := by rw [hk] at g5; exact_mod_cast g5
  rw [ht] at g6
  obtain rfl := Option.some.inj g6
  have hcount := count_log (a := { n.run with obs := obs }) (la := la) (mv := mv) (t := t) (x := fun i => x i ω) (n := N)
    (t.xw + p * n.run.spacing) (t.yw + q * n.run.spacing) (by rw [hN] at g7; exact_mod_cast g7) fun i L hL => g8 i L hL
  rw [g10 p q hpq, g9, hN] at hdev
  have hdev' : ε ≤ |(((Finset.range N).filter fun i => x i ω ∈ {y | CapturedWith { n.run with obs := obs } la mv t (t.xw + p * n.run.spacing) (t.yw + q * n.run.spacing) y}).card : ℝ) / N -
      ν.real {y | CapturedWith { n.run with obs := obs } la mv t (t.xw + p * n.run.spacing) (t.yw + q * n.run.spacing) y}| := by
    rw [← hcount]
    convert hdev using 4
    norm_cast
  exact frequency_error (by omega) hdev'

end Oneka
