import Verif.Lemmas.B64Report
import Verif.Lemmas.PropsBinary64Zone
import Verif.Props.FlRun

/-!
# C126 A whole run neither overflows nor underflows

The filter, the random parameters, the fit, whole runs and the report in binary64 arithmetic. numpy's linear algebra and normal draws are arbitrary, as long as they return finite numbers for finite numbers.
Examples: `Props/Binary64RunExamples.lean`.
-/

namespace Oneka
open Aquifer PField

section
variable [LibM] [LibObs]

/-- **C126.** The filter. If the entries of the observations, the positions of the wells and the buffer have ordinary sizes, and standard deviations are positive, the filter does the same in binary64 as with unlimited exponents:
the same observations are removed, the same ones are merged, to the same finite numbers, or the same exception is raised. -/
theorem C126_filter (hl : LibObs.Accurate) (obs : List FlObs) (ho : ∀ o ∈ obs, o.Ordinary) (hn : obs.length ≤ 2 ^ 40) (wells : List (Fl × Fl)) (hw : ∀ w ∈ wells, w.1.Ordinary ∧ w.2.Ordinary) (buffer : Fl)
    (hb : buffer.Ordinary) :
    Alike (List.Forall₂ IsObs64) (B64Util.filterObs (obs.map FlObs.to64) (wells.map fun w => (w.1.to64, w.2.to64)) buffer.to64) (FlUtil.filterObs obs wells buffer) := by
  unfold B64Util.filterObs FlUtil.filterObs
  rw [B64Util.near_same hl hb wells hw obs ho]
  exact B64Util.runs_same hl _ _ le_rfl (fun o h => ho o (B64Util.near_sub _ _ _ o h)) ((B64Util.near_len _ _ _).trans hn)

omit [LibObs] in
/-- **C126.** Random parameters. The value drawn from a distribution with entries of ordinary sizes, and its mean, are the same finite number in binary64 as with unlimited exponents, or the same exception is raised. -/
theorem C126_variate {d : FlDist} (hd : d.Ordinary) {u : Fl} (hu : u.IsDraw) : Alike Is64 (d.to64.sample u.to64) (d.sample u) ∧ Is64 d.to64.mean d.mean :=
  ⟨(sample_same hd hu).weaken fun _ _ h => h.1, (mean_same hd).1⟩

/-- **C126.** The fit. If model, observations and origin have ordinary sizes and no observation is at a well, the weighted system is the same in binary64 as with unlimited exponents, and so are expected values, covariances and the
model afterwards. -/
theorem C126_fit (hlog : LogAccurate) (hl : LibObs.Accurate) {m : Aquifer Fl} (hm : m.Ordinary) (hb : m.base.Ordinary) {la64 : B64LinAlg} {la : FlLinAlg} (hla : la64.Extends la) {xo yo : Fl} (hx : xo.Ordinary)
    (hy : yo.Ordinary) (obs : List FlObs) (ho : ∀ o ∈ obs, o.Ordinary) (hw : ∀ o ∈ obs, m.exact.OffWells o.x.val o.y.val) :
    Alike (List.Forall₂ IsRow64) (m.to64.b64ConstructFit xo.to64 yo.to64 (obs.map FlObs.to64)) (m.flConstructFit xo yo obs) ∧
    (m.to64.b64FitRegionalFlow la64 (obs.map FlObs.to64) xo.to64 yo.to64).1 = (m.flFitRegionalFlow la obs xo yo).1.to64 ∧
    Alike (fun b x => IsVec64 b.1 x.1 ∧ IsMat64 b.2 x.2) (m.to64.b64FitRegionalFlow la64 (obs.map FlObs.to64) xo.to64 yo.to64).2 (m.flFitRegionalFlow la obs xo yo).2 :=
  ⟨construct_same hlog hl hm hb hx hy obs ho hw, fit_same hlog hl hm hb hla hx hy obs ho hw⟩

/-- **C126.** Stochastic runs. Let the arguments have ordinary sizes, let all draws give positive aquifer properties of ordinary sizes and discharges of ordinary sizes, and let the traces of each model that is realized stay in
regions with ordinary coordinates. Then the run does the same in binary64 as with unlimited exponents: it never returns, or raises the same exception, or returns a field with the same (finite) numbers. -/
theorem C126_stochastic (hlog : LogAccurate) (hroot : RootAccurate) (htrig : TrigAccurate) (hl : LibObs.Accurate) {a : FlRunArgs} (ha : a.Ordinary) (hrange : TrigRange a.npaths) (n : ℤ) {la64 : B64LinAlg} {la : FlLinAlg}
    (hla : la64.Extends la) {u : ℕ → ℕ → Fl} (hu : ∀ i j, (u i j).IsDraw) {mvn64 : ℕ → (Fin 6 → B64) → Matrix (Fin 6) (Fin 6) B64 → Except PyErr (Fin 6 → B64)}
    {mvn : ℕ → (Fin 6 → Fl) → Matrix (Fin 6) (Fin 6) Fl → Except PyErr (Fin 6 → Fl)} (hmvn : ∀ i, NormalExtends (mvn64 i) (mvn i))
    (hd : ∀ i < n.toNat, ∀ c p t qs, a.Drawn (u i) c p t qs → OrdinaryDraw c p t qs)
    (hs : ∀ i < n.toNat, ∀ w m, a.IsTarget w → a.Realized la w (u i) (mvn i) m → a.Stays w m) :
    OptAlike (Alike PField.Is64) (b64CreateStochastic a.to64 n la64 (fun i j => (u i j).to64) mvn64) (flCreateStochastic a n la u mvn) := by
  have g := getWell_same a.wells a.target
  unfold b64CreateStochastic flCreateStochastic
  have e1 : a.to64.wells = a.wells.map FlSWell.to64 := rfl
  have e2 : a.to64.target = a.target := rfl
  have e3 : a.to64.spacing = a.spacing.to64 := rfl
  rw [e1, e2, e3]
  revert g
  cases hw : flGetWell a.wells a.target with
  | error e =>
    cases b64GetWell (a.wells.map FlSWell.to64) a.target with
    | error e' => exact id
    | ok _ => exact fun h => h.elim
  | ok w =>
    cases b64GetWell (a.wells.map FlSWell.to64) a.target with
    | error e' => exact fun h => h.elim
    | ok w64 =>
      rintro ⟨rfl, hmem⟩
      obtain ⟨w1, w2, -⟩ := ha.wells w hmem
      have s := new_same (xo := some w.xw) (yo := some w.yw) ha.spacing ha.spacing (fun a ha => by obtain rfl := Option.some.inj ha; exact w1) (fun a ha => by obtain rfl := Option.some.inj ha; exact w2)
      simp only [Option.map_some] at s
      simp only
      have e4 : w.to64.xw = w.xw.to64 := rfl
      have e5 : w.to64.yw = w.yw.to64 := rfl
      rw [e4, e5]
      revert s
      generalize PField.new a.spacing.to64 _ _ _ = c0
      generalize PField.new a.spacing _ _ _ = f0
      intro s
      match c0, f0, s with
      | .error e, .error e', s => exact s
      | .ok c0, .ok f0, s =>
        have r := loop_same hlog hroot htrig hl ha hrange hla hmem hu hmvn n.toNat 0 (fun j _ hj m hm => by
          obtain ⟨-, -, -, -, k1, k2, k3, k4, k5⟩ := flDrawModel_ok hm
          refine hd j (by omega) _ _ _ _ ⟨by rw [List.length_map, k1], fun i s v h1 h2 => ?_, k3, k4, k5⟩
          rw [List.getElem?_map, Option.map_eq_some_iff] at h2
          obtain ⟨x, hx, rfl⟩ := h2
          exact (k2 i s x h1 hx).2.2.2) (fun j _ hj m hm => hs j (by omega) w m (flGetWell_iff.mp hw) (flRealized_iff.mp hm)) s
        simp only
        revert r
        generalize b64StochasticLoop _ _ _ _ _ _ _ _ = x
        generalize flStochasticLoop _ _ _ _ _ _ _ _ = y
        intro r
        match x, y, r with
        | none, none, _ => trivial
        | some _, some _, r => exact Alike.weaken r fun _ _ h => h.is64

/-- **C126.** Deterministic runs, in the same way: the means of the distributions have ordinary sizes, and the traces of the fitted model stay in regions with ordinary coordinates. -/
theorem C126_deterministic (hlog : LogAccurate) (hroot : RootAccurate) (htrig : TrigAccurate) (hl : LibObs.Accurate) {a : FlRunArgs} (ha : a.Ordinary) (hrange : TrigRange a.npaths) {la64 : B64LinAlg} {la : FlLinAlg}
    (hla : la64.Extends la) (hd : OrdinaryDraw a.cDist.mean a.pDist.mean a.tDist.mean (a.wells.map fun w => w.q.mean))
    (hs : ∀ w m ev cov, a.IsTarget w → a.meanModel.flFitRegionalFlow la a.obs w.xw w.yw = (m, .ok (ev, cov)) → a.Stays w m) :
    OptAlike (Alike PField.Is64) (b64CreateDeterministic a.to64 la64) (flCreateDeterministic a la) := by
  have g := getWell_same a.wells a.target
  unfold b64CreateDeterministic flCreateDeterministic
  have e1 : a.to64.wells = a.wells.map FlSWell.to64 := rfl
  have e2 : a.to64.target = a.target := rfl
  have e3 : a.to64.spacing = a.spacing.to64 := rfl
  rw [e1, e2, e3]
  revert g
  cases hw : flGetWell a.wells a.target with
  | error e =>
    cases b64GetWell (a.wells.map FlSWell.to64) a.target with
    | error e' => exact id
    | ok _ => exact fun h => h.elim
  | ok w =>
    cases b64GetWell (a.wells.map FlSWell.to64) a.target with
    | error e' => exact fun h => h.elim
    | ok w64 =>
      rintro ⟨rfl, hmem⟩
      obtain ⟨w1, w2, -⟩ := ha.wells w hmem
      have s := new_same (xo := some w.xw) (yo := some w.yw) ha.spacing ha.spacing (fun a ha => by obtain rfl := Option.some.inj ha; exact w1) (fun a ha => by obtain rfl := Option.some.inj ha; exact w2)
      simp only [Option.map_some] at s
      simp only
      have e4 : w.to64.xw = w.xw.to64 := rfl
      have e5 : w.to64.yw = w.yw.to64 := rfl
      rw [e4, e5]
      revert s
      generalize PField.new a.spacing.to64 _ _ _ = c0
      generalize PField.new a.spacing _ _ _ = f0
      intro s
      match c0, f0, s with
      | .error e, .error e', s => exact s
      | .ok c0, .ok f0, s =>
        have r := realize_same hlog hroot htrig hl ha hrange hla hmem (q64 := fun d _ => .ok d.mean) (q := fun d _ => .ok d.mean) (mvn64 := fun ev _ => .ok ev) (mvn := fun ev _ => .ok ev)
          (fun d hd _ => (mean_same hd).1) (fun _ _ _ _ h _ => h) (fun m hm => by
            rw [mean_drawn] at hm
            obtain rfl := Except.ok.inj hm
            obtain ⟨d1, d2, d3, d4⟩ := hd
            refine ⟨d1, d2, d3, fun q hq => d4 q ?_⟩
            simpa [FlRunArgs.meanModel] using hq) (fun m hm => by
            obtain ⟨mo, ev, cov, c, k1, k2, k3, k4⟩ := flRealization_iff.mp hm
            rw [mean_drawn] at k1
            obtain rfl := Except.ok.inj k1
            obtain rfl := Except.ok.inj k3
            have := flFit_ok (la := la) (m := a.meanModel) (obs := a.obs) (xo := w.xw) (yo := w.yw) (ev := ev) (cov := cov) k2
            refine hs w m ev cov (flGetWell_iff.mp hw) ?_
            rw [this, k4]) s
        simp only
        revert r
        generalize b64Realize _ _ _ _ _ _ = x
        generalize flRealize _ _ _ _ _ _ = y
        intro r
        match x, y, r with
        | none, none, _ => trivial
        | some (c', o), some (f', o'), ⟨r1, r2⟩ =>
          obtain rfl : o = o' := r2
          cases o with
          | error e => rfl
          | ok _ => exact r1.is64

open Classical in
/-- **C126.** So the frequencies of C113 hold in binary64, too: under its conditions, if all sizes are ordinary, the run returns a field of finite numbers; its total weight is the number of realizations, and the weight of a node
is at least the number of realizations with an exact pathline passing within the umbra less `η + δ`, and at most the number with one passing within the umbra plus `η + δ`. -/
theorem C126_frequencies (hlog : LogAccurate) (hroot : RootAccurate) (htrig : TrigAccurate) (hl : LibObs.Accurate) {X Y : Axis} {S η δ : ℝ} {a : FlRunArgs} (ha : a.Ordinary) (hrange : TrigRange a.npaths) (n : ℤ)
    {la64 : B64LinAlg} {la : FlLinAlg} (hla : la64.Extends la) {u : ℕ → ℕ → Fl} (hu : ∀ i j, (u i j).IsDraw) {mvn64 : ℕ → (Fin 6 → B64) → Matrix (Fin 6) (Fin 6) B64 → Except PyErr (Fin 6 → B64)}
    {mvn : ℕ → (Fin 6 → Fl) → Matrix (Fin 6) (Fin 6) Fl → Except PyErr (Fin 6 → Fl)} (hmvn : ∀ i, NormalExtends (mvn64 i) (mvn i))
    (hd : ∀ i < n.toNat, ∀ c p t qs, a.Drawn (u i) c p t qs → OrdinaryDraw c p t qs) (w : FlSWell) (hw : a.IsTarget w) (hd0 : 0 < a.spacing.val) (hX : X.Fits w.xw.val a.spacing.val)
    (hY : Y.Fits w.yw.val a.spacing.val) (η0 : 0 ≤ η) (hηu : η ≤ a.umbra.val) (huS : a.umbra.val ≤ S) (hmS : 2 * a.maxstep.val ≤ S) (hη : 2000 * (2 ^ (-53 : ℤ) * S ^ 2) ≤ a.umbra.val * η)
    (ms : List (Aquifer Fl)) (hms : ms.length = n.toNat) (hlen : ms.length ≤ 2 ^ 53) (hreal : ∀ i m, ms[i]? = some m → a.Realized la w (u i) (mvn i) m) (hcoef : ∀ m ∈ ms, ∀ i, (m.coef i).Ordinary)
    (P : ℕ → ℕ → ℝ → ℝ × ℝ)
    (hP : ∀ i m, ms[i]? = some m → ∀ j θ, (flAngles a.npaths)[j]? = some θ → OrdinaryFollows m a.confined (flStart w.xw w.yw w.rw θ) a.duration a.tol a.maxstep X.reach Y.reach δ (P i j)) :
    ∃ c f, b64CreateStochastic a.to64 n la64 (fun i j => (u i j).to64) mvn64 = some (.ok c) ∧ PField.Is64 c f ∧ f.exact.total = n.toNat ∧
      ∀ p q : ℤ, (|p| ≤ 1 ∧ |q| ≤ 1) ∨ a.umbra.val ≤ a.spacing.val → ∀ x y : ℝ, x = w.xw.val + p * a.spacing.val → y = w.yw.val + q * a.spacing.val →
        ((List.range n.toNat).countP fun i => ∃ j, j < a.npaths ∧ Passes (P i j) a.duration.val (a.umbra.val - η - δ) x y) ≤ f.exact.weightAt x y ∧
        f.exact.weightAt x y ≤ ((List.range n.toNat).countP fun i => ∃ j, j < a.npaths ∧ Passes (P i j) a.duration.val (a.umbra.val + η + δ) x y) := by
  obtain ⟨f, h1, h2, h3⟩ := C113_stochastic hlog hroot a n la u mvn w hw hd0 hX hY η0 hηu huS hmS hη ms hms hlen hreal P fun i m hm j θ hθ => by
    obtain ⟨f, L, M, H, ρ, R, ν, η, μ, mm, T, E, N, h, -⟩ := hP i m hm j θ hθ
    exact ⟨f, L, M, H, ρ, R, ν, η, μ, mm, T, E, N, h⟩
  have s := C126_stochastic hlog hroot htrig hl ha hrange n hla hu hmvn hd fun i hi w' m hw' hm => by
    obtain rfl : w' = w := Except.ok.inj ((flGetWell_iff.mpr hw').symm.trans (flGetWell_iff.mpr hw))
    have hi' : i < ms.length := by omega
    have hget := List.getElem?_eq_getElem hi'
    obtain rfl : m = ms[i] := Except.ok.inj ((flRealized_iff.mpr hm).symm.trans (flRealized_iff.mpr (hreal i _ hget)))
    refine ⟨hcoef _ (List.getElem_mem hi'), fun θ hθ => ?_⟩
    obtain ⟨j, hj⟩ := List.mem_iff_getElem?.mp hθ
    obtain ⟨f, L, M, H, ρ, R, ν, η, μ, mm, T, E, N, h, hp, hM⟩ := hP i _ hget j θ hj
    exact ⟨_, _, stays_in_tube hlog hroot h hp hM⟩
  rw [h1] at s
  revert s
  cases b64CreateStochastic a.to64 n la64 (fun i j => (u i j).to64) mvn64 with
  | none => exact fun s => s.elim
  | some x =>
    cases x with
    | error e => exact fun s => s.elim
    | ok c => exact fun s => ⟨c, f, rfl, s, h2, h3⟩

omit [LibM] in
/-- **C126.** The report. For a field of finite numbers with weights and spacing of ordinary sizes, the curve of `create_impact_plot` and the decile table are the same finite numbers in binary64 as with unlimited exponents, or the
same exception is raised. -/
theorem C126_report (hl : LibObs.Accurate) {c : PField B64} {f : PField Fl} (h : PField.Is64 c f) {d : Fl} (hd : d.Ordinary)
    (hw : ∀ b, f.body = some b → b.totalWeight.Ordinary ∧ (∀ i j, i < b.pgrid.rows → j < b.pgrid.cols → (b.pgrid.val i j).Ordinary) ∧ b.pgrid.rows * b.pgrid.cols ≤ 2 ^ 40) :
    Alike (fun b x => B64Impact.Is64 b x ∧ Alike (List.Forall₂ Is64Pair) (b64DecileTable b) (flDecileTable x)) (b64ImpactPlot (b64Square d.to64) c) (flImpactPlot (LibObs.square d) f) :=
  (impact_same hl h hd hw).weaken fun _ _ ⟨h1, h2, h3⟩ => ⟨h1, deciles_same h1 h2 h3 linspace_same⟩

end

end Oneka
