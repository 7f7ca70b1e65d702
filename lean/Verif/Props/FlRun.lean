import Verif.Lemmas.FlRun

/-!
# C113: whole runs in floating-point arithmetic

From the distributions and observations to the probability field, every operation rounded. numpy's linear algebra and random numbers are arbitrary, subject to the contracts stated. Example: `Props/FlRunExamples.lean`.
-/

namespace Oneka

section
variable [LibM] [LibObs]

/-- C113: which models a stochastic run traces. It returns a field exactly if every realization has a model (parameters and coefficients drawn as the code draws them) and tracing these models returns it. -/
theorem C113_models (a : FlRunArgs) (n : ℤ) (la : FlLinAlg) (u : ℕ → ℕ → Fl) (mvn : ℕ → (Fin 6 → Fl) → Matrix (Fin 6) (Fin 6) Fl → Except PyErr (Fin 6 → Fl)) (f : PField Fl) :
    flCreateStochastic a n la u mvn = some (.ok f) ↔ ∃ (w : FlSWell) (ms : List (Aquifer Fl)), a.IsTarget w ∧ ms.length = n.toNat ∧ (∀ i m, ms[i]? = some m → a.Realized la w (u i) (mvn i) m) ∧
      flZones w.xw w.yw w.rw a.npaths a.duration a.umbra a.spacing a.tol a.maxstep a.confined ms = some (.ok f) := by
  unfold flCreateStochastic flZones
  constructor
  · intro h
    cases h1 : flGetWell a.wells a.target with
    | error e => rw [h1] at h; simp at h
    | ok w =>
      rw [h1] at h
      dsimp only at h
      cases h2 : PField.new a.spacing a.spacing (some w.xw) (some w.yw) with
      | error e => rw [h2] at h; simp at h
      | ok f0 =>
        rw [h2] at h
        dsimp only at h
        obtain ⟨ms, k1, k2⟩ := flLoop_models _ _ _ _ h
        rw [← k1, flLoop_eq ms 0 f0 k2] at h
        simp only [Nat.zero_add] at k2
        refine ⟨w, ms, flGetWell_iff.mp h1, k1, fun i m hm => flRealized_iff.mp (k2 i m hm), ?_⟩
        rw [h2]
        exact h
  · rintro ⟨w, ms, h1, k1, k2, h⟩
    rw [flGetWell_iff.mpr h1]
    dsimp only
    cases h2 : PField.new a.spacing a.spacing (some w.xw) (some w.yw) with
    | error e => rw [h2] at h; simp at h
    | ok f0 =>
      rw [h2] at h
      dsimp only at h ⊢
      rw [← k1, flLoop_eq ms 0 f0 (fun t m ht => by rw [Nat.zero_add]; exact flRealized_iff.mpr (k2 t m ht))]
      exact h

open Classical in
/-- C113: stochastic runs. Let every realization have a model, and let the traces of each model from each start follow exact pathlines `P i j` of that model up to `δ` (conditions of C105). Then the run returns a field whose
total weight is the number of realizations, and the weight of a node is at least the number of realizations with an exact pathline passing within the umbra less `η + δ`, and at most the number of those with one passing
within the umbra plus `η + δ`. -/
theorem C113_stochastic (hlog : LogAccurate) (hroot : RootAccurate) {X Y : Axis} {S η δ : ℝ} (a : FlRunArgs) (n : ℤ) (la : FlLinAlg) (u : ℕ → ℕ → Fl)
    (mvn : ℕ → (Fin 6 → Fl) → Matrix (Fin 6) (Fin 6) Fl → Except PyErr (Fin 6 → Fl)) (w : FlSWell) (hw : a.IsTarget w) (hd : 0 < a.spacing.val) (hX : X.Fits w.xw.val a.spacing.val)
    (hY : Y.Fits w.yw.val a.spacing.val) (η0 : 0 ≤ η) (hηu : η ≤ a.umbra.val) (huS : a.umbra.val ≤ S) (hmS : 2 * a.maxstep.val ≤ S) (hη : 2000 * (2 ^ (-53 : ℤ) * S ^ 2) ≤ a.umbra.val * η)
    (ms : List (Aquifer Fl)) (hms : ms.length = n.toNat) (hlen : ms.length ≤ 2 ^ 53) (hreal : ∀ i m, ms[i]? = some m → a.Realized la w (u i) (mvn i) m) (P : ℕ → ℕ → ℝ → ℝ × ℝ)
    (hP : ∀ i m, ms[i]? = some m → ∀ j θ, (flAngles a.npaths)[j]? = some θ →
      RoundedFollows m a.confined (flStart w.xw w.yw w.rw θ) a.duration a.tol a.maxstep X.reach Y.reach δ (P i j)) :
    ∃ f, flCreateStochastic a n la u mvn = some (.ok f) ∧ f.exact.total = n.toNat ∧
      ∀ p q : ℤ, (|p| ≤ 1 ∧ |q| ≤ 1) ∨ a.umbra.val ≤ a.spacing.val → ∀ x y : ℝ, x = w.xw.val + p * a.spacing.val → y = w.yw.val + q * a.spacing.val →
        ((List.range n.toNat).countP fun i => ∃ j, j < a.npaths ∧ Passes (P i j) a.duration.val (a.umbra.val - η - δ) x y) ≤ f.exact.weightAt x y ∧
        f.exact.weightAt x y ≤ ((List.range n.toNat).countP fun i => ∃ j, j < a.npaths ∧ Passes (P i j) a.duration.val (a.umbra.val + η + δ) x y) := by
  obtain ⟨f, h1, h2, h3⟩ := followed_frequencies hroot w.xw w.yw w.rw a.duration a.umbra a.spacing a.tol a.maxstep a.npaths a.confined ms hd hX hY η0 hηu huS hmS hη hlen P
    fun i m hm j θ hθ => rounded_core hlog (hP i m hm j θ hθ)
  rw [hms] at h2 h3
  exact ⟨f, (C113_models a n la u mvn f).mpr ⟨w, ms, hw, hms, hreal, h1⟩, h2, h3⟩

/-- C113: deterministic runs. `m'` is the model with the means of the distributions, fitted to the observations with rounding by an inexact solver; `m₀` its exact fit (of the same, rounded, means). If the traces from all
starts, computed with rounding through `m'`, follow exact pathlines `P j` of `m₀` up to `δ` (conditions `FittedFollows`), then the run returns a field of total weight 1, with weight 1 at the nodes that one of the pathlines
passes within the umbra less `η + δ`, and weight 0 at the nodes that none of them passes within the umbra plus `η + δ`. -/
theorem C113_deterministic (hlog : LogAccurate) (hroot : RootAccurate) (hl : LibObs.Accurate) (la : FlLinAlg) (ζ : List ((Fin 6 → Fl) × Fl) → ℝ) (hζ : ∀ rows, 0 ≤ ζ rows) (hla : la.Within ζ) (la₀ : LinAlg)
    (hla₀ : la₀.Correct) {X Y : Axis} {S η δ : ℝ} (a : FlRunArgs) (w : FlSWell) (hw : a.IsTarget w) (hd : 0 < a.spacing.val) (hX : X.Fits w.xw.val a.spacing.val) (hY : Y.Fits w.yw.val a.spacing.val)
    (η0 : 0 ≤ η) (hηu : η ≤ a.umbra.val) (huS : a.umbra.val ≤ S) (hmS : 2 * a.maxstep.val ≤ S) (hη : 2000 * (2 ^ (-53 : ℤ) * S ^ 2) ≤ a.umbra.val * η)
    (m : Aquifer Fl) (hm : m = a.meanModel) (hphys : m.exact.Physical) (hn : m.wells.length ≤ 2 ^ 40)
    (hu : m.exact.Usable (a.obs.map FlObs.exact)) (hc : ∀ o ∈ a.obs, m.exact.LevelClear o.exact) (κ : ℝ) (hκ0 : 0 ≤ κ)
    (hκ : m.exact.Determined (a.obs.map FlObs.exact) w.xw.val w.yw.val κ) (hκ1 : κ ≤ 2 ^ 46) (rows : List ((Fin 6 → Fl) × Fl)) (hrows : m.flConstructFit w.xw w.yw a.obs = .ok rows)
    (m' : Aquifer Fl) (c' : Fin 6 → Fl) (V' : Matrix (Fin 6) (Fin 6) Fl) (hfit : m.flFitRegionalFlow la a.obs w.xw w.yw = (m', .ok (c', V'))) (m₀ : Aquifer ℝ) (c : Fin 6 → ℝ)
    (V : Matrix (Fin 6) (Fin 6) ℝ) (hfit₀ : m.exact.fitRegionalFlow la₀ (a.obs.map FlObs.exact) w.xw.val w.yw.val = (m₀, .ok (c, V))) (B : ℝ)
    (hB : B = 8/7 * ζ rows + 2 ^ (-53 : ℤ) * (48 * κ * √(misfit m.exact (a.obs.map FlObs.exact) m₀.potential) +
      (132 + 9 * m.wells.length) * m.exact.residualTerms (a.obs.map FlObs.exact) w.xw.val w.yw.val c)) (P : ℕ → ℝ → ℝ × ℝ)
    (hP : ∀ j θ, (flAngles a.npaths)[j]? = some θ → FittedFollows m' m₀ V B a.confined (flStart w.xw w.yw w.rw θ) a.duration a.tol a.maxstep X.reach Y.reach δ (P j)) :
    ∃ f, flCreateDeterministic a la = some (.ok f) ∧ f.exact.total = 1 ∧
      ∀ p q : ℤ, (|p| ≤ 1 ∧ |q| ≤ 1) ∨ a.umbra.val ≤ a.spacing.val → ∀ x y : ℝ, x = w.xw.val + p * a.spacing.val → y = w.yw.val + q * a.spacing.val →
        ((∃ j, j < a.npaths ∧ Passes (P j) a.duration.val (a.umbra.val - η - δ) x y) → f.exact.weightAt x y = 1) ∧
        ((∀ j, j < a.npaths → ¬ Passes (P j) a.duration.val (a.umbra.val + η + δ) x y) → f.exact.weightAt x y = 0) := by
  classical
  subst hm
  obtain ⟨f, h1, h2, h3⟩ := followed_frequencies hroot w.xw w.yw w.rw a.duration a.umbra a.spacing a.tol a.maxstep a.npaths a.confined [m'] hd hX hY η0 hηu huS hmS hη (by norm_num) (fun _ => P)
    (fun i m hm j θ hθ => by
      have : m = m' := by
        rcases i with _ | i
        · simpa using hm.symm
        · simp at hm
      rw [this]
      exact fitted_core hlog hl hζ hla hla₀ hphys hn hu hc hκ0 hκ hκ1 hrows hfit hfit₀ hB (hP j θ hθ))
  refine ⟨f, ?_, by rw [h2]; norm_num, fun p q hpq x y hx hy => ?_⟩
  · have hreal : flRealization a la w (fun d _ => .ok d.mean) (fun ev _ => .ok ev) = .ok m' := by
      refine flRealization_iff.mpr ⟨_, c', V', c', mean_drawn a, by rw [hfit], rfl, ?_⟩
      have := flFit_ok (la := la) (m := a.meanModel) (obs := a.obs) (xo := w.xw) (yo := w.yw) (ev := c') (cov := V') (by rw [hfit])
      rw [hfit] at this
      exact (Prod.mk.inj this).1
    unfold flCreateDeterministic
    rw [flGetWell_iff.mpr hw]
    dsimp only
    unfold flZones at h1
    cases h4 : PField.new a.spacing a.spacing (some w.xw) (some w.yw) with
    | error e => rw [h4] at h1; simp at h1
    | ok f0 =>
      rw [h4] at h1
      dsimp only at h1 ⊢
      simp only [flRealize, hreal]
      simp only [flZoneLoop] at h1
      rcases h5 : flCapturezone w.xw w.yw w.rw a.npaths a.duration f0 a.umbra ((1 : ℕ) : Fl) a.tol a.maxstep (m'.backVelocity a.confined) with _ | ⟨f', _ | _⟩
      · rw [h5] at h1; simp at h1
      · rw [h5] at h1; simp at h1
      · rw [h5] at h1
        exact h1
  · obtain ⟨w1, w2⟩ := h3 p q hpq x y hx hy
    simp only [List.length_singleton, List.range_one, List.countP_singleton, decide_eq_true_eq] at w1 w2
    constructor
    · intro hp
      rw [if_pos hp] at w1
      have : (if ∃ j, j < a.npaths ∧ Passes (P j) a.duration.val (a.umbra.val + η + δ) x y then 1 else 0 : ℕ) ≤ 1 := by split_ifs <;> norm_num
      have := w2.trans (Nat.cast_le.mpr this)
      norm_num at this w1
      exact le_antisymm this w1
    · intro hp
      rw [if_neg (by push Not; exact hp)] at w2
      have := (Nat.cast_nonneg _).trans w1
      norm_num at w2
      exact le_antisymm w2 this

end

end Oneka
