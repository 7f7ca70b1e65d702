import Verif.Spec.FlRun
import Verif.Lemmas.FlFollowCore
import Verif.Lemmas.FlFitVelocity

/-!
# Lemmas for C113
-/

namespace Oneka
open Aquifer

theorem flGetWell_iff {ws : List FlSWell} {t : ℤ} {w : FlSWell} : flGetWell ws t = .ok w ↔ ∃ i : ℕ, ws[i]? = some w ∧ ((i : ℤ) = t ∨ (i : ℤ) = t + ws.length) := by
  have key : ∀ i : ℤ, 0 ≤ i → ((match ws[i.toNat]? with | none => Except.error PyErr.indexError | some w => .ok w) = .ok w ↔ ws[i.toNat]? = some w) := by
    intro i _
    cases ws[i.toNat]? <;> simp
  unfold flGetWell
  dsimp only
  constructor
  · intro h
    split_ifs at h with h1 h2
    · exact ⟨_, (key _ (by omega)).mp h, .inr (by omega)⟩
    · exact ⟨_, (key _ (by omega)).mp h, .inl (by omega)⟩
  · rintro ⟨i, hi, h⟩
    have hl : i < ws.length := (List.getElem?_eq_some_iff.mp hi).1
    rcases h with h | h
    · rw [if_neg (show ¬ t < 0 by omega), if_neg (show ¬ t < 0 by omega), show t.toNat = i by omega, hi]
    · rw [if_pos (show t < 0 by omega), if_neg (show ¬ t + (ws.length : ℤ) < 0 by omega), show (t + (ws.length : ℤ)).toNat = i by omega, hi]

theorem flDrawWells_iff {q : FlDist → ℕ → Except PyErr Fl} : ∀ {ws : List FlSWell} {k : ℕ} {vs : List (Well Fl)}, flDrawWells q ws k = .ok vs ↔ vs.length = ws.length ∧
    ∀ (j : ℕ) (s : FlSWell) (v : Well Fl), ws[j]? = some s → vs[j]? = some v → v.xw = s.xw ∧ v.yw = s.yw ∧ v.rw = s.rw ∧ q s.q (k + j) = .ok v.qw := by
  intro ws
  induction ws with
  | nil =>
    intro k vs
    simp only [flDrawWells, Except.ok.injEq]
    constructor
    · rintro rfl; simp
    · rintro ⟨h, -⟩
      exact (List.length_eq_zero_iff.mp h).symm
  | cons w ws ih =>
    intro k vs
    simp only [flDrawWells]
    constructor
    · intro h
      cases hq : q w.q k with
      | error e => rw [hq] at h; cases h
      | ok v0 =>
        rw [hq] at h
        dsimp only at h
        cases hr : flDrawWells q ws (k + 1) with
        | error e => rw [hr] at h; cases h
        | ok r =>
          rw [hr] at h
          obtain rfl := Except.ok.inj h
          obtain ⟨h1, h2⟩ := ih.mp hr
          refine ⟨by simp [h1], fun j s v hs hv => ?_⟩
          cases j with
          | zero =>
            simp only [List.getElem?_cons_zero, Option.some.injEq] at hs hv
            subst hs hv
            exact ⟨rfl, rfl, rfl, hq⟩
          | succ j =>
            simp only [List.getElem?_cons_succ] at hs hv
            have := h2 j s v hs hv
            rwa [show k + 1 + j = k + (j + 1) by omega] at this
    · rintro ⟨h1, h2⟩
      cases vs with
      | nil => simp at h1
      | cons v vs =>
        obtain ⟨e1, e2, e3, e4⟩ := h2 0 w v rfl rfl
        rw [Nat.add_zero] at e4
        have hr : flDrawWells q ws (k + 1) = .ok vs := ih.mpr ⟨by simpa using h1, fun j s v hs hv => by
          have := h2 (j + 1) s v (by simpa using hs) (by simpa using hv)
          rwa [show k + (j + 1) = k + 1 + j by omega] at this⟩
        rw [e4]
        dsimp only
        rw [hr]
        dsimp only
        rw [← e1, ← e2, ← e3]

theorem flDrawModel_iff {a : FlRunArgs} {q : FlDist → ℕ → Except PyErr Fl} {m : Aquifer Fl} : flDrawModel a q = .ok m ↔
    m.base = a.base ∧ m.wells.length = a.wells.length ∧
    (∀ (j : ℕ) (s : FlSWell) (v : Well Fl), a.wells[j]? = some s → m.wells[j]? = some v → v.xw = s.xw ∧ v.yw = s.yw ∧ v.rw = s.rw ∧ q s.q j = .ok v.qw) ∧
    q a.cDist a.wells.length = .ok m.conductivity ∧ q a.pDist (a.wells.length + 1) = .ok m.porosity ∧ q a.tDist (a.wells.length + 2) = .ok m.thickness ∧
    m.xo = 0 ∧ m.yo = 0 ∧ m.coef = fun _ => 0 := by
  unfold flDrawModel
  constructor
  · intro h
    cases h1 : flDrawWells q a.wells 0 with
    | error e => rw [h1] at h; cases h
    | ok ws =>
      cases h2 : q a.cDist a.wells.length with
      | error e => rw [h1, h2] at h; cases h
      | ok c =>
        cases h3 : q a.pDist (a.wells.length + 1) with
        | error e => rw [h1, h2] at h; dsimp only at h; rw [h3] at h; cases h
        | ok p =>
          cases h4 : q a.tDist (a.wells.length + 2) with
          | error e => rw [h1, h2] at h; dsimp only at h; rw [h3] at h; dsimp only at h; rw [h4] at h; cases h
          | ok t =>
            rw [h1, h2] at h; dsimp only at h; rw [h3] at h; dsimp only at h; rw [h4] at h
            obtain rfl := Except.ok.inj h
            obtain ⟨k1, k2⟩ := flDrawWells_iff.mp h1
            simp only [Nat.zero_add] at k2
            exact ⟨rfl, k1, k2, rfl, rfl, rfl, rfl, rfl, rfl⟩
  · rintro ⟨h1, h2, h3, h4, h5, h6, h7, h8, h9⟩
    rw [flDrawWells_iff.mpr ⟨h2, fun j s v hs hv => by rw [Nat.zero_add]; exact h3 j s v hs hv⟩, h4]
    dsimp only
    rw [h5]
    dsimp only
    rw [h6]
    dsimp only
    obtain ⟨b, c, p, t, ws, xo, yo, co⟩ := m
    dsimp only at *
    subst h1 h7 h8 h9
    rfl

section
variable [LibM] [LibObs]

theorem flConstructFit_congr {m n : Aquifer Fl} (hb : m.base = n.base) (hc : m.conductivity = n.conductivity) (ht : m.thickness = n.thickness) (hw : m.wells = n.wells) (xo yo : Fl) (obs : List FlObs) :
    m.flConstructFit xo yo obs = n.flConstructFit xo yo obs := by
  have hr : ∀ o, m.flFitRow xo yo o = n.flFitRow xo yo o := by
    intro o
    unfold flFitRow flFosm potentialWells
    rw [hb, hc, ht, hw]
  induction obs with
  | nil => rfl
  | cons o os ih => simp only [flConstructFit, hr, ih]

theorem flFit_snd (la : FlLinAlg) (m : Aquifer Fl) (obs : List FlObs) (xo yo : Fl) : (m.flFitRegionalFlow la obs xo yo).2 =
    match m.flConstructFit xo yo obs with
    | .error e => .error e
    | .ok rows =>
      match la.lstsq rows with
      | .error e => .error e
      | .ok ev =>
        match la.inv (la.normal (rows.map Prod.fst)) with
        | .error e => .error e
        | .ok cov => .ok (ev, cov) := by
  unfold flFitRegionalFlow
  cases m.flConstructFit xo yo obs with
  | error e => rfl
  | ok rows =>
    dsimp only
    cases la.lstsq rows with
    | error e => rfl
    | ok ev =>
      dsimp only
      cases la.inv (la.normal (rows.map Prod.fst)) <;> rfl

theorem flFit_ok {la : FlLinAlg} {m : Aquifer Fl} {obs : List FlObs} {xo yo : Fl} {ev : Fin 6 → Fl} {cov : Matrix (Fin 6) (Fin 6) Fl} (h : (m.flFitRegionalFlow la obs xo yo).2 = .ok (ev, cov)) :
    m.flFitRegionalFlow la obs xo yo = ({ m with xo := xo, yo := yo, coef := ev }, .ok (ev, cov)) := by
  unfold flFitRegionalFlow at h ⊢
  cases h1 : m.flConstructFit xo yo obs with
  | error e => rw [h1] at h; cases h
  | ok rows =>
    rw [h1] at h
    dsimp only at h ⊢
    cases h2 : la.lstsq rows with
    | error e => rw [h2] at h; cases h
    | ok ev' =>
      rw [h2] at h
      dsimp only at h ⊢
      cases h3 : la.inv (la.normal (rows.map Prod.fst)) with
      | error e => rw [h3] at h; cases h
      | ok cov' =>
        rw [h3] at h
        obtain ⟨rfl, rfl⟩ := Prod.mk.inj (Except.ok.inj h)
        rfl

theorem flRealization_iff {a : FlRunArgs} {la : FlLinAlg} {w : FlSWell} {q : FlDist → ℕ → Except PyErr Fl} {coefs : (Fin 6 → Fl) → Matrix (Fin 6) (Fin 6) Fl → Except PyErr (Fin 6 → Fl)} {m : Aquifer Fl} :
    flRealization a la w q coefs = .ok m ↔ ∃ mo ev cov c, flDrawModel a q = .ok mo ∧ (mo.flFitRegionalFlow la a.obs w.xw w.yw).2 = .ok (ev, cov) ∧ coefs ev cov = .ok c ∧
      m = { mo with xo := w.xw, yo := w.yw, coef := c } := by
  unfold flRealization
  constructor
  · intro h
    cases h1 : flDrawModel a q with
    | error e => rw [h1] at h; cases h
    | ok mo =>
      rw [h1] at h
      dsimp only at h
      cases h2 : (mo.flFitRegionalFlow la a.obs w.xw w.yw).2 with
      | error e =>
        have e2 : mo.flFitRegionalFlow la a.obs w.xw w.yw = (_, .error e) := Prod.ext rfl h2
        rw [e2] at h
        cases h
      | ok r =>
        obtain ⟨ev, cov⟩ := r
        rw [flFit_ok h2] at h
        dsimp only at h
        cases h3 : coefs ev cov with
        | error e => rw [h3] at h; cases h
        | ok c =>
          rw [h3] at h
          exact ⟨mo, ev, cov, c, rfl, h2, h3, (Except.ok.inj h).symm⟩
  · rintro ⟨mo, ev, cov, c, h1, h2, h3, rfl⟩
    rw [h1]
    dsimp only
    rw [flFit_ok h2]
    dsimp only
    rw [h3]

theorem flRealized_iff {a : FlRunArgs} {la : FlLinAlg} {w : FlSWell} {u : ℕ → Fl} {mvn : (Fin 6 → Fl) → Matrix (Fin 6) (Fin 6) Fl → Except PyErr (Fin 6 → Fl)} {m : Aquifer Fl} :
    flRealization a la w (fun d j => d.sample (u j)) mvn = .ok m ↔ a.Realized la w u mvn m := by
  rw [flRealization_iff]
  constructor
  · rintro ⟨mo, ev, cov, c, h1, h2, h3, rfl⟩
    obtain ⟨k1, k2, k3, k4, k5, k6, -⟩ := flDrawModel_iff.mp h1
    refine ⟨k1, k2, k3, k4, k5, k6, ⟨rfl, rfl⟩, ev, cov, ?_, h3⟩
    rw [← h2, flFit_snd, flFit_snd, flConstructFit_congr (m := { mo with xo := w.xw, yo := w.yw, coef := c }) (n := mo) rfl rfl rfl rfl]
  · intro h
    obtain ⟨ev, cov, h2, h3⟩ := h.coef
    refine ⟨{ m with xo := 0, yo := 0, coef := fun _ => 0 }, ev, cov, m.coef, flDrawModel_iff.mpr ⟨h.base, h.count, h.wells, h.conductivity, h.porosity, h.thickness, rfl, rfl, rfl⟩, ?_, h3, ?_⟩
    · rw [← h2, flFit_snd, flFit_snd, flConstructFit_congr (m := { m with xo := 0, yo := 0, coef := fun _ => 0 }) (n := m) rfl rfl rfl rfl]
    · obtain ⟨o1, o2⟩ := h.origin
      obtain ⟨b, c, p, t, ws, xo, yo, co⟩ := m
      dsimp only at *
      subst o1 o2
      rfl

omit [LibM] [LibObs] in
theorem mean_drawn (a : FlRunArgs) : flDrawModel a (fun d _ => .ok d.mean) = .ok a.meanModel := by
  refine flDrawModel_iff.mpr ⟨rfl, by simp [FlRunArgs.meanModel], fun j s v hs hv => ?_, rfl, rfl, rfl, rfl, rfl, rfl⟩
  simp only [FlRunArgs.meanModel, List.getElem?_map, hs, Option.map_some, Option.some.injEq] at hv
  subst hv
  exact ⟨rfl, rfl, rfl, rfl⟩

/-- the loop of the code is the loop over the models -/
theorem flLoop_eq {a : FlRunArgs} {la : FlLinAlg} {u : ℕ → ℕ → Fl} {mvn : ℕ → (Fin 6 → Fl) → Matrix (Fin 6) (Fin 6) Fl → Except PyErr (Fin 6 → Fl)} {w : FlSWell} :
    ∀ (ms : List (Aquifer Fl)) (i : ℕ) (f : PField Fl), (∀ t m, ms[t]? = some m → flRealization a la w (fun d j => d.sample (u (i + t) j)) (mvn (i + t)) = .ok m) →
      flStochasticLoop a la u mvn w ms.length i f =
        match flZoneLoop w.xw w.yw w.rw a.npaths a.duration a.umbra a.tol a.maxstep a.confined ms f with
        | none => none
        | some (_, .error e) => some (.error e)
        | some (f, .ok ()) => some (.ok f) := by
  intro ms
  induction ms with
  | nil => intro i f _; rfl
  | cons m ms ih =>
    intro i f h
    have h0 := h 0 m rfl
    rw [Nat.add_zero] at h0
    simp only [List.length_cons, flStochasticLoop, flRealize, h0, flZoneLoop]
    rcases flCapturezone w.xw w.yw w.rw a.npaths a.duration f a.umbra ((1 : ℕ) : Fl) a.tol a.maxstep (m.backVelocity a.confined) with _ | ⟨f', _ | _⟩
    · rfl
    · rfl
    · exact ih (i + 1) f' fun t m' ht => by
        have := h (t + 1) m' (by simpa using ht)
        rwa [show i + (t + 1) = i + 1 + t by omega] at this

/-- if the loop returns, every realization has its model -/
theorem flLoop_models {a : FlRunArgs} {la : FlLinAlg} {u : ℕ → ℕ → Fl} {mvn : ℕ → (Fin 6 → Fl) → Matrix (Fin 6) (Fin 6) Fl → Except PyErr (Fin 6 → Fl)} {w : FlSWell} :
    ∀ (k i : ℕ) (f f' : PField Fl), flStochasticLoop a la u mvn w k i f = some (.ok f') →
      ∃ ms : List (Aquifer Fl), ms.length = k ∧ ∀ t m, ms[t]? = some m → flRealization a la w (fun d j => d.sample (u (i + t) j)) (mvn (i + t)) = .ok m := by
  intro k
  induction k with
  | zero => intro i f f' _; exact ⟨[], rfl, by simp⟩
  | succ k ih =>
    intro i f f' h
    simp only [flStochasticLoop, flRealize] at h
    cases h1 : flRealization a la w (fun d j => d.sample (u i j)) (mvn i) with
    | error e => rw [h1] at h; simp at h
    | ok m =>
      rw [h1] at h
      dsimp only at h
      rcases h2 : flCapturezone w.xw w.yw w.rw a.npaths a.duration f a.umbra ((1 : ℕ) : Fl) a.tol a.maxstep (m.backVelocity a.confined) with _ | ⟨f2, _ | _⟩
      · rw [h2] at h; simp at h
      · rw [h2] at h; simp at h
      · rw [h2] at h
        obtain ⟨ms, h3, h4⟩ := ih (i + 1) f2 f' h
        refine ⟨m :: ms, by simp [h3], fun t m' ht => ?_⟩
        cases t with
        | zero =>
          simp only [List.getElem?_cons_zero, Option.some.injEq] at ht
          subst ht
          exact h1
        | succ t =>
          have := h4 t m' (by simpa using ht)
          rwa [show i + 1 + t = i + (t + 1) by omega] at this

/-- a fit that follows, in the form of C91 -/
theorem fitted_core (hlog : LogAccurate) (hl : LibObs.Accurate) {la : FlLinAlg} {ζ : List ((Fin 6 → Fl) × Fl) → ℝ} (hζ : ∀ rows, 0 ≤ ζ rows) (hla : la.Within ζ) {la₀ : LinAlg}
    (hla₀ : la₀.Correct) {m : Aquifer Fl} (hphys : m.exact.Physical) (hn : m.wells.length ≤ 2 ^ 40) {obs : List FlObs} {xo yo : Fl} (hu : m.exact.Usable (obs.map FlObs.exact))
    (hc : ∀ o ∈ obs, m.exact.LevelClear o.exact) {κ : ℝ} (hκ0 : 0 ≤ κ) (hκ : m.exact.Determined (obs.map FlObs.exact) xo.val yo.val κ) (hκ1 : κ ≤ 2 ^ 46)
    {rows : List ((Fin 6 → Fl) × Fl)} (hrows : m.flConstructFit xo yo obs = .ok rows) {m' : Aquifer Fl} {c' : Fin 6 → Fl} {V' : Matrix (Fin 6) (Fin 6) Fl}
    (hfit : m.flFitRegionalFlow la obs xo yo = (m', .ok (c', V'))) {m₀ : Aquifer ℝ} {c : Fin 6 → ℝ} {V : Matrix (Fin 6) (Fin 6) ℝ}
    (hfit₀ : m.exact.fitRegionalFlow la₀ (obs.map FlObs.exact) xo.val yo.val = (m₀, .ok (c, V))) {B : ℝ}
    (hB : B = 8/7 * ζ rows + 2 ^ (-53 : ℤ) * (48 * κ * √(misfit m.exact (obs.map FlObs.exact) m₀.potential) + (132 + 9 * m.wells.length) * m.exact.residualTerms (obs.map FlObs.exact) xo.val yo.val c))
    {confined : Bool} {start : Fl × Fl} {D tol maxstep : Fl} {Qx Qy δ : ℝ} {P : ℝ → ℝ × ℝ} (h : FittedFollows m' m₀ V B confined start D tol maxstep Qx Qy δ P) :
    FollowsCore (m'.reverseVelocity confined) start D tol maxstep Qx Qy δ P := by
  obtain ⟨f, L, M, H, ρ, R, ν, η, μ, mm, T, E, N, F⟩ := h
  have hK : 0 < m.conductivity.val := hphys.conductivity
  have hT' : 0 < m.thickness.val := hphys.thickness
  obtain ⟨e1, e2, -⟩ := flFit_quad hlog hl hζ hla hla₀ hK hT' hn hu hc hκ0 hκ hκ1 hrows hfit hfit₀
  have hflow := F.flow
  have hw : m'.wells.length = m.wells.length := by rw [e1]
  have ho : ∀ x y, m₀.OffWells x y = m.exact.OffWells x y := by intro x y; rw [e2]; rfl
  have hx : m₀.xo = xo.val := by rw [e2]
  have hy : m₀.yo = yo.val := by rw [e2]
  have hp : m₀.porosity = m.porosity.val := by rw [e2]; rfl
  simp only [hw, ho, hx, hy, hp] at hflow
  exact ⟨f, L, M, H, ρ, R, ν, η, μ, mm, T, E, N, {
    η_eq := F.η_eq
    μ_eq := F.μ_eq
    mm_eq := F.mm_eq
    T_eq := F.T_eq
    E_eq := F.E_eq
    exact := F.exact
    bounded := F.bounded
    within := F.within
    moderate := F.moderate
    D_pos := F.D_pos
    D_le := F.D_le
    tol_ge := F.tol_ge
    maxstep_ge := F.maxstep_ge
    tol_way := F.tol_way
    maxstep_way := F.maxstep_way
    near := F.near
    L_pos := F.L_pos
    M_nonneg := F.M_nonneg
    H_ge := F.H_ge
    ν_nonneg := F.ν_nonneg
    ρ_nonneg := F.ρ_nonneg
    H_le := F.H_le
    wide := F.wide
    fast := F.fast
    fine := F.fine
    steps := F.steps
    precision := F.precision
    moves := F.moves
    velocity := fitted_velocity hlog hl hζ hla hla₀ hphys hn hu hc hκ0 hκ hκ1 hrows hfit hfit₀ hB F.upstream hflow }⟩

end

end Oneka
