import Verif.Spec.Confined
import Verif.Lemmas.Diverge
import Verif.Lemmas.PropsSequence
import Verif.Spec.RunReach

/-!
# Lemmas for Props/Confined.lean and Props/Idle.lean
-/

namespace Oneka

/-- Two velocity functions that agree where a third one, which may raise elsewhere, does not raise. -/
theorem common_trace {g g' g0 : ℕ → XR × XR → Except PyErr (XR × XR)} (h : MayRaise g0 g) (h' : MayRaise g0 g') {xs ys D tol M : XR} {r r' r0 : Trace XR} (e : computeBacktrace xs ys D tol M g = some r)
    (e' : computeBacktrace xs ys D tol M g' = some r') (e0 : computeBacktrace xs ys D tol M g0 = some r0) :
    r0.vertices <+: r.vertices ∧ r0.vertices <+: r'.vertices ∧ (r0.warning = none → r = r0 ∧ r' = r0) := by
  refine ⟨interrupted_prefix h e e0, interrupted_prefix h' e' e0, fun hw => ⟨?_, ?_⟩⟩
  · exact Option.some.inj (e.symm.trans (undisturbed h e0 hw))
  · exact Option.some.inj (e'.symm.trans (undisturbed h' e0 hw))

theorem velocity_confined {m : Aquifer ℝ} {x y : XR} (h : m.ConfinedAt (x, y)) : m.toX.velocity x y = .ok (m.toX.velocityConfined x y) := by
  obtain ⟨h, hh, h0, ht⟩ := h
  unfold Aquifer.velocity Aquifer.velocityConfined
  simp only at hh ⊢
  rw [hh]
  simp only
  have e0 : ¬ (XR.fin h ≤ PyMath.q 0) := by
    show ¬ (h ≤ ((0:ℚ):ℝ))
    push_cast
    linarith
  rw [if_neg e0]
  rcases lt_or_eq_of_le ht with h1 | h1
  · rw [if_pos (show m.toX.thickness < XR.fin h from h1)]
  · rw [if_neg (show ¬ (m.toX.thickness < XR.fin h) from fun h2 => lt_irrefl h (h1 ▸ h2 : h < h))]
    rw [show m.toX.thickness = XR.fin h from congrArg XR.fin h1]

theorem reverse_confined {m : Aquifer ℝ} {p : XR × XR} (h : m.ConfinedAt p) (c : Bool) : m.toX.reverseVelocity c p = m.toX.reverseVelocity true p := by
  cases c with
  | true => rfl
  | false =>
    unfold Aquifer.reverseVelocity
    simp only [Bool.false_eq_true, if_false, if_true]
    rw [velocity_confined h]

theorem confinedOnly_raises (m : Aquifer ℝ) (interrupt : ℕ → Option PyErr) (c : Bool) : MayRaise (m.confinedOnly interrupt) fun n p => match interrupt n with
    | some e => .error e
    | none => m.toX.reverseVelocity c p := by
  intro n p
  unfold Aquifer.confinedOnly
  by_cases h : m.ConfinedAt p
  · rw [if_pos h]
    left
    beta_reduce
    cases interrupt n with
    | some e => rfl
    | none => exact (reverse_confined h c).symm
  · rw [if_neg h]
    exact .inr ⟨_, rfl⟩

/-- the model of a realization does not depend on how the traces are computed -/
theorem realized_model {a a' : RunArgs} {la : LinAlg} {t : SWell} {q : Dist → ℕ → Except PyErr ℝ} {coefs : (Fin 6 → ℝ) → Matrix (Fin 6) (Fin 6) ℝ → Except PyErr (Fin 6 → ℝ)}
    {interrupt interrupt' : ℕ → ℕ → Option PyErr} {L L' : RealizationLog} (R : Realized a la t q coefs interrupt L) (R' : Realized a' la t q coefs interrupt' L') (hw : a'.wells = a.wells) (ho : a'.obs = a.obs)
    (hb : a'.base = a.base) (hc : a'.cDist = a.cDist) (hp : a'.pDist = a.pDist) (ht : a'.tDist = a.tDist) : L'.model = L.model ∧ L'.ev = L.ev ∧ L'.cov = L.cov := by
  have S : Realized { a with npaths := 0 } la t q coefs interrupt { L with traces := [] } :=
    { R with traces_length := rfl, traces := fun k tr h => by simp at h }
  have S' : Realized { a with npaths := 0 } la t q coefs interrupt { L' with traces := [] } :=
    { base := R'.base.trans hb
      wells_length := R'.wells_length.trans (congrArg List.length hw)
      wells := fun j w h => R'.wells j w (by rw [hw]; exact h)
      conductivity := by have := R'.conductivity; rwa [hc, hw] at this
      porosity := by have := R'.porosity; rwa [hp, hw] at this
      thickness := by have := R'.thickness; rwa [ht, hw] at this
      origin := R'.origin
      fit := by have := R'.fit; rwa [ho] at this
      coef := R'.coef
      traces_length := rfl
      traces := fun k tr h => by simp at h }
  obtain ⟨h1, h2, h3, -⟩ := realized_unique (fun _ _ _ => rfl) S S'
  exact ⟨h1.symm, h2.symm, h3.symm⟩

/-! ## What is recorded is determined by the tracks -/

theorem allVertices_paths {log log' : List RealizationLog} (h : log'.map RealizationLog.paths = log.map RealizationLog.paths) : allVertices log' = allVertices log := by
  have e : ∀ l : List RealizationLog, allVertices l = (l.map RealizationLog.paths).flatMap List.flatten := fun l => by
    rw [List.flatMap_map]
    rfl
  rw [e, e, h]

theorem recordedBy_paths {log log' : List RealizationLog} (h : log'.map RealizationLog.paths = log.map RealizationLog.paths) (xo yo d u X Y : ℝ) (i : ℕ) :
    RecordedBy xo yo d u log' X Y i ↔ RecordedBy xo yo d u log X Y i := by
  have ht : allVertices (log'.take i) = allVertices (log.take i) := allVertices_paths (by rw [List.map_take, List.map_take, h])
  have key : ∀ {l l' : List RealizationLog}, l'.map RealizationLog.paths = l.map RealizationLog.paths → ∀ L, l[i]? = some L → ∃ L', l'[i]? = some L' ∧ L'.paths = L.paths := by
    intro l l' h L hL
    have : (l'.map RealizationLog.paths)[i]? = some L.paths := by rw [h, List.getElem?_map, hL]; rfl
    rw [List.getElem?_map] at this
    obtain ⟨L', h1, h2⟩ := Option.map_eq_some_iff.mp this
    exact ⟨L', h1, h2⟩
  unfold RecordedBy
  rw [ht]
  constructor
  · rintro ⟨L, hL, hr⟩
    obtain ⟨L', h1, h2⟩ := key h.symm L hL
    exact ⟨L', h1, h2 ▸ hr⟩
  · rintro ⟨L, hL, hr⟩
    obtain ⟨L', h1, h2⟩ := key h L hL
    exact ⟨L', h1, h2 ▸ hr⟩

open Classical in
theorem same_field {log log' : List RealizationLog} {f f' : PField ℝ} {xo yo d u : ℝ} (hp : ∀ i : ℕ, (log'[i]?).map RealizationLog.paths = (log[i]?).map RealizationLog.paths)
    (hn : ∀ X Y, f.IsNode X Y ↔ OnLattice xo yo d d X Y ∧ Reached xo yo d d (allVertices log) X Y) (hn' : ∀ X Y, f'.IsNode X Y ↔ OnLattice xo yo d d X Y ∧ Reached xo yo d d (allVertices log') X Y)
    (hw : ∀ X Y, f.IsNode X Y → f.weightAt X Y = ((List.range log.length).countP fun i => RecordedBy xo yo d u log X Y i))
    (hw' : ∀ X Y, f'.IsNode X Y → f'.weightAt X Y = ((List.range log'.length).countP fun i => RecordedBy xo yo d u log' X Y i)) (X Y : ℝ) :
    (f'.IsNode X Y ↔ f.IsNode X Y) ∧ (f.IsNode X Y → f'.weightAt X Y = f.weightAt X Y) := by
  have h : log'.map RealizationLog.paths = log.map RealizationLog.paths := List.ext_getElem? fun i => by rw [List.getElem?_map, List.getElem?_map, hp]
  have hl : log'.length = log.length := by simpa using congrArg List.length h
  have e : f'.IsNode X Y ↔ f.IsNode X Y := by rw [hn, hn', allVertices_paths h]
  refine ⟨e, fun hX => ?_⟩
  rw [hw X Y hX, hw' X Y (e.mpr hX), hl]
  simp only [recordedBy_paths h]

end Oneka
