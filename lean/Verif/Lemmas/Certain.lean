import Verif.Spec.Certain
import Verif.Lemmas.Duration
import Verif.Lemmas.PropsSequence
import Verif.Lemmas.PropsEndless
import Verif.Lemmas.PropsReach
import Verif.Lemmas.Sensitivity

/-!
# Lemmas for C132
-/

namespace Oneka

open PField

theorem drawWells_congr {q q' : Dist → ℕ → Except PyErr ℝ} : ∀ (ws : List SWell) (i : ℕ), (∀ (j : ℕ) (w : SWell), ws[j]? = some w → q w.q (i + j) = q' w.q (i + j)) → drawWells q ws i = drawWells q' ws i := by
  intro ws
  induction ws with
  | nil => intro i _; rfl
  | cons w ws ih =>
    intro i h
    unfold drawWells
    rw [show q w.q i = q' w.q i from h 0 w rfl, ih (i + 1) fun j w' hj => by
      have := h (j + 1) w' (by simpa using hj)
      rwa [show i + 1 + j = i + (j + 1) by omega]]

theorem drawModel_congr {a : RunArgs} {q q' : Dist → ℕ → Except PyErr ℝ} (hw : ∀ (j : ℕ) (w : SWell), a.wells[j]? = some w → q w.q j = q' w.q j)
    (hc : q a.cDist a.wells.length = q' a.cDist a.wells.length) (hp : q a.pDist (a.wells.length + 1) = q' a.pDist (a.wells.length + 1))
    (ht : q a.tDist (a.wells.length + 2) = q' a.tDist (a.wells.length + 2)) : drawModel a q = drawModel a q' := by
  unfold drawModel
  rw [drawWells_congr a.wells 0 fun j w hj => by simpa using hw j w hj, hc, hp, ht]

/-- Whether a capture zone returns does not depend on the field. -/
theorem capture_none {xt yt rt u w : ℝ} {d tol ms : XR} {fe : ℕ → ℕ → XR × XR → Except PyErr (XR × XR)} {n : ℕ} {f f' : PField ℝ} (hf : f.WF) (hf' : f'.WF) (hb' : f'.body ≠ none)
    (h : computeCapturezone xt yt rt n d f u w tol ms fe = none) : computeCapturezone xt yt rt n d f' u w tol ms fe = none := by
  by_contra hne
  obtain ⟨r, hr⟩ := Option.ne_none_iff_exists'.mp hne
  obtain ⟨k, hk, he⟩ := capture_endless hf h
  have h1 := capture_traces hf' hb' hr (by exact_mod_cast hk)
  rw [show ((n : ℤ) : ℝ) = (n : ℝ) by norm_cast] at he
  rw [he] at h1
  obtain ⟨-, hl, -⟩ := capture_spec hf' (Or.inl hb') hr
  rw [List.getElem?_eq_none_iff] at h1
  omega

/-- Two realizations with the same draws end alike, whatever has been recorded before. -/
theorem realize_free {a : RunArgs} {la : LinAlg} {t : SWell} {q q' : Dist → ℕ → Except PyErr ℝ}
    {coefs coefs' : (Fin 6 → ℝ) → Matrix (Fin 6) (Fin 6) ℝ → Except PyErr (Fin 6 → ℝ)} {recharge recharge' : (Fin 6 → ℝ) → ℝ}
    {i i' : ℕ → ℕ → Option PyErr} {f f' : PField ℝ} (hn : 0 ≤ a.npaths) (hq : drawModel a q = drawModel a q') (hco : ∀ ev cov, coefs ev cov = coefs' ev cov) (hi : i = i')
    (hf : f.WF) (hb : f.body ≠ none) (hf' : f'.WF) (hb' : f'.body ≠ none) :
    (realize a la t q coefs recharge i f = none ∧ realize a la t q' coefs' recharge' i' f' = none) ∨
    (∃ e, realize a la t q coefs recharge i f = some (.error e, []) ∧ realize a la t q' coefs' recharge' i' f' = some (.error e, [])) ∨
    ∃ g g' l l', realize a la t q coefs recharge i f = some (.ok g, l) ∧ realize a la t q' coefs' recharge' i' f' = some (.ok g', l') := by
  subst hi
  obtain rfl : coefs = coefs' := funext fun ev => funext fun cov => hco ev cov
  unfold realize
  rw [← hq]
  cases hmo : drawModel a q with
  | error e => exact .inr (.inl ⟨e, rfl, rfl⟩)
  | ok mo =>
    simp only
    rcases hfit : mo.fitRegionalFlow la a.obs t.xw t.yw with ⟨mo', e | ⟨ev, cov⟩⟩
    · exact .inr (.inl ⟨e, rfl, rfl⟩)
    · simp only
      cases hc : coefs ev cov with
      | error e => exact .inr (.inl ⟨e, rfl, rfl⟩)
      | ok c =>
        simp only
        obtain ⟨N, hN⟩ := Int.eq_ofNat_of_zero_le hn
        rw [hN]
        cases h1 : computeCapturezone t.xw t.yw t.rw (N : ℤ) a.duration f a.umbra 1 a.tol a.maxstep (runVelocity { mo' with coef := c } a.confined i) with
        | none =>
          rw [capture_none hf hf' hb' h1]
          exact .inl ⟨rfl, rfl⟩
        | some r =>
          cases h2 : computeCapturezone t.xw t.yw t.rw (N : ℤ) a.duration f' a.umbra 1 a.tol a.maxstep (runVelocity { mo' with coef := c } a.confined i) with
          | none =>
            rw [capture_none hf' hf hb h2] at h1
            simp at h1
          | some r' =>
            obtain ⟨o1, -⟩ := capture_spec hf (Or.inl hb) h1
            obtain ⟨o2, -⟩ := capture_spec hf' (Or.inl hb') h2
            simp only [o1, o2]
            exact .inr (.inr ⟨_, _, _, _, rfl, rfl⟩)

theorem certain_model {a : RunArgs} {env : Env} {n : ℕ} (hc : a.Certain env n) {i : ℕ} (hi : i < n) : drawModel a (fun d j => d.sample (env.u i j)) = drawModel a (fun d _ => d.mean) :=
  drawModel_congr (fun j w hj => hc.wells i hi j w hj) (hc.conductivity i hi) (hc.porosity i hi) (hc.thickness i hi)

theorem loop_certain {a : RunArgs} {env : Env} {t : SWell} {N : ℕ} (hn : 0 ≤ a.npaths) (hc : a.Certain env N) {f0 : PField ℝ} (hf0 : f0.WF) (hb0 : f0.body ≠ none) {recharge : (Fin 6 → ℝ) → ℝ}
    {D : Option (Except PyErr (PField ℝ) × List RealizationLog)} (hD : realize a env.la t (fun d _ => d.mean) (fun ev _ => .ok ev) recharge (env.interrupt 0) f0 = D) :
    ∀ (k i : ℕ) (f : PField ℝ) (acc : List RealizationLog), i + k ≤ N → 0 < k → f.WF → f.body ≠ none →
      (D = none ∧ stochasticLoop a env t k i f acc = none) ∨
      (∃ e, D = some (.error e, []) ∧ stochasticLoop a env t k i f acc = some ⟨.error e, acc⟩) ∨
      (∃ g l r g', D = some (.ok g, l) ∧ stochasticLoop a env t k i f acc = some r ∧ r.outcome = .ok g') := by
  intro k
  induction k with
  | zero => intro i f acc _ h; omega
  | succ k ih =>
    intro i f acc hik _ hf hb
    unfold stochasticLoop
    rcases realize_free (la := env.la) (t := t) (recharge := fun c => 2 * (c 0 + c 1)) (recharge' := recharge) hn (certain_model hc (i := i) (by omega)) (coefs := env.mvn i)
      (coefs' := fun ev _ => .ok ev) (hc.coefs i (by omega)) (hc.interrupts i (by omega)) hf hb hf0 hb0 with ⟨h1, h2⟩ | ⟨e, h1, h2⟩ | ⟨g, g', l, l', h1, h2⟩
    · rw [h1]
      exact .inl ⟨hD.symm.trans h2, rfl⟩
    · rw [h1]
      exact .inr (.inl ⟨e, hD.symm.trans h2, by simp⟩)
    · rw [h1]
      simp only
      obtain ⟨-, -, -, -, wf1, b1⟩ := realize_run hf hb h1
      have e := hD.symm.trans h2
      rcases Nat.eq_zero_or_pos k with rfl | hk
      · exact .inr (.inr ⟨g', l', _, g, e, rfl, rfl⟩)
      · rcases ih (i + 1) g (acc ++ l) (by omega) hk wf1 b1 with ⟨h3, -⟩ | ⟨e', h3, -⟩ | h3
        · rw [e] at h3; simp at h3
        · rw [e] at h3; simp at h3
        · exact .inr (.inr h3)

theorem realized_certain {a : RunArgs} {env : Env} {n : ℕ} (hc : a.Certain env n) {i : ℕ} (hi : i < n) {t : SWell} {L : RealizationLog}
    (R : Realized a env.la t (fun d j => d.sample (env.u i j)) (env.mvn i) (env.interrupt i) L) :
    Realized a env.la t (fun d _ => d.mean) (fun ev _ => .ok ev) (env.interrupt 0) L where
  base := R.base
  wells_length := R.wells_length
  wells := fun j w hj => by
    obtain ⟨d, h1, h2⟩ := R.wells j w hj
    exact ⟨d, h1, (hc.wells i hi j w hj).symm.trans h2⟩
  conductivity := (hc.conductivity i hi).symm.trans R.conductivity
  porosity := (hc.porosity i hi).symm.trans R.porosity
  thickness := (hc.thickness i hi).symm.trans R.thickness
  origin := R.origin
  fit := R.fit
  coef := (hc.coefs i hi _ _).symm.trans R.coef
  traces_length := R.traces_length
  traces := by
    have := R.traces
    rw [hc.interrupts i hi] at this
    exact this

theorem certain_obs {a : RunArgs} {env : Env} {n : ℕ} (hc : a.Certain env n) (obs : List Obs) : ({ a with obs := obs } : RunArgs).Certain env n :=
  ⟨hc.wells, hc.conductivity, hc.porosity, hc.thickness, hc.coefs, hc.interrupts⟩

theorem allVertices_repeated {P : List (List (ℝ × ℝ))} {ls : List RealizationLog} (h : ∀ L ∈ ls, L.paths = P) (hne : ls ≠ []) (v : ℝ × ℝ) : v ∈ allVertices ls ↔ v ∈ P.flatten := by
  unfold allVertices
  rw [List.mem_flatMap]
  constructor
  · rintro ⟨L, hL, hv⟩
    rwa [h L hL] at hv
  · intro hv
    obtain ⟨L, hL⟩ := List.exists_mem_of_ne_nil ls hne
    exact ⟨L, hL, by rwa [h L hL]⟩

theorem reached_repeated {P : List (List (ℝ × ℝ))} {ls : List RealizationLog} (h : ∀ L ∈ ls, L.paths = P) (hne : ls ≠ []) (xo yo s X Y : ℝ) :
    Reached xo yo s s (allVertices ls) X Y ↔ Reached xo yo s s P.flatten X Y :=
  ⟨reached_mono le_rfl fun v hv => (allVertices_repeated h hne v).mp hv, reached_mono le_rfl fun v hv => (allVertices_repeated h hne v).mpr hv⟩

theorem recordsInOrder_near {xo yo s u X Y : ℝ} {seen : List (ℝ × ℝ)} {P : List (List (ℝ × ℝ))} (h : RecordsInOrder xo yo s s seen u P X Y) : ∃ vs ∈ P, NearTrack vs u X Y := by
  obtain ⟨before, track, after, rfl, hn, -⟩ := h
  exact ⟨track, by simp, hn⟩

theorem captures_paths {L : RealizationLog} {u X Y : ℝ} : L.Captures u X Y ↔ ∃ vs ∈ L.paths, NearTrack vs u X Y := by
  unfold RealizationLog.Captures RealizationLog.paths
  simp

open Classical in
theorem recorded_repeated {P : List (List (ℝ × ℝ))} {xo yo s u X Y : ℝ} (hr : Reached xo yo s s P.flatten X Y) {ls : List RealizationLog} {n : ℕ} (hl : ls.length = n + 1) (h : ∀ L ∈ ls, L.paths = P) :
    ((List.range (n + 1)).countP fun i => RecordedBy xo yo s u ls X Y i) =
      (if RecordsInOrder xo yo s s [] u P X Y then 1 else 0) + n * (if ∃ vs ∈ P, NearTrack vs u X Y then 1 else 0) := by
  have hget : ∀ i, i < n + 1 → ∃ L, ls[i]? = some L ∧ L.paths = P := fun i hi =>
    ⟨_, List.getElem?_eq_getElem (by omega), h _ (List.getElem_mem _)⟩
  have h0 : RecordedBy xo yo s u ls X Y 0 ↔ RecordsInOrder xo yo s s [] u P X Y := by
    obtain ⟨L, e1, e2⟩ := hget 0 (by omega)
    constructor
    · rintro ⟨L', e3, hR⟩
      obtain rfl := Option.some.inj (e1.symm.trans e3)
      rw [e2] at hR
      simpa [allVertices] using hR
    · intro hR
      exact ⟨L, e1, by rw [e2]; simpa [allVertices] using hR⟩
  have h1 : ∀ i, i < n → (RecordedBy xo yo s u ls X Y (i + 1) ↔ ∃ vs ∈ P, NearTrack vs u X Y) := by
    intro i hi
    obtain ⟨L, e1, e2⟩ := hget (i + 1) (by omega)
    constructor
    · rintro ⟨L', e3, hR⟩
      obtain rfl := Option.some.inj (e1.symm.trans e3)
      rw [e2] at hR
      exact recordsInOrder_near hR
    · rintro ⟨vs, hvs, hn⟩
      obtain ⟨before, after, e⟩ := List.append_of_mem hvs
      refine ⟨L, e1, before, vs, after, by rw [e2, e], hn, ?_⟩
      have hne : ls.take (i + 1) ≠ [] := by
        intro hcon
        have := congrArg List.length hcon
        simp at this
        rw [this] at hl
        simp at hl
      have := (reached_repeated (fun L' hL' => h L' (List.mem_of_mem_take hL')) hne xo yo s X Y).mpr hr
      refine reached_mono le_rfl (fun v hv => ?_) this
      simp [hv]
  rw [List.range_succ_eq_map, List.countP_cons, List.countP_map, add_comm]
  congr 1
  · simp only [decide_eq_true_eq]
    exact if_congr h0 rfl rfl
  · by_cases hP : ∃ vs ∈ P, NearTrack vs u X Y
    · rw [if_pos hP, mul_one]
      conv_rhs => rw [← List.length_range (n := n)]
      rw [List.countP_eq_length]
      intro i hi
      simp only [Function.comp, decide_eq_true_eq]
      exact (h1 i (List.mem_range.mp hi)).mpr hP
    · rw [if_neg hP, mul_zero, List.countP_eq_zero]
      intro i hi
      simp only [Function.comp, decide_eq_true_eq]
      exact fun hR => hP ((h1 i (List.mem_range.mp hi)).mp hR)

end Oneka
