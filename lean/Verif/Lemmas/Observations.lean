import Verif.Spec.Observations
import Verif.Lemmas.FitDetermined
import Verif.Lemmas.Utilities
import Verif.Lemmas.Ratio
import Verif.Lemmas.Run

/-!
# Lemmas for C129
-/

namespace Oneka

open Aquifer Matrix

variable {m : Aquifer ℝ} {la : LinAlg} {xo yo : ℝ}

/-! ## Order -/

theorem fitSys_perm {l l' : List Obs} (h : l.Perm l') : m.fitSys xo yo l = m.fitSys xo yo l' := by
  induction h with
  | nil => rfl
  | cons o _ ih => simp only [fitSys, ih]
  | swap o p l =>
    simp only [fitSys]
    cases (m.fitRow xo yo o).toOption with
    | none => cases (m.fitRow xo yo p).toOption with
      | none => rfl
      | some r => simp only [Option.bind_none, Option.bind_some]; cases finPart r <;> rfl
    | some r =>
      simp only [Option.bind_some]
      cases finPart r with
      | none => cases (m.fitRow xo yo p).toOption with
        | none => rfl
        | some r => simp only [Option.bind_none, Option.bind_some]; cases finPart r <;> rfl
      | some v =>
        cases (m.fitRow xo yo p).toOption with
        | none => rfl
        | some r =>
          simp only [Option.bind_some]
          cases finPart r with
          | none => rfl
          | some w =>
            simp only [Option.bind_some]
            cases m.fitSys xo yo l with
            | none => rfl
            | some s =>
              simp only [Option.bind_some, Option.some.injEq]
              refine Prod.ext ?_ ?_
              · funext i j; simp only; ring
              · funext i; simp only; ring
  | trans _ _ h1 h2 => rw [h1, h2]

theorem fosm_error {o : Obs} {e : PyErr} (h : m.fosm o = .error e) : e = .rangeError := by
  unfold fosm at h
  simp only at h
  split at h
  · cases h
  · split at h
    · cases h
    · cases h; rfl

theorem fitRow_error {o : Obs} (hw : m.wells ≠ []) {e : PyErr} (h : m.fitRow xo yo o = .error e) : e = .rangeError := by
  unfold fitRow at h
  cases hf : m.fosm o with
  | error e' =>
    rw [hf] at h
    cases h
    exact fosm_error hf
  | ok r =>
    rw [hf] at h
    simp only [List.isEmpty_iff, hw, decide_false, Bool.false_and, Bool.false_eq_true, if_false] at h
    have : m.wells.isEmpty = false := by simpa using hw
    simp [this] at h

theorem constructFit_fails {l : List Obs} (hw : m.wells ≠ []) :
    (∃ rows, m.constructFit xo yo l = .ok rows) ∧ (∀ o ∈ l, ∃ r, m.fitRow xo yo o = .ok r) ∨
      m.constructFit xo yo l = .error .rangeError ∧ ∃ o ∈ l, ∃ e, m.fitRow xo yo o = .error e := by
  induction l with
  | nil => exact .inl ⟨⟨[], rfl⟩, by simp⟩
  | cons o os ih =>
    unfold constructFit
    cases hr : m.fitRow xo yo o with
    | error e =>
      obtain rfl := fitRow_error hw hr
      exact .inr ⟨rfl, o, by simp, _, hr⟩
    | ok r =>
      rcases ih with ⟨⟨rows, h1⟩, h2⟩ | ⟨h1, p, hp, h2⟩
      · refine .inl ⟨⟨r :: rows, by rw [h1]⟩, fun p hp => ?_⟩
        rcases List.mem_cons.mp hp with rfl | hp
        · exact ⟨r, hr⟩
        · exact h2 p hp
      · exact .inr ⟨by rw [h1], p, by simp [hp], h2⟩

/-- The fit is determined by the normal equations, and by whether the system can be set up. -/
theorem fit_same (hla : la.Correct) (hc : la.Converges) (hs : la.Strict) {l l' : List Obs} (h : m.fitSys xo yo l' = m.fitSys xo yo l)
    (he : ∀ e, m.constructFit xo yo l' = .error e ↔ m.constructFit xo yo l = .error e) : m.fitRegionalFlow la l' xo yo = m.fitRegionalFlow la l xo yo := by
  have ho : (m.fitRegionalFlow la l' xo yo).2.toOption = (m.fitRegionalFlow la l xo yo).2.toOption := by
    rw [fit_determined hla hc hs, fit_determined hla hc hs, h]
  unfold fitRegionalFlow at ho ⊢
  cases h1 : m.constructFit xo yo l with
  | error e => rw [(he e).mpr h1]
  | ok rows =>
    cases h2 : m.constructFit xo yo l' with
    | error e => rw [(he e).mp h2] at h1; cases h1
    | ok rows' =>
      rw [h1, h2] at ho
      simp only at ho ⊢
      cases h3 : computeFit la rows with
      | error e =>
        obtain rfl := computeFit_err hla h3
        cases h4 : computeFit la rows' with
        | error e' => rw [computeFit_err hla h4]
        | ok r => rw [h3, h4] at ho; cases ho
      | ok r =>
        cases h4 : computeFit la rows' with
        | error e' => rw [h3, h4] at ho; cases ho
        | ok r' =>
          rw [h3, h4] at ho
          obtain ⟨ev, cov⟩ := r
          obtain ⟨ev', cov'⟩ := r'
          simp only [Except.toOption, Option.some.injEq, Prod.mk.injEq] at ho
          obtain ⟨rfl, rfl⟩ := ho
          rfl

theorem fit_perm (hla : la.Correct) (hc : la.Converges) (hs : la.Strict) (hw : m.wells ≠ []) {l l' : List Obs} (h : l.Perm l') :
    m.fitRegionalFlow la l' xo yo = m.fitRegionalFlow la l xo yo := by
  refine fit_same hla hc hs (fitSys_perm h).symm fun e => ?_
  rcases constructFit_fails (xo := xo) (yo := yo) (l := l) hw with ⟨⟨rows, h1⟩, h2⟩ | ⟨h1, o, ho, e', h2⟩ <;>
    rcases constructFit_fails (xo := xo) (yo := yo) (l := l') hw with ⟨⟨rows', h1'⟩, h2'⟩ | ⟨h1', o', ho', e'', h2'⟩
  · rw [h1, h1']; simp
  · obtain ⟨r, hr⟩ := h2 o' (h.mem_iff.mpr ho')
    rw [hr] at h2'
    cases h2'
  · obtain ⟨r, hr⟩ := h2' o (h.mem_iff.mp ho)
    rw [hr] at h2
    cases h2
  · rw [h1, h1']

/-! ## Runs that differ in their observations -/

variable {a : RunArgs} {obs' : List Obs}

theorem realize_obs {t : SWell} {q : Dist → ℕ → Except PyErr ℝ} {coefs : (Fin 6 → ℝ) → Matrix (Fin 6) (Fin 6) ℝ → Except PyErr (Fin 6 → ℝ)} {rc : (Fin 6 → ℝ) → ℝ}
    {int : ℕ → ℕ → Option PyErr} {f : PField ℝ} (h : ∀ mo, drawModel a q = .ok mo → mo.fitRegionalFlow la obs' t.xw t.yw = mo.fitRegionalFlow la a.obs t.xw t.yw) :
    realize { a with obs := obs' } la t q coefs rc int f = realize a la t q coefs rc int f := by
  unfold realize
  rw [show drawModel { a with obs := obs' } q = drawModel a q from rfl]
  cases hd : drawModel a q with
  | error e => rfl
  | ok mo =>
    simp only
    rw [h mo hd]

theorem loop_obs {env : Env} {t : SWell}
    (h : ∀ i mo, drawModel a (fun d j => d.sample (env.u i j)) = .ok mo → mo.fitRegionalFlow env.la obs' t.xw t.yw = mo.fitRegionalFlow env.la a.obs t.xw t.yw) (k : ℕ) :
    ∀ (i : ℕ) (f : PField ℝ) (acc : List RealizationLog), stochasticLoop { a with obs := obs' } env t k i f acc = stochasticLoop a env t k i f acc := by
  induction k with
  | zero => intro i f acc; rfl
  | succ k ih =>
    intro i f acc
    unfold stochasticLoop
    rw [realize_obs (h i)]
    split
    · rfl
    · rfl
    · exact ih _ _ _

theorem stochastic_obs {env : Env} {n : ℤ} (h : ∀ t, getWell a.wells a.target = .ok t → ∀ i mo, drawModel a (fun d j => d.sample (env.u i j)) = .ok mo →
    mo.fitRegionalFlow env.la obs' t.xw t.yw = mo.fitRegionalFlow env.la a.obs t.xw t.yw) : createStochastic { a with obs := obs' } n env = createStochastic a n env := by
  unfold createStochastic
  show (match getWell a.wells a.target with | _ => _) = _
  cases hg : getWell a.wells a.target with
  | error e => rfl
  | ok t =>
    simp only
    cases PField.new a.spacing a.spacing (some t.xw) (some t.yw) with
    | error e => rfl
    | ok f => exact loop_obs (h t hg) _ _ _ _

theorem deterministic_obs {env : Env} (h : ∀ t, getWell a.wells a.target = .ok t → ∀ mo, drawModel a (fun d _ => d.mean) = .ok mo →
    mo.fitRegionalFlow env.la obs' t.xw t.yw = mo.fitRegionalFlow env.la a.obs t.xw t.yw) : createDeterministic { a with obs := obs' } env = createDeterministic a env := by
  unfold createDeterministic
  show (match getWell a.wells a.target with | _ => _) = _
  cases hg : getWell a.wells a.target with
  | error e => rfl
  | ok t =>
    simp only
    cases PField.new a.spacing a.spacing (some t.xw) (some t.yw) with
    | error e => rfl
    | ok f =>
      simp only
      rw [realize_obs (h t hg)]

/-! ## Duplicates and precision -/

theorem fitSys_usable (hK : 0 < m.conductivity) (hT : 0 < m.thickness) {l : List Obs} (h : m.Usable l) :
    m.fitSys xo yo l = some (fun i j => (l.map fun o => (m.rowOf xo yo o).1 i * (m.rowOf xo yo o).1 j).sum, fun i => (l.map fun o => (m.rowOf xo yo o).1 i * (m.rowOf xo yo o).2).sum) := by
  induction l with
  | nil => rfl
  | cons o os ih =>
    obtain ⟨h1, h2, h3⟩ := h o (by simp)
    have hp : finPart (finRow (m.rowOf xo yo o)) = some (m.rowOf xo yo o) := by
      unfold finPart
      rw [if_neg (by simp [NonFinite, finRow, XR.IsFin])]
      rfl
    simp only [fitSys, fitRow_ok m hK hT xo yo o h1 h2 h3, Except.toOption, Option.bind_some, hp, ih fun p hp => h p (by simp [hp]), List.map_cons, List.sum_cons]
    rfl

theorem rowOf_confined {o : Obs} (hc : m.Confines o) : m.rowOf xo yo o = (fun i => mono (o.x - xo) (o.y - yo) i / (m.conductivity * m.thickness * o.std),
    (m.conductivity * m.thickness * (o.z - m.base - m.thickness / 2) - m.potentialWells o.x o.y) / (m.conductivity * m.thickness * o.std)) := by
  unfold Confines at hc
  have h1 : m.thickness ≤ o.z - m.base := by linarith
  unfold rowOf expectedPotential potentialStd potentialOfHead
  rw [min_eq_right h1, if_neg (not_lt.mpr h1), if_neg (not_lt.mpr h1), add_zero]

/-- what a group of duplicates contributes to the normal equations -/
theorem group_sums (hK : 0 < m.conductivity) (hT : 0 < m.thickness) {g : List Obs} {x y : ℝ} (hg : ∀ o ∈ g, o.x = x ∧ o.y = y ∧ m.Confines o) (i j : Fin 6) :
    (g.map fun o => (m.rowOf xo yo o).1 i * (m.rowOf xo yo o).1 j).sum = mono (x - xo) (y - yo) i * mono (x - xo) (y - yo) j / (m.conductivity * m.thickness) ^ 2 * (g.map fun o => 1 / o.std ^ 2).sum ∧
    (g.map fun o => (m.rowOf xo yo o).1 i * (m.rowOf xo yo o).2).sum = mono (x - xo) (y - yo) i / (m.conductivity * m.thickness) * (g.map fun o => o.z / o.std ^ 2).sum
      - mono (x - xo) (y - yo) i / (m.conductivity * m.thickness) ^ 2 * (m.conductivity * m.thickness * (m.base + m.thickness / 2) + m.potentialWells x y) * (g.map fun o => 1 / o.std ^ 2).sum := by
  induction g with
  | nil => simp
  | cons o os ih =>
    obtain ⟨rfl, rfl, hc⟩ := hg o (by simp)
    obtain ⟨h1, h2⟩ := ih fun p hp => hg p (by simp [hp])
    have hKT : m.conductivity * m.thickness ≠ 0 := (mul_pos hK hT).ne'
    simp only [List.map_cons, List.sum_cons, h1, h2, rowOf_confined hc]
    generalize m.conductivity * m.thickness = KT at hKT
    by_cases hs : o.std = 0
    · constructor
      · simp [hs]
      · simp [hs]
    · constructor
      · field_simp
      · field_simp
        ring

theorem confines_mean {r : Obs} {g : List Obs} (hr : 0 < r.std) (h1 : 1 / r.std ^ 2 = (g.map fun o => 1 / o.std ^ 2).sum) (h2 : r.z / r.std ^ 2 = (g.map fun o => o.z / o.std ^ 2).sum)
    (hg : ∀ o ∈ g, m.Confines o) : m.Confines r := by
  have key : (m.base + m.thickness) * (g.map fun o => 1 / o.std ^ 2).sum ≤ (g.map fun o => o.z / o.std ^ 2).sum := by
    clear h1 h2
    induction g with
    | nil => simp
    | cons o os ih =>
      have h3 := ih fun p hp => hg p (by simp [hp])
      have h4 : m.base + m.thickness ≤ o.z := hg o (by simp)
      simp only [List.map_cons, List.sum_cons, mul_add]
      have h5 : (m.base + m.thickness) * (1 / o.std ^ 2) ≤ o.z / o.std ^ 2 := by
        rw [mul_one_div]
        exact div_le_div_of_nonneg_right h4 (sq_nonneg _)
      linarith
  rw [← h1, ← h2, mul_one_div] at key
  exact (div_le_div_iff_of_pos_right (by positivity)).mp key

theorem merged_sums (hK : 0 < m.conductivity) (hT : 0 < m.thickness) {l : List Obs} {gs : List (List Obs)} (hG : Grouping l gs) (hu : m.Usable l)
    (hd : l.Pairwise fun o p => o.dist p.x p.y < 1 → p.x = o.x ∧ p.y = o.y ∧ m.Confines o ∧ m.Confines p) : ∀ {rs : List Obs}, List.Forall₂ Represents rs gs →
    m.Usable rs ∧ ∀ i j, (rs.map fun o => (m.rowOf xo yo o).1 i * (m.rowOf xo yo o).1 j).sum = (l.map fun o => (m.rowOf xo yo o).1 i * (m.rowOf xo yo o).1 j).sum ∧
      (rs.map fun o => (m.rowOf xo yo o).1 i * (m.rowOf xo yo o).2).sum = (l.map fun o => (m.rowOf xo yo o).1 i * (m.rowOf xo yo o).2).sum := by
  induction hG with
  | nil =>
    intro rs h
    cases h
    exact ⟨by simp [Usable], fun _ _ => ⟨rfl, rfl⟩⟩
  | cons o os rest gs h1 h2 hG ih =>
    intro rs h
    cases h with
    | cons hrep hall =>
      rename_i r rs
      obtain ⟨k1, k2⟩ := ih (fun p hp => hu p (by simp [hp])) (List.pairwise_append.mp hd).2.1 hall
      have hg : m.Usable (o :: os) := fun p hp => hu p (List.mem_append_left _ hp)
      suffices H : m.Usable [r] ∧ ∀ i j, ([r].map fun o => (m.rowOf xo yo o).1 i * (m.rowOf xo yo o).1 j).sum = ((o :: os).map fun o => (m.rowOf xo yo o).1 i * (m.rowOf xo yo o).1 j).sum ∧
          ([r].map fun o => (m.rowOf xo yo o).1 i * (m.rowOf xo yo o).2).sum = ((o :: os).map fun o => (m.rowOf xo yo o).1 i * (m.rowOf xo yo o).2).sum by
        refine ⟨fun p hp => ?_, fun i j => ⟨?_, ?_⟩⟩
        · rcases List.mem_cons.mp hp with rfl | hp
          · exact H.1 _ (by simp)
          · exact k1 p hp
        · rw [List.map_append, List.sum_append, ← (k2 i j).1, ← (H.2 i j).1]
          simp
        · rw [List.map_append, List.sum_append, ← (k2 i j).2, ← (H.2 i j).2]
          simp
      by_cases hos : os = []
      · subst hos
        obtain rfl := hrep.single o rfl
        exact ⟨hg, fun _ _ => ⟨rfl, rfl⟩⟩
      · obtain ⟨hr0, hr1, hr2⟩ := hrep.several (by simpa using List.length_pos_iff.mpr hos)
        have hpw := (List.pairwise_cons.mp (List.pairwise_append.mp hd).1).1
        have hgc : ∀ p ∈ o :: os, p.x = o.x ∧ p.y = o.y ∧ m.Confines p := by
          intro p hp
          rcases List.mem_cons.mp hp with rfl | hp
          · obtain ⟨q, hq⟩ := List.exists_mem_of_ne_nil os hos
            exact ⟨rfl, rfl, (hpw q hq (h1 q hq)).2.2.1⟩
          · obtain ⟨e1, e2, -, e3⟩ := hpw p hp (h1 p hp)
            exact ⟨e1, e2, e3⟩
        obtain ⟨o', ho', ex, ey⟩ := hrep.place
        obtain rfl : o = o' := by simpa using ho'
        have hcr : m.Confines r := confines_mean hr0 hr1 hr2 fun p hp => (hgc p hp).2.2
        refine ⟨fun p hp => ?_, fun i j => ?_⟩
        · obtain rfl := List.mem_singleton.mp hp
          refine ⟨?_, hr0, ?_⟩
          · have : m.base + m.thickness ≤ p.z := hcr
            linarith
          · rw [ex, ey]
            exact (hg o (by simp)).2.2
        · obtain ⟨a1, a2⟩ := group_sums (xo := xo) (yo := yo) hK hT hgc i j
          obtain ⟨b1, b2⟩ := group_sums (xo := xo) (yo := yo) hK hT (g := [r]) (x := o.x) (y := o.y) (by simpa using ⟨ex, ey, hcr⟩) i j
          rw [a1, a2, b1, b2, ← hr1, ← hr2]
          simp

theorem merged_fit (hla : la.Correct) (hc : la.Converges) (hs : la.Strict) (hK : 0 < m.conductivity) (hT : 0 < m.thickness) {l rs : List Obs} (hu : m.Usable l)
    (hd : l.Pairwise fun o p => o.dist p.x p.y < 1 → p.x = o.x ∧ p.y = o.y ∧ m.Confines o ∧ m.Confines p) (h : mergeRuns l = .ok rs) :
    m.fitRegionalFlow la rs xo yo = m.fitRegionalFlow la l xo yo := by
  obtain ⟨gs, hG⟩ := grouping_exists l
  obtain ⟨rs', e, hrep⟩ := (grouping_spec hG).1 fun g hg _ o ho => by
    have : o ∈ l := by
      rw [← grouping_flatten hG]
      exact List.mem_flatten.mpr ⟨g, hg, ho⟩
    exact (hu o this).2.1.ne'
  rw [h] at e
  obtain rfl := Except.ok.inj e
  obtain ⟨h1, h2⟩ := merged_sums (xo := xo) (yo := yo) hK hT hG hu hd hrep
  refine fit_same hla hc hs ?_ fun e => ?_
  · rw [fitSys_usable hK hT h1, fitSys_usable hK hT hu]
    refine congrArg some (Prod.ext ?_ ?_)
    · funext i j; exact (h2 i j).1
    · funext i; exact (h2 i 0).2
  · rw [constructFit_ok m hK hT xo yo _ h1, constructFit_ok m hK hT xo yo _ hu]
    simp

/-! ## Precision -/

theorem fitSys_blur (hK : 0 < m.conductivity) (hT : 0 < m.thickness) {c : ℝ} (hc0 : 0 < c) {l : List Obs} (hu : m.Usable l) (hl : ∀ o ∈ l, m.Confines o) :
    m.fitSys xo yo (l.map (Obs.blur c)) = (m.fitSys xo yo l).map fun s => ((c⁻¹ ^ 2) • s.1, (c⁻¹ ^ 2) • s.2) := by
  have hu' : m.Usable (l.map (Obs.blur c)) := by
    intro p hp
    obtain ⟨o, ho, rfl⟩ := List.mem_map.mp hp
    obtain ⟨h1, h2, h3⟩ := hu o ho
    exact ⟨h1, mul_pos hc0 h2, h3⟩
  have hrow : ∀ o ∈ l, m.rowOf xo yo (o.blur c) = (fun i => c⁻¹ * (m.rowOf xo yo o).1 i, c⁻¹ * (m.rowOf xo yo o).2) := by
    intro o ho
    have hcb : m.Confines (o.blur c) := hl o ho
    have := (hu o ho).2.1.ne'
    rw [rowOf_confined hcb, rowOf_confined (hl o ho)]
    have hKT : m.conductivity * m.thickness ≠ 0 := (mul_pos hK hT).ne'
    generalize m.conductivity * m.thickness = KT at hKT
    refine Prod.ext (funext fun i => ?_) ?_
    · simp only [Obs.blur]
      field_simp
    · simp only [Obs.blur]
      field_simp
  rw [fitSys_usable hK hT hu', fitSys_usable hK hT hu]
  simp only [List.map_map]
  refine congrArg some (Prod.ext ?_ ?_)
  · funext i j
    show _ = c⁻¹ ^ 2 * _
    rw [← List.sum_map_mul_left]
    refine congrArg _ (List.map_congr_left fun o ho => ?_)
    simp only [Function.comp, hrow o ho]
    ring
  · funext i
    show _ = c⁻¹ ^ 2 * _
    rw [← List.sum_map_mul_left]
    refine congrArg _ (List.map_congr_left fun o ho => ?_)
    simp only [Function.comp, hrow o ho]
    ring

theorem fit_blur (hla : la.Correct) (hc : la.Converges) (hs : la.Strict) (hK : 0 < m.conductivity) (hT : 0 < m.thickness) {c : ℝ} (hc0 : 0 < c) {l : List Obs} (hu : m.Usable l)
    (hl : ∀ o ∈ l, m.Confines o) : m.fitRegionalFlow la (l.map (Obs.blur c)) xo yo =
      ((m.fitRegionalFlow la l xo yo).1, (m.fitRegionalFlow la l xo yo).2.map fun r => (r.1, c ^ 2 • r.2)) := by
  have ho : (m.fitRegionalFlow la (l.map (Obs.blur c)) xo yo).2.toOption = (m.fitRegionalFlow la l xo yo).2.toOption.map fun r => (r.1, c ^ 2 • r.2) := by
    rw [fit_determined hla hc hs, fit_determined hla hc hs, fitSys_blur hK hT hc0 hu hl]
    cases m.fitSys xo yo l with
    | none => rfl
    | some s =>
      obtain ⟨G, b⟩ := s
      have hd : ((c⁻¹ ^ 2) • G).det = 0 ↔ G.det = 0 := by
        rw [Matrix.det_smul]
        simp [hc0.ne']
      simp only [Option.map_some, Option.bind_some]
      by_cases h0 : G.det = 0
      · rw [if_pos h0, if_pos (hd.mpr h0)]
        rfl
      · rw [if_neg h0, if_neg (fun h => h0 (hd.mp h))]
        have e1 : c⁻¹ ^ 2 * c ^ 2 = 1 := by field_simp
        have hi : ((c⁻¹ ^ 2) • G)⁻¹ = (c ^ 2) • G⁻¹ := by
          refine Matrix.inv_eq_right_inv ?_
          rw [Matrix.smul_mul, Matrix.mul_smul, smul_smul, Matrix.mul_nonsing_inv _ (isUnit_iff_ne_zero.mpr h0), e1, one_smul]
        rw [hi]
        simp only [Option.map_some]
        refine congrArg some (Prod.ext ?_ rfl)
        funext k
        rw [Matrix.smul_mulVec, Matrix.mulVec_smul, smul_smul, mul_comm, e1, one_smul]
  have hu' : m.Usable (l.map (Obs.blur c)) := by
    intro p hp
    obtain ⟨o, ho, rfl⟩ := List.mem_map.mp hp
    obtain ⟨h1, h2, h3⟩ := hu o ho
    exact ⟨h1, mul_pos hc0 h2, h3⟩
  unfold fitRegionalFlow at ho ⊢
  rw [constructFit_ok m hK hT xo yo _ hu', constructFit_ok m hK hT xo yo _ hu] at ho ⊢
  simp only at ho ⊢
  revert ho
  generalize List.map finRow (List.map (m.rowOf xo yo) (List.map (Obs.blur c) l)) = R'
  generalize List.map finRow (List.map (m.rowOf xo yo) l) = R
  intro ho
  cases h1 : computeFit la R with
  | error e =>
    obtain rfl := computeFit_err hla h1
    cases h2 : computeFit la R' with
    | error e' => rw [computeFit_err hla h2]; rfl
    | ok r => rw [h1, h2] at ho; cases ho
  | ok r =>
    cases h2 : computeFit la R' with
    | error e' => rw [h1, h2] at ho; cases ho
    | ok r' =>
      rw [h1, h2] at ho
      obtain ⟨ev, cov⟩ := r
      obtain ⟨ev', cov'⟩ := r'
      simp only [Except.toOption, Option.map_some, Option.some.injEq, Prod.mk.injEq] at ho
      obtain ⟨rfl, rfl⟩ := ho
      rfl

end Oneka
