import Verif.Props.Runs

/-! Helper lemmas for C84 and C85. -/

namespace Oneka

open PField

theorem getWell_negative {ws : List SWell} {i : ℤ} (h0 : i < 0) (h1 : -(ws.length : ℤ) ≤ i) : getWell ws i = getWell ws (i + ws.length) := by
  unfold getWell
  simp only [if_pos h0, if_neg (by omega : ¬ i + (ws.length : ℤ) < 0)]

theorem getWell_outside {ws : List SWell} {i : ℤ} (h : i < -(ws.length : ℤ) ∨ (ws.length : ℤ) ≤ i) : getWell ws i = .error .indexError := by
  unfold getWell
  rcases h with h | h
  · simp only [if_pos (by omega : i < 0), if_pos (by omega : i + (ws.length : ℤ) < 0)]
  · simp only [if_neg (by omega : ¬ i < 0), List.getElem?_eq_none (by omega : ws.length ≤ i.toNat)]

theorem loop_add {a : RunArgs} {env : Env} {t : SWell} (k : ℕ) : ∀ (m i : ℕ) (f : PField ℝ) (acc : List RealizationLog),
    stochasticLoop a env t (m + k) i f acc = match stochasticLoop a env t m i f acc with
      | none => none
      | some ⟨.error e, l⟩ => some ⟨.error e, l⟩
      | some ⟨.ok f', l⟩ => stochasticLoop a env t k (i + m) f' l := by
  intro m
  induction m with
  | zero =>
    intro i f acc
    simp only [Nat.zero_add, stochasticLoop, Nat.add_zero]
  | succ m ih =>
    intro i f acc
    rw [show m + 1 + k = (m + k) + 1 by omega]
    simp only [stochasticLoop]
    split
    · rfl
    · rfl
    · rw [ih]
      rw [show i + (m + 1) = i + 1 + m by omega]

theorem realize_target {a : RunArgs} {i : ℤ} : realize { a with target := i } = realize a := rfl

theorem loop_target {a : RunArgs} {i : ℤ} {env : Env} {t : SWell} : ∀ (k j : ℕ) (f : PField ℝ) (acc : List RealizationLog),
    stochasticLoop { a with target := i } env t k j f acc = stochasticLoop a env t k j f acc := by
  intro k
  induction k with
  | zero => intro j f acc; rfl
  | succ k ih =>
    intro j f acc
    simp only [stochasticLoop, realize_target, ih]

/-- a run of `m + d` realizations continues that of `m` -/
theorem create_add (a : RunArgs) (env : Env) (m d : ℕ) :
    (createStochastic a m env = none → createStochastic a (m + d : ℕ) env = none) ∧
    (∀ r e, createStochastic a m env = some r → r.outcome = .error e → createStochastic a (m + d : ℕ) env = some r) ∧
    (∀ r f, createStochastic a m env = some r → r.outcome = .ok f → ∃ t, getWell a.wells a.target = .ok t ∧
      createStochastic a (m + d : ℕ) env = stochasticLoop a env t d m f r.log) := by
  unfold createStochastic
  split
  · refine ⟨by simp, fun r e h _ => h, fun r f h ho => ?_⟩
    obtain rfl := Option.some.inj h
    simp at ho
  · rename_i t ht
    split
    · refine ⟨by simp, fun r e h _ => h, fun r f h ho => ?_⟩
      obtain rfl := Option.some.inj h
      simp at ho
    · rename_i f0 hf0
      simp only [Int.toNat_natCast, loop_add d m]
      refine ⟨fun h => by rw [h], fun r e h ho => ?_, fun r f h ho => ⟨t, ht, ?_⟩⟩
      · obtain ⟨o, l⟩ := r
        simp only at ho
        subst ho
        rw [h]
      · obtain ⟨o, l⟩ := r
        simp only at ho
        subst ho
        rw [h, Nat.zero_add]

theorem realized_unique {a : RunArgs} {la : LinAlg} {t : SWell} {q q' : Dist → ℕ → Except PyErr ℝ} {coefs : (Fin 6 → ℝ) → Matrix (Fin 6) (Fin 6) ℝ → Except PyErr (Fin 6 → ℝ)}
    {interrupt : ℕ → ℕ → Option PyErr} {L L' : RealizationLog} (hq : ∀ d j, j ≤ a.wells.length + 2 → q d j = q' d j) (R : Realized a la t q coefs interrupt L) (R' : Realized a la t q' coefs interrupt L') :
    L.model = L'.model ∧ L.ev = L'.ev ∧ L.cov = L'.cov ∧ L.traces = L'.traces := by
  have hb : L'.model.base = L.model.base := by rw [R.base, R'.base]
  have hc : L'.model.conductivity = L.model.conductivity := by
    have := R'.conductivity
    rw [← hq _ _ (by omega), R.conductivity] at this
    exact (Except.ok.inj this).symm
  have hp : L'.model.porosity = L.model.porosity := by
    have := R'.porosity
    rw [← hq _ _ (by omega), R.porosity] at this
    exact (Except.ok.inj this).symm
  have ht : L'.model.thickness = L.model.thickness := by
    have := R'.thickness
    rw [← hq _ _ le_rfl, R.thickness] at this
    exact (Except.ok.inj this).symm
  have hw : L'.model.wells = L.model.wells := by
    refine List.ext_getElem? fun j => ?_
    by_cases hj : j < a.wells.length
    · obtain ⟨d, h1, h2⟩ := R.wells j _ (List.getElem?_eq_getElem hj)
      obtain ⟨d', h1', h2'⟩ := R'.wells j _ (List.getElem?_eq_getElem hj)
      rw [← hq _ _ (by omega), h2] at h2'
      obtain rfl := Except.ok.inj h2'
      rw [h1, h1']
    · rw [List.getElem?_eq_none (by rw [R'.wells_length]; omega), List.getElem?_eq_none (by rw [R.wells_length]; omega)]
  have hfit := R'.fit
  rw [fit_congr hb hc ht hw, R.fit] at hfit
  obtain ⟨he, hv⟩ := Prod.mk.inj (Except.ok.inj hfit)
  have hco : L'.model.coef = L.model.coef := by
    have := R'.coef
    rw [← he, ← hv, R.coef] at this
    exact (Except.ok.inj this).symm
  have hm : L.model = L'.model := by
    have h1 := R.origin
    have h2 := R'.origin
    have hx : L'.model.xo = L.model.xo := by rw [h1.1, h2.1]
    have hy : L'.model.yo = L.model.yo := by rw [h1.2, h2.2]
    generalize L.model = A at *
    generalize L'.model = B at *
    cases A
    cases B
    simp only at hb hc hp ht hw hco hx hy
    subst hb hc hp ht hw hco hx hy
    rfl
  refine ⟨hm, he, hv, List.ext_getElem? fun k => ?_⟩
  by_cases hk : k < a.npaths.toNat
  · have l1 : k < L.traces.length := by rw [R.traces_length]; exact hk
    have l2 : k < L'.traces.length := by rw [R'.traces_length]; exact hk
    have e1 := R.traces k _ (List.getElem?_eq_getElem l1)
    have e2 := R'.traces k _ (List.getElem?_eq_getElem l2)
    rw [hm, e2] at e1
    rw [List.getElem?_eq_getElem l1, List.getElem?_eq_getElem l2, Option.some.inj e1]
  · rw [List.getElem?_eq_none (by rw [R.traces_length]; omega), List.getElem?_eq_none (by rw [R'.traces_length]; omega)]

end Oneka
