import Verif.Spec.Storage
import Verif.Lemmas.Fall
import Verif.Spec.Run

/-!
# Lemmas for Props/Storage.lean
-/

namespace Oneka

open Aquifer Set

theorem refilled_potential (m : Aquifer ℝ) (K n H x y : ℝ) : (m.refilled K n H).potential x y = m.potential x y := rfl

theorem refilled_discharge (m : Aquifer ℝ) (K n H x y : ℝ) : (m.refilled K n H).discharge x y = m.discharge x y := rfl

theorem refilled_offWells (m : Aquifer ℝ) (K n H x y : ℝ) : (m.refilled K n H).OffWells x y ↔ m.OffWells x y := Iff.rfl

theorem thickAt_sat {m : Aquifer ℝ} (hm : m.Physical) (confined : Bool) {p : ℝ × ℝ} (h : confined = true ∨ 0 < m.potential p.1 p.2) : m.Saturated confined p.1 p.2 (thickAt m confined p) := by
  rcases h with rfl | h
  · simp [Saturated, thickAt]
  · exact thickAt_saturated hm confined h

/-- The water of two aquifers with the same discharge takes the same way, but not in the same time. -/
theorem change_storage {m : Aquifer ℝ} (hm : m.Physical) {K n H : ℝ} (hm' : (m.refilled K n H).Physical) {c c' : Bool} {γ : ℝ → ℝ × ℝ} {τ lo hi : ℝ} (h0 : 0 ≤ τ) (hγ : m.Carries c γ τ)
    (hpos : c' = true ∨ 0 < m.potential (γ τ).1 (γ τ).2) (hlo : 0 < lo)
    (hb : ∀ t ∈ Icc 0 τ, lo * (m.porosity * thickAt m c (γ t)) ≤ n * thickAt (m.refilled K n H) c' (γ t) ∧ n * thickAt (m.refilled K n H) c' (γ t) ≤ hi * (m.porosity * thickAt m c (γ t))) :
    ∃ (θ : ℝ → ℝ) (τ' : ℝ), 0 ≤ τ' ∧ lo * τ ≤ τ' ∧ τ' ≤ hi * τ ∧ θ 0 = 0 ∧ θ τ' = τ ∧ StrictMono θ ∧ (m.refilled K n H).Carries c' (fun s => γ (θ s)) τ' := by
  have hn := hm.porosity
  have hn' : 0 < n := hm'.porosity
  have hsat : ∀ t ∈ Icc 0 τ, (m.refilled K n H).Saturated c' (γ t).1 (γ t).2 (thickAt (m.refilled K n H) c' (γ t)) := fun t ht =>
    thickAt_sat hm' c' (hpos.imp_right fun h => lt_of_lt_of_le h (potential_descends hm hγ ht.1 ht.2))
  have tp' : ∀ t ∈ Icc 0 τ, 0 < thickAt (m.refilled K n H) c' (γ t) := fun t ht => saturated_pos hm' (hsat t ht)
  have tp : ∀ t ∈ Icc 0 τ, 0 < thickAt m c (γ t) := by
    intro t ht
    obtain ⟨v, ⟨-, b, hs, -, -⟩, -⟩ := hγ t ht.1 ht.2
    rw [← saturated_thickAt hm hs]
    exact saturated_pos hm hs
  have hcont : ContinuousOn (fun t => thickAt (m.refilled K n H) c' (γ t)) (Icc 0 τ) := by
    intro t ht
    obtain ⟨v, hv, hd⟩ := hγ t ht.1 ht.2
    have hp' := ContinuousAt.comp (f := γ) (x := t) (g := fun p : ℝ × ℝ => m.potential p.1 p.2) (potential_fderiv m hv.1).continuousAt hd.continuousAt
    have hp : ContinuousAt (fun t => m.potential (γ t).1 (γ t).2) t := hp'
    refine ContinuousAt.continuousWithinAt ?_
    simp only [thickAt, refilled_potential]
    cases c' with
    | true => simpa using continuousAt_const
    | false =>
      simp only [Bool.false_eq_true, if_false]
      exact ((Real.continuous_sqrt.continuousAt.comp ((continuousAt_const.mul hp).div_const _))).min continuousAt_const
  obtain ⟨θ, τ', a1, a2, a3, a4, a5, a6, a7⟩ := exists_clock (κ := fun t => (n * thickAt (m.refilled K n H) c' (γ t)) / (m.porosity * thickAt m c (γ t))) (lo := lo) (hi := hi) h0
    ((continuousOn_const.mul hcont).div (continuousOn_const.mul (thickAt_continuous c hγ)) fun t ht => (mul_pos hn (tp t ht)).ne') hlo
    (fun t ht => ⟨(le_div_iff₀ (mul_pos hn (tp t ht))).mpr (hb t ht).1, (div_le_iff₀ (mul_pos hn (tp t ht))).mpr (hb t ht).2⟩)
  refine ⟨θ, τ', a1, a2, a3, a4, a5, a6, fun s s0 s1 => ?_⟩
  obtain ⟨m1, m2⟩ := a7 s ⟨s0, s1⟩
  obtain ⟨v, ⟨hoff, b, hs, d1, d2⟩, hd⟩ := hγ (θ s) m1.1 m1.2
  have hbt := saturated_thickAt hm hs
  subst hbt
  have n1 := (tp _ m1).ne'
  have n2 := (tp' _ m1).ne'
  have n3 := hn.ne'
  have n4 := hn'.ne'
  refine ⟨((n * thickAt (m.refilled K n H) c' (γ (θ s))) / (m.porosity * thickAt m c (γ (θ s))))⁻¹ • v, ⟨hoff, _, hsat _ m1, d1.congr_deriv ?_, d2.congr_deriv ?_⟩, HasDerivAt.scomp s hd m2⟩
  all_goals
    simp only [Prod.smul_fst, Prod.smul_snd, smul_eq_mul, show (m.refilled K n H).porosity = n from rfl]
    field_simp

/-- the thickness grows with the thickness of the aquifer and falls with the conductivity -/
theorem thickAt_refilled_le {m : Aquifer ℝ} {K n H K' n' H' : ℝ} (hK : 0 < K) (hKK : K ≤ K') (hH : H' ≤ H) (c : Bool) {p : ℝ × ℝ} (hp : c = true ∨ 0 ≤ m.potential p.1 p.2) :
    thickAt (m.refilled K' n' H') c p ≤ thickAt (m.refilled K n H) c p := by
  have e1 : (m.refilled K' n' H').thickness = H' := rfl
  have e2 : (m.refilled K n H).thickness = H := rfl
  have e3 : (m.refilled K' n' H').conductivity = K' := rfl
  have e4 : (m.refilled K n H).conductivity = K := rfl
  simp only [thickAt, refilled_potential, e1, e2, e3, e4]
  rcases hp with rfl | hp
  · simpa using hH
  · split_ifs
    · exact hH
    · exact min_le_min (Real.sqrt_le_sqrt (by gcongr)) hH

/-- the fit depends on base, conductivity, thickness and wells only -/
theorem fit_only {m m' : Aquifer ℝ} (h1 : m'.base = m.base) (h2 : m'.conductivity = m.conductivity) (h3 : m'.thickness = m.thickness) (h4 : m'.wells = m.wells) (la : LinAlg) (obs : List Obs) (xo yo : ℝ) :
    (m'.fitRegionalFlow la obs xo yo).2 = (m.fitRegionalFlow la obs xo yo).2 := by
  obtain ⟨b, K, n, H, w, x, y, c⟩ := m
  obtain ⟨b', K', n', H', w', x', y', c'⟩ := m'
  simp only at h1 h2 h3 h4
  subst h1 h2 h3 h4
  have e : (⟨b', K', n', H', w', x', y', c'⟩ : Aquifer ℝ).constructFit xo yo obs = (⟨b', K', n, H', w', x, y, c⟩ : Aquifer ℝ).constructFit xo yo obs := by
    induction obs with
    | nil => rfl
    | cons o os ih =>
      have e0 : (⟨b', K', n', H', w', x', y', c'⟩ : Aquifer ℝ).fitRow xo yo o = (⟨b', K', n, H', w', x, y, c⟩ : Aquifer ℝ).fitRow xo yo o := rfl
      unfold constructFit
      rw [e0, ih]
  unfold fitRegionalFlow
  rw [e]
  cases (⟨b', K', n, H', w', x, y, c⟩ : Aquifer ℝ).constructFit xo yo obs with
  | error e => rfl
  | ok rows =>
    simp only
    cases computeFit la rows with
    | error e => rfl
    | ok r => rfl

/-- two realizations with the same draws, in runs that differ in the distribution of the porosity (and in what does not concern the model), have models that differ in the porosity only -/
theorem realized_refilled {a a' : RunArgs} {la : LinAlg} {t : SWell} {q : Dist → ℕ → Except PyErr ℝ} {coefs : (Fin 6 → ℝ) → Matrix (Fin 6) (Fin 6) ℝ → Except PyErr (Fin 6 → ℝ)}
    {interrupt interrupt' : ℕ → ℕ → Option PyErr} {T T' : RealizationLog} (R : Realized a la t q coefs interrupt T) (R' : Realized a' la t q coefs interrupt' T')
    (hb : a'.base = a.base) (hw : a'.wells = a.wells) (hc : a'.cDist = a.cDist) (ht : a'.tDist = a.tDist) (ho : a'.obs = a.obs) :
    T'.model = T.model.refilled T.model.conductivity T'.model.porosity T.model.thickness := by
  have e1 : T'.model.base = T.model.base := by rw [R'.base, R.base, hb]
  have e2 : T'.model.conductivity = T.model.conductivity := by
    have := R'.conductivity
    rw [hc, hw, R.conductivity] at this
    exact (Except.ok.inj this).symm
  have e3 : T'.model.thickness = T.model.thickness := by
    have := R'.thickness
    rw [ht, hw, R.thickness] at this
    exact (Except.ok.inj this).symm
  have e4 : T'.model.wells = T.model.wells := by
    refine List.ext_getElem? fun j => ?_
    by_cases hj : j < a.wells.length
    · obtain ⟨d, d1, d2⟩ := R.wells j _ (List.getElem?_eq_getElem hj)
      obtain ⟨d', d1', d2'⟩ := R'.wells j a.wells[j] (by rw [hw]; exact List.getElem?_eq_getElem hj)
      rw [d1, d1']
      rw [d2] at d2'
      rw [Except.ok.inj d2']
    · rw [List.getElem?_eq_none (by rw [R'.wells_length, hw]; omega), List.getElem?_eq_none (by rw [R.wells_length]; omega)]
  have e5 := fit_only e1 e2 e3 e4 la a.obs t.xw t.yw
  have f := R'.fit
  rw [ho, e5, R.fit] at f
  have f' := Prod.mk.inj (Except.ok.inj f)
  have e6 : T'.model.coef = T.model.coef := by
    have := R'.coef
    rw [← f'.1, ← f'.2, R.coef] at this
    exact (Except.ok.inj this).symm
  have o1 := R.origin.1
  have o2 := R.origin.2
  have o3 := R'.origin.1
  have o4 := R'.origin.2
  rw [← o1] at o3
  rw [← o2] at o4
  clear R R' f f' e5 o1 o2
  revert e1 e2 e3 e4 e6 o3 o4
  generalize T.model = m
  generalize T'.model = m'
  intro e1 e2 e3 e4 e6 o3 o4
  obtain ⟨b, K, n, H, w, x, y, c⟩ := m
  obtain ⟨b', K', n', H', w', x', y', c'⟩ := m'
  simp only at e1 e2 e3 e4 e6 o3 o4
  subst e1 e2 e3 e4 e6 o3 o4
  rfl

theorem countP_le_pointwise {α β : Type*} {P : α → Bool} {Q : β → Bool} : ∀ (l : List α) (l' : List β), l.length = l'.length → (∀ (i : ℕ) (x : α) (y : β), l[i]? = some x → l'[i]? = some y → P x = true → Q y = true) → l.countP P ≤ l'.countP Q
  | [], l', _, _ => by simp
  | x :: l, [], h, _ => by simp at h
  | x :: l, y :: l', h, hPQ => by
    have ih := countP_le_pointwise l l' (by simpa using h) fun i u v hu hv => hPQ (i + 1) u v (by simpa using hu) (by simpa using hv)
    have h0 := hPQ 0 x y rfl rfl
    rw [List.countP_cons, List.countP_cons]
    split_ifs with g1 g2
    · omega
    · exact absurd (h0 g1) g2
    · omega
    · omega

end Oneka
