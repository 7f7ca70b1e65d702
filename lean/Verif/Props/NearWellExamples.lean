import Verif.Props.NearWell
import Verif.Props.CertainExamples

/-!
# C133: calls that show what it says: a hole at the well, and a diluted result
-/

namespace Oneka

open Aquifer

/-- what is captured where, by the tracks of the wide call -/
theorem hole_captures {L : RealizationLog} (hp : L.paths = [[(1002, 1000), (1003, 1001)], [(1000, 1002), (1001, 1003)], [(998, 1000), (999, 1001)], [(1000, 998), (1001, 999)]]) :
    ¬ L.Captures 1 1000 1000 ∧ L.Captures 1 1002 1000 := by
  simp only [captures_paths, hp]
  refine ⟨?_, ⟨_, List.mem_cons_self .., (1002, 1000), (1003, 1001), List.infix_rfl, by norm_num, 0, le_rfl, zero_le_one, by norm_num⟩⟩
  rintro ⟨vs, hvs, hn⟩
  simp only [List.mem_cons, List.not_mem_nil, or_false] at hvs
  rcases hvs with rfl | rfl | rfl | rfl <;>
  · obtain ⟨s, h0, h1, h⟩ := near_pair hn
    simp only at h
    nlinarith [sq_nonneg (2 * s - 2)]

/-- **C133: a hole at the well.** Calls that are accepted and return, with an umbra that does not exceed the spacing, for any number of realizations: the well itself gets the probability 0, the place 2 m east of it the probability 1. -/
theorem C133_hole (r : ℤ) (t : DateTime) (fs : Files) : (oneka (wideCall r 1 true) (wideEnv t)).ending = .returns .none ∧
    ∃ (d : Dict) (f : PField ℝ), loadOneka ((oneka (wideCall r 1 true) (wideEnv t)).events.foldl Effect.apply fs) t.archiveName = .ok d ∧ d.get "pfield" = some (.field (.field f)) ∧
      f.probAt 1000 1000 = 0 ∧ f.probAt 1002 1000 = 1 := by
  classical
  refine ⟨wide_returns r (u := 1) one_pos true t, ?_⟩
  have det : ∀ r' ≤ (1:ℤ), ∃ (d : Dict) (f : PField ℝ), loadOneka ((oneka (wideCall r' 1 true) (wideEnv t)).events.foldl Effect.apply fs) t.archiveName = .ok d ∧ d.get "pfield" = some (.field (.field f)) ∧
      f.probAt 1000 1000 = 0 ∧ f.probAt 1002 1000 = 1 := by
    intro r' hr'
    obtain ⟨d, f, obs, k, w, L, g1, g2, g3, -, g4, g5, g6, g7, tot, hw, -⟩ := C68_deterministic (wideCall r' 1 true) (wideInputs r' 1 true) (wideEnv t) _ (wide_denotes r' 1 true) hr' (wide_returns r' (u := 1) one_pos true t) fs
    obtain rfl : obs = risingObs := Except.ok.inj (g3.symm.trans (wide_retained r' 1 true))
    obtain rfl : k = 0 := by
      have : ((0:ℕ):ℤ) = (k:ℤ) := g4
      omega
    obtain rfl : (⟨1000, 1000, 1, .const 0⟩ : SWell) = w := Option.some.inj g5
    obtain ⟨c1, c2⟩ := hole_captures (wide_paths r' 1 true t g7)
    have w0 := hw 0 0 (.inr (le_refl (1:ℝ)))
    have w1 := hw 2 0 (.inr (le_refl (1:ℝ)))
    have hs : (wideInputs r' 1 true).run.spacing = 1 := rfl
    have hu : (wideInputs r' 1 true).run.umbra = 1 := rfl
    simp only [hs, hu] at w0 w1
    norm_num at w0 w1
    rw [if_neg c1] at w0
    rw [if_pos c2] at w1
    exact ⟨d, f, g1, g2, by rw [PField.probAt, w0, zero_div], by rw [PField.probAt, w1, tot, div_one]⟩
  by_cases hr : r ≤ 1
  · exact det r hr
  obtain ⟨d, d', f, f', L, h1, h2, h3, h4, -, -, hnode, -, -, hP⟩ := C132_archived (wideCall r 1 true) (wideCall 1 1 true) (wideInputs r 1 true) (wideInputs 1 1 true) (wideEnv t) (wideEnv t) _ _ (wide_denotes r 1 true)
    (wide_denotes 1 1 true) (wide_returns r (u := 1) one_pos true t) (wide_returns 1 (u := 1) one_pos true t) fs fs rfl rfl rfl (not_le.mp hr) (le_refl (1:ℤ)) (wide_certain r 1 true t _)
  obtain ⟨d1, f1, g1, g2, p0, p1⟩ := det 1 le_rfl
  obtain rfl : d1 = d' := Except.ok.inj (g1.symm.trans h3)
  obtain rfl : f1 = f' := by simpa using g2.symm.trans h4
  have hP := hP (le_refl (1:ℝ))
  refine ⟨d, f, h1, h2, ?_, ?_⟩
  · by_cases hN : f1.IsNode 1000 1000
    · have : ((1000, 1000) : ℝ × ℝ) ∈ f1.nodesWhere (· = 0) := ⟨hN, p0⟩
      rw [← hP] at this
      exact this.2
    · rw [PField.probAt, show f.weightAt 1000 1000 = 0 from PField.lookAt_not f _ _ _ _ fun h => hN ((hnode _ _).mp h), zero_div]
  · by_cases hN : f1.IsNode 1002 1000
    · have : ((1002, 1000) : ℝ × ℝ) ∈ f1.nodesWhere (· = 1) := ⟨hN, p1⟩
      rw [← hP] at this
      exact this.2
    · rw [PField.probAt, show f1.weightAt 1002 1000 = 0 from PField.lookAt_not f1 _ _ _ _ hN, zero_div] at p1
      exact absurd p1 (by norm_num)

/-! ## A diluted result -/

/-- coefficients with which the aquifer is dry -/
noncomputable def dryCoef : Fin 6 → ℝ := fun i => if i = 5 then -1 else 0

/-- the environment: every other realization draws them -/
noncomputable def dilutedEnv (t : DateTime) : CallEnv := { wideEnv t with run := { (wideEnv t).run with mvn := fun i ev _ => .ok (if i % 2 = 0 then ev else dryCoef) } }

theorem dry_model {m : Aquifer ℝ} (hm : m.conductivity = 10) (hp : m.porosity = 1/4) (hT : m.thickness = 20) (hw : m.wells = [⟨1000, 1000, 1, 0⟩]) (hc : m.coef = dryCoef) (k : ℕ) :
    m.Physical ∧ m.OffWells (wideStart k).1 (wideStart k).2 ∧ m.Dry (wideStart k).1 (wideStart k).2 := by
  refine ⟨⟨by rw [hm]; norm_num, by rw [hp]; norm_num, by rw [hT]; norm_num⟩, ?_, ?_⟩
  · intro w hw' e
    rw [hw, List.mem_singleton] at hw'
    subst hw'
    exact wideStart_ne k ((Prod.mk.inj e).1.trans (Prod.mk.inj e).2.symm)
  · unfold Dry
    rw [potential_eq]
    simp [hw, hc, dryCoef, conic]

theorem drawn_facts (r : ℤ) (u : ℝ) (c : Bool) {q : Dist → ℕ → Except PyErr ℝ} (hq : ∀ x j, q (.const x) j = .ok x) {m : Aquifer ℝ}
    (h : DrawnModel { (wideInputs r u c).run with obs := risingObs } q m) : m.conductivity = 10 ∧ m.porosity = 1/4 ∧ m.thickness = 20 ∧ m.wells = [⟨1000, 1000, 1, 0⟩] := by
  refine ⟨(Except.ok.inj ((hq 10 _).symm.trans h.conductivity)).symm, (Except.ok.inj ((hq (1/4) _).symm.trans h.porosity)).symm, (Except.ok.inj ((hq 20 _).symm.trans h.thickness)).symm, ?_⟩
  obtain ⟨d, h1, h2⟩ := h.wells 0 ⟨1000, 1000, 1, .const 0⟩ rfl
  obtain rfl : 0 = d := Except.ok.inj ((hq 0 _).symm.trans h2)
  have h3 : m.wells.length = 1 := h.wells_length
  obtain ⟨w, hw⟩ := List.length_eq_one_iff.mp h3
  rw [hw] at h1 ⊢
  exact congrArg (fun w => [w]) (Option.some.inj h1)

theorem dry_ends {m : Aquifer ℝ} (hp : m.Physical) {x y : ℝ} (hoff : m.OffWells x y) (hdry : m.Dry x y) (D tol ms : XR) :
    ∃ tr, computeBacktrace (.fin x) (.fin y) D tol ms (fun _ => m.toX.reverseVelocity false) = some tr := by
  have hv : m.toX.reverseVelocity false (.fin x, .fin y) = .error .aquiferError := by
    rw [reverseVelocity_eq, backVelocity_toX m hp false hoff]
    unfold backVelocity
    simp only [(C33_velocity m hp x y).1 hdry]
    rfl
  unfold computeBacktrace
  simp only [hv]
  exact ⟨_, rfl⟩

theorem diluted_no_endless (t : DateTime) : ¬ EndlessRun (wideInputs 100 3 false) risingObs (dilutedEnv t).run ⟨1000, 1000, 1, .const 0⟩ := by
  unfold EndlessRun
  rw [if_pos (show 1 < (wideInputs 100 3 false).nrealizations from (by norm_num : (1:ℤ) < 100))]
  rintro ⟨i, -, m, ev, cov, c', h1, h2, h3, k, h4, h5⟩
  have h4' : (k : ℤ) < 4 := h4
  by_cases hi : i % 2 = 0
  · obtain ⟨ss, e⟩ := wide_traces 100 3 false (q := fun d j => d.sample ((dilutedEnv t).run.u i j)) (coefs := fun ev _ => .ok ev) (fun _ _ => rfl) (fun _ _ => rfl) h1 h2 (by
      have : (dilutedEnv t).run.mvn i ev cov = .ok ev := by
        show Except.ok (if i % 2 = 0 then ev else dryCoef) = _
        rw [if_pos hi]
      exact this.symm.trans h3) k (by omega)
    exact absurd (e.symm.trans h5) (by simp)
  · obtain ⟨f1, f2, f3, f4⟩ := drawn_facts 100 3 false (q := fun d j => d.sample ((dilutedEnv t).run.u i j)) (fun _ _ => rfl) h1
    obtain rfl : dryCoef = c' := by
      have : (dilutedEnv t).run.mvn i ev cov = .ok dryCoef := by
        show Except.ok (if i % 2 = 0 then ev else dryCoef) = _
        rw [if_neg hi]
      exact Except.ok.inj (this.symm.trans h3)
    obtain ⟨hp, hoff, hdry⟩ := dry_model (m := { m with xo := 1000, yo := 1000, coef := dryCoef }) f1 f2 f3 f4 rfl k
    have hs : _ = ((wideStart k).1, (wideStart k).2) := wide_start k (by omega)
    obtain ⟨tr, e⟩ := dry_ends (m := { m with xo := 1000, yo := 1000, coef := dryCoef }) hp hoff hdry (.fin (1/10)) (.fin 1) (.fin 10)
    have h6 : computeBacktrace (.fin (1000 + (1 + 1) * Real.cos (2 * Real.pi * k / (4:ℤ)))) (.fin (1000 + (1 + 1) * Real.sin (2 * Real.pi * k / (4:ℤ)))) (.fin (1/10)) (.fin 1) (.fin 10)
      (fun _ => ({ m with xo := 1000, yo := 1000, coef := dryCoef } : Aquifer ℝ).toX.reverseVelocity false) = none := h5
    rw [(Prod.mk.inj hs).1, (Prod.mk.inj hs).2, e] at h6
    simp at h6

theorem diluted_returns (t : DateTime) : (oneka (wideCall 100 3 false) (dilutedEnv t)).ending = .returns .none :=
  C70_returns (env := dilutedEnv t) (wide_acceptable 100 (u := 3) three_pos false) (wide_denotes 100 3 false) (wide_regular 100 3 false)
    (fun _ => ⟨wide_spread 100 3 false, fun _ j => by simp only [dilutedEnv, wideEnv, exampleEnv]; norm_num⟩) perfect_correct
    perfect_converges risingObs 0 _ (wide_retained 100 3 false) rfl rfl (by simp [risingObs])
    (fun o ho => by
      obtain ⟨h1, -, h2, -, h3, -⟩ := risingObs_cases ho
      show (0:ℝ) < o.z
      linarith) risingObs_general
    (fun _ _ ev _ => ⟨_, rfl⟩) (diluted_no_endless t) rfl rfl

/-- **C133: dry realizations dilute the result.** A call for 100 realizations in an unconfined aquifer that is accepted and returns. In every other realization the aquifer is dry around the well, nothing can be traced and nothing is captured;
nevertheless these realizations are counted, so that no place, not even the well, is captured with a probability above 1/2. -/
theorem C133_diluted (t : DateTime) (fs : Files) : (oneka (wideCall 100 3 false) (dilutedEnv t)).ending = .returns .none ∧
    (∀ (i : ℕ) (L : RealizationLog), (realizations (oneka (wideCall 100 3 false) (dilutedEnv t)).events)[i]? = some L →
      (i % 2 = 0 → L.Captures 3 1000 1000) ∧ (i % 2 = 1 → (∀ k < 4, L.model.Dry (wideStart k).1 (wideStart k).2) ∧ ∀ u X Y, ¬ L.Captures u X Y)) ∧
    ∃ (d : Dict) (f : PField ℝ), loadOneka ((oneka (wideCall 100 3 false) (dilutedEnv t)).events.foldl Effect.apply fs) t.archiveName = .ok d ∧ d.get "pfield" = some (.field (.field f)) ∧
      f.probAt 1000 1000 = 1/2 ∧ ∀ X Y, f.probAt X Y ≤ 1/2 := by
  classical
  obtain ⟨d, f, k, w, h1, h2, h3, h4, htot, hle, heq, hmax⟩ := C133_archived (wideCall 100 3 false) (wideInputs 100 3 false) (dilutedEnv t) _ (wide_denotes 100 3 false) (diluted_returns t) fs
  obtain ⟨-, -, obs, k', w', -, -, h5, -, h6, h7, h8, hR, -⟩ := C68_stochastic (wideCall 100 3 false) (wideInputs 100 3 false) (dilutedEnv t) _ (wide_denotes 100 3 false) (by show (1:ℤ) < 100; norm_num) (diluted_returns t) fs
  obtain rfl : obs = risingObs := Except.ok.inj (h5.symm.trans (wide_retained 100 3 false))
  obtain rfl : k = 0 := by
    have : ((0:ℕ):ℤ) = (k:ℤ) := h3
    omega
  obtain rfl : k' = 0 := by
    have : ((0:ℕ):ℤ) = (k':ℤ) := h6
    omega
  obtain rfl : (⟨1000, 1000, 1, .const 0⟩ : SWell) = w := Option.some.inj h4
  obtain rfl : (⟨1000, 1000, 1, .const 0⟩ : SWell) = w' := Option.some.inj h7
  have hl : (realizations (oneka (wideCall 100 3 false) (dilutedEnv t)).events).length = 2 * 50 := by
    have : ((realizations (oneka (wideCall 100 3 false) (dilutedEnv t)).events).length : ℤ) = 100 := h8
    omega
  have hstart : ∀ k < 4, SWell.start ⟨1000, 1000, 1, .const 0⟩ (wideInputs 100 3 false).run.npaths k = wideStart k := fun k hk => wide_start k hk
  have even : ∀ (i : ℕ) (L : RealizationLog), (realizations (oneka (wideCall 100 3 false) (dilutedEnv t)).events)[i]? = some L → i % 2 = 0 → L.Captures 3 1000 1000 := by
    intro i L hL hi
    have R := hR i L hL
    have hcoef : (fun (ev : Fin 6 → ℝ) (_ : Matrix (Fin 6) (Fin 6) ℝ) => (.ok ev : Except PyErr (Fin 6 → ℝ))) L.ev L.cov = .ok L.model.coef := by
      have : (dilutedEnv t).run.mvn i L.ev L.cov = .ok L.ev := by
        show Except.ok (if i % 2 = 0 then L.ev else dryCoef) = _
        rw [if_pos hi]
      exact this.symm.trans R.coef
    have R' : Realized { (wideInputs 100 3 false).run with obs := risingObs } (wideEnv t).run.la ⟨1000, 1000, 1, .const 0⟩ (fun d _ => d.mean) (fun ev _ => .ok ev) ((wideEnv t).run.interrupt 0) L :=
      ⟨R.base, R.wells_length, fun j w hj => by
        obtain ⟨d, e1, e2⟩ := R.wells j w hj
        have hj' : [(⟨1000, 1000, 1, .const 0⟩ : SWell)][j]? = some w := hj
        rcases j with _ | j
        · obtain rfl := Option.some.inj hj'
          exact ⟨d, e1, e2⟩
        · simp at hj', R.conductivity, R.porosity, R.thickness, R.origin, R.fit, hcoef, R.traces_length, R.traces⟩
    have hp := wide_paths 100 3 false t R'
    rw [captures_paths, hp]
    exact ⟨_, List.mem_cons_self .., (1002, 1000), (1003, 1001), List.infix_rfl, by norm_num, 0, le_rfl, zero_le_one, by norm_num⟩
  have odd : ∀ (i : ℕ) (L : RealizationLog), (realizations (oneka (wideCall 100 3 false) (dilutedEnv t)).events)[i]? = some L → i % 2 = 1 →
      (∀ k < 4, L.model.Dry (wideStart k).1 (wideStart k).2) ∧ ¬ L.Moves ∧ ∀ u X Y, ¬ L.Captures u X Y := by
    intro i L hL hi
    have R := hR i L hL
    have hcoef : L.model.coef = dryCoef := by
      have : (dilutedEnv t).run.mvn i L.ev L.cov = .ok dryCoef := by
        show Except.ok (if i % 2 = 0 then L.ev else dryCoef) = _
        rw [if_neg (by omega)]
      exact Except.ok.inj (R.coef.symm.trans this)
    have hW : L.model.wells = [⟨1000, 1000, 1, 0⟩] := by
      obtain ⟨d, e1, e2⟩ := R.wells 0 ⟨1000, 1000, 1, .const 0⟩ rfl
      obtain rfl : 0 = d := Except.ok.inj e2
      have e3 : L.model.wells.length = 1 := R.wells_length
      obtain ⟨w, hw⟩ := List.length_eq_one_iff.mp e3
      rw [hw] at e1 ⊢
      exact congrArg (fun w => [w]) (Option.some.inj e1)
    have key := dry_model (m := L.model) (Except.ok.inj R.conductivity).symm (Except.ok.inj R.porosity).symm (Except.ok.inj R.thickness).symm hW hcoef
    refine ⟨fun k _ => (key k).2.2, (C133_dry R rfl (key 0).1).2 fun k hk => ?_⟩
    have hk' : (k:ℤ) < 4 := hk
    have e := hstart k (by omega)
    have := (key k).2
    rw [← e] at this
    exact this
  have hcount : ((realizations (oneka (wideCall 100 3 false) (dilutedEnv t)).events).countP fun L => L.Moves) = 50 := by
    rw [countP_range (realizations (oneka (wideCall 100 3 false) (dilutedEnv t)).events) fun L => L.Moves, hl]
    refine Eq.trans ?_ (range_even 50).1
    refine List.countP_congr fun i hi => ?_
    rw [List.mem_range] at hi
    obtain ⟨L, hL⟩ : ∃ L, (realizations (oneka (wideCall 100 3 false) (dilutedEnv t)).events)[i]? = some L := ⟨_, List.getElem?_eq_getElem (by omega)⟩
    simp only [decide_eq_true_eq]
    constructor
    · rintro ⟨L', hL', hm⟩
      obtain rfl := Option.some.inj (hL.symm.trans hL')
      by_contra hn
      exact (odd i L hL (by omega)).2.1 hm
    · intro hi2
      obtain ⟨tr, htr, hn⟩ := even i L hL hi2
      exact ⟨L, hL, tr, htr, near_moves hn⟩
  have htot' : f.total = 100 := by
    rw [htot]
    show ((max 1 (100:ℤ) : ℤ) : ℝ) = 100
    norm_num
  have hwell : f.weightAt 1000 1000 = 50 := by
    have := heq (by show (1:ℝ) + 1 < 3; norm_num) 0 0 (by simp) (by simp) (by show (((0:ℤ):ℝ) ^ 2 + ((0:ℤ):ℝ) ^ 2) * 1 ^ 2 < ((3:ℝ) - (1 + 1)) ^ 2; norm_num)
    rw [hcount] at this
    simpa using this
  refine ⟨diluted_returns t, fun i L hL => ⟨even i L hL, fun hi => ⟨(odd i L hL hi).1, (odd i L hL hi).2.2⟩⟩, d, f, h1, h2, ?_, fun X Y => ?_⟩
  · rw [PField.probAt, hwell, htot']
    norm_num
  · rw [PField.probAt, htot', div_le_iff₀ (by norm_num)]
    have := hle X Y
    rw [hcount] at this
    push_cast at this
    linarith

end Oneka
