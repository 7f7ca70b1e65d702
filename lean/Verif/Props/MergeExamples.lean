import Verif.Props.Merge
import Verif.Props.IdleExamples
import Verif.Lemmas.FlVariate

/-!
# Examples for C141

The call of Examples.lean, with one well; and the same call with two wells at the place of that well, with half the discharge each.
-/

namespace Oneka

open Aquifer

/-- the call with two wells instead of one -/
noncomputable def twinCall (r : ℤ) : PyArgs :=
  { exampleCall r with wells := .list [.tuple [fl 1000, fl 1000, fl 0.25, .tuple [fl 250, fl 500]], .tuple [fl 1000, fl 1000, fl 1, .tuple [fl 250, fl 500]]] }

/-- the numbers in it -/
noncomputable def twinInputs (r : ℤ) : Inputs :=
  { exampleInputs r with run := { (exampleInputs r).run with wells := [⟨1000, 1000, 0.25, .tuple [250, 500]⟩, ⟨1000, 1000, 1, .tuple [250, 500]⟩] } }

theorem twin_acceptable (r : ℤ) : Acceptable (twinCall r) := by
  have h := exampleCall_acceptable r
  refine ⟨h.1, h.2, ?_, h.4, h.5, h.6, h.7, h.8, h.9, h.10, h.11, h.12, h.13, h.14, h.15, h.16, h.17⟩
  refine ⟨_, rfl, ?_, 0, .inl rfl, le_rfl, by simp⟩
  intro w hw
  rcases List.mem_cons.mp hw with rfl | hw
  · refine ⟨_, _, _, _, .inl rfl, ⟨_, rfl, trivial⟩, ⟨_, rfl, trivial⟩, ⟨_, rfl, fin_pos (by norm_num)⟩, .inr (.inl ⟨_, _, _, _, .inl rfl, rfl, rfl, trivial, ?_, trivial⟩)⟩
    show (250:ℝ) ≤ 500
    norm_num
  · obtain rfl := List.mem_singleton.mp hw
    refine ⟨_, _, _, _, .inl rfl, ⟨_, rfl, trivial⟩, ⟨_, rfl, trivial⟩, ⟨_, rfl, fin_pos (by norm_num)⟩, .inr (.inl ⟨_, _, _, _, .inl rfl, rfl, rfl, trivial, ?_, trivial⟩)⟩
    show (250:ℝ) ≤ 500
    norm_num

theorem twin_denotes (r : ℤ) : (twinCall r).Denotes (twinInputs r) := by
  have h := exampleCall_denotes r
  exact ⟨h.1, h.2, h.3, h.4, h.5, h.6, h.7, h.8, ⟨_, rfl, .cons ⟨_, _, _, _, .inl rfl, fl_isReal _, fl_isReal _, fl_isReal _, ⟨_, rfl, .cons (fl_isReal _) (.cons (fl_isReal _) .nil)⟩⟩
    (.cons ⟨_, _, _, _, .inl rfl, fl_isReal _, fl_isReal _, fl_isReal _, ⟨_, rfl, .cons (fl_isReal _) (.cons (fl_isReal _) .nil)⟩⟩ .nil)⟩, h.10, h.11, h.12, h.13, h.14, h.15, h.16, h.17⟩

theorem twin_spread (r : ℤ) : (twinInputs r).Spread := by
  have h := exampleInputs_spread r
  refine ⟨h.1, h.2.1, h.2.2.1, fun w hw => ?_⟩
  rintro ⟨x, m, e⟩
  rcases List.mem_cons.mp hw with rfl | hw
  · simp at e
  · obtain rfl := List.mem_singleton.mp hw
    simp at e

/-- the two calls differ only in the wells -/
theorem twin_same (r : ℤ) : (exampleInputs r).SameButWells (twinInputs r) where
  nrealizations := rfl
  run := rfl
  retained := C141_filter _ _ _ _ fun p => by simp [twinInputs, exampleInputs]
  target k k' t t' h1 h2 h3 h4 := by
    obtain rfl : k = 0 := by simpa [exampleInputs] using h1.symm
    obtain rfl : k' = 0 := by simpa [twinInputs, exampleInputs] using h3.symm
    obtain rfl := Option.some.inj h2
    obtain rfl := Option.some.inj h4
    exact ⟨rfl, rfl, rfl⟩

theorem twin_returns (r : ℤ) (N : ℕ) (t : DateTime) : (oneka (twinCall r) (exampleCallEnv N t)).ending = .returns .none :=
  C70_returns (env := exampleCallEnv N t) (twin_acceptable r) (twin_denotes r) (exampleInputs_regular r) (fun h => ⟨twin_spread r, (example_draws r N t h).2⟩) perfect_correct
    perfect_converges sevenObs 0 ⟨1000, 1000, 0.25, .tuple [250, 500]⟩ ((twin_same r).retained.trans (example_retained r)) rfl rfl (by simp [sevenObs, sixObs]) (fun o ho => (sevenObs_usable o ho).1) sevenObs_general
    (fun _ _ ev _ => ⟨ev, rfl⟩) (example_no_endless _ N _) rfl rfl

/-- two wells with half the discharge each -/
theorem twin_pumping (q : ℝ) : SamePumping [⟨1000, 1000, 0.25, q + q⟩] [⟨1000, 1000, 0.25, q⟩, ⟨1000, 1000, 1, q⟩] := by
  classical
  intro x y
  unfold pumpedAt
  by_cases h : ((1000:ℝ), (1000:ℝ)) = (x, y)
  · obtain ⟨rfl, rfl⟩ := Prod.mk.inj h
    simp
  · have h' : ¬ ((1000:ℝ) = x ∧ (1000:ℝ) = y) := fun e => h (Prod.ext e.1 e.2)
    simp [List.filter_cons, h']

/-- in all realizations the same water -/
theorem twin_water (N : ℕ) (t : DateTime) (i : ℕ) (L L' : RealizationLog) (hL : (realizations (oneka (exampleCall 100) (exampleCallEnv N t)).events)[i]? = some L)
    (hL' : (realizations (oneka (twinCall 100) (exampleCallEnv N t)).events)[i]? = some L') : L.SameWater L' := by
  obtain ⟨-, -, obs, k, w, -, -, -, -, -, -, -, h7, -⟩ := C68_stochastic (exampleCall 100) (exampleInputs 100) (exampleCallEnv N t) _ (exampleCall_denotes 100) (by simp [exampleInputs]) (example_returns 100 N t) (fun _ => none)
  obtain ⟨-, -, obs', k', w', -, -, -, -, -, -, -, i7, -⟩ := C68_stochastic (twinCall 100) (twinInputs 100) (exampleCallEnv N t) _ (twin_denotes 100) (by simp [twinInputs, exampleInputs]) (twin_returns 100 N t) (fun _ => none)
  have R := h7 i L hL
  have R' := i7 i L' hL'
  refine ⟨Except.ok.inj (R'.conductivity.symm.trans R.conductivity), Except.ok.inj (R'.porosity.symm.trans R.porosity), Except.ok.inj (R'.thickness.symm.trans R.thickness), ?_⟩
  obtain ⟨d, d1, d2⟩ := R.wells 0 _ rfl
  obtain ⟨e, e1, e2⟩ := R'.wells 0 _ rfl
  obtain ⟨f, f1, f2⟩ := R'.wells 1 _ rfl
  obtain rfl : e = f := Except.ok.inj (e2.symm.trans f2)
  have hd : d = e + e := by
    have d3 := Except.ok.inj ((exact_pair _ _ _).symm.trans d2)
    have e3 := Except.ok.inj ((exact_pair _ _ _).symm.trans e2)
    rw [← d3, ← e3]
    simp only [exampleCallEnv, exampleEnv]
    norm_num
  have hw : L.model.wells = [⟨1000, 1000, 0.25, d⟩] := by
    obtain ⟨a, ha⟩ := List.length_eq_one_iff.mp R.wells_length
    rw [ha] at d1 ⊢
    rw [Option.some.inj d1]
  have hw' : L'.model.wells = [⟨1000, 1000, 0.25, e⟩, ⟨1000, 1000, 1, e⟩] := by
    obtain ⟨a, b, hab⟩ := List.length_eq_two.mp R'.wells_length
    rw [hab] at e1 f1 ⊢
    rw [Option.some.inj e1, show b = _ from Option.some.inj f1]
  rw [hw, hw', hd]
  exact twin_pumping e

/-- C141: 100 realizations with one well or with two wells at its place: the same regional flow in all of them, and the same expected values. -/
example (N : ℕ) (t : DateTime) (i : ℕ) (L L' : RealizationLog) (hL : (realizations (oneka (exampleCall 100) (exampleCallEnv N t)).events)[i]? = some L)
    (hL' : (realizations (oneka (twinCall 100) (exampleCallEnv N t)).events)[i]? = some L') : L'.model.coef = L.model.coef ∧ L'.ev = L.ev := by
  obtain ⟨_, _, _, _, _, _, -, -, -, -, -, -, -, h, -⟩ := C141_call (exampleCall 100) (twinCall 100) (exampleInputs 100) (twinInputs 100) (exampleCallEnv N t) (exampleCallEnv N t) _ _ (exampleCall_denotes 100) (twin_denotes 100)
    (example_returns 100 N t) (twin_returns 100 N t) (twin_same 100) rfl rfl rfl (twin_water N t) (fun _ => none)
  obtain ⟨h1, h2, -⟩ := h i L L' hL hL'
  exact ⟨(congrArg Aquifer.coef h1).trans rfl, h2⟩

theorem spared_pumping : SamePumping [⟨1000, 1000, 1/4, 0⟩] [⟨1000, 1000, 1/4, 0⟩, ⟨5000, 5000, 1, 0⟩] := by
  classical
  intro x y
  unfold pumpedAt
  simp only [List.filter_cons, List.filter_nil]
  split_ifs <;> simp

/-- C141: the calls of IdleExamples.lean meet all hypotheses, and archive the same field. -/
example (t : DateTime) (fs : Files) : ∃ (d d' : Dict) (f f' : PField ℝ),
    loadOneka ((oneka (deepCall true) (deepEnv t)).events.foldl Effect.apply fs) (deepEnv t).now.archiveName = .ok d ∧ d.get "pfield" = some (.field (.field f)) ∧
    loadOneka ((oneka sparedCall (sparedEnv t)).events.foldl Effect.apply fs) (sparedEnv t).now.archiveName = .ok d' ∧ d'.get "pfield" = some (.field (.field f')) ∧
    ∀ X Y, (f'.IsNode X Y ↔ f.IsNode X Y) ∧ (f.IsNode X Y → f'.weightAt X Y = f.weightAt X Y) := by
  obtain ⟨-, -, obs, k, w, -, -, -, -, i3, i4, -, i6, -⟩ := C68_stochastic (deepCall true) (deepInputs true) (deepEnv t) _ (deep_denotes true) (by simp [deepInputs, twoWaysInputs, exampleInputs]) (deep_returns true t) fs
  obtain ⟨-, -, obs', k', w', -, -, -, -, j3, j4, -, j6, -⟩ := C68_stochastic sparedCall sparedInputs (sparedEnv t) _ spared_denotes (by simp [sparedInputs, Inputs.withIdle, deepInputs, twoWaysInputs, exampleInputs]) (spared_returns t) fs
  obtain rfl : k = 0 := by simpa [deepInputs, twoWaysInputs, exampleInputs] using i3.symm
  obtain rfl : k' = 0 := by simpa [sparedInputs, Inputs.withIdle, deepInputs, twoWaysInputs, exampleInputs] using j3.symm
  obtain rfl : w = ⟨1000, 1000, 1/4, .const 0⟩ := (Option.some.inj i4).symm
  obtain rfl : w' = ⟨1000, 1000, 1/4, .const 0⟩ := (Option.some.inj j4).symm
  have hdeep : ∀ (i : ℕ) (L : RealizationLog), (realizations (oneka (deepCall true) (deepEnv t)).events)[i]? = some L → DeepModel L.model := by
    intro i L hL
    have R := i6 i L hL
    exact deep_model R.wells_length (R.wells 0 _ rfl) R.conductivity R.porosity R.thickness R.origin.1 R.origin.2 (Except.ok.inj R.coef).symm
  have hspared : ∀ (i : ℕ) (L : RealizationLog), (realizations (oneka sparedCall (sparedEnv t)).events)[i]? = some L → ∃ m0, DeepModel m0 ∧ L.model = m0.withIdle 5000 5000 1 := by
    intro i L hL
    have R := j6 i L hL
    exact spared_model R.wells_length (R.wells 0 _ rfl) (R.wells 1 _ rfl) R.conductivity R.porosity R.thickness R.origin.1 R.origin.2 (Except.ok.inj R.coef).symm
  have hs : (deepInputs true).SameButWells sparedInputs :=
    { nrealizations := rfl
      run := rfl
      retained := spared_retained.trans (example_retained 100).symm
      target := fun k k' t t' h1 h2 h3 h4 => by
        obtain rfl : k = 0 := by simpa [deepInputs, twoWaysInputs, exampleInputs] using h1.symm
        obtain rfl : k' = 0 := by simpa [sparedInputs, Inputs.withIdle, deepInputs, twoWaysInputs, exampleInputs] using h3.symm
        obtain rfl := Option.some.inj h2
        obtain rfl := Option.some.inj h4
        exact ⟨rfl, rfl, rfl⟩ }
  have hw : ∀ (i : ℕ) (L L' : RealizationLog), (realizations (oneka (deepCall true) (deepEnv t)).events)[i]? = some L → (realizations (oneka sparedCall (sparedEnv t)).events)[i]? = some L' → L.SameWater L' := by
    intro i L L' hL hL'
    have F := hdeep i L hL
    obtain ⟨m0, F', e⟩ := hspared i L' hL'
    refine ⟨?_, ?_, ?_, ?_⟩
    · rw [e, F.conductivity]
      exact F'.conductivity
    · rw [e, F.porosity]
      exact F'.porosity
    · rw [e, F.thickness]
      exact F'.thickness
    · rw [e, F.wells, withIdle, F'.wells]
      exact spared_pumping
  obtain ⟨d, d', f, f', k, w, h1, h2, h3, h4, h5, h6, -, -, h7⟩ := C141_call (deepCall true) sparedCall (deepInputs true) sparedInputs (deepEnv t) (sparedEnv t) _ _ (deep_denotes true) spared_denotes (deep_returns true t) (spared_returns t)
    hs rfl rfl rfl hw fs
  refine ⟨d, d', f, f', h1, h2, h3, h4, h7 fun i L L' hL hL' j hj => ?_⟩
  obtain rfl : k = 0 := by simpa [deepInputs, twoWaysInputs, exampleInputs] using h5.symm
  obtain rfl : w = ⟨1000, 1000, 1/4, .const 0⟩ := (Option.some.inj h6).symm
  have F := hdeep i L hL
  obtain ⟨m0, F', e⟩ := hspared i L' hL'
  obtain rfl : j = 0 := by
    have : (j:ℤ) < 1 := hj
    omega
  obtain ⟨r, hr, hw⟩ := F.traced (g := L.model.awayOnly true (L.model.wells ++ L'.model.wells) ((deepEnv t).run.interrupt i 0)) fun n x hx => if_pos ⟨(x, 1000), rfl, fun w hw e' => by
    rw [e, withIdle, F.wells, F'.wells] at hw
    simp only [List.cons_append, List.nil_append, List.mem_cons, List.not_mem_nil, or_false] at hw
    have e1 := (Prod.mk.inj e').1
    have e2 := (Prod.mk.inj e').2
    rcases hw with rfl | rfl | rfl
    · simp only at e1
      linarith
    · simp only at e1
      linarith
    · norm_num at e2⟩
  exact ⟨r, hr, hw⟩

/-- C141: one well or two. -/
example (m : Aquifer ℝ) (q : ℝ) (h : m.wells = [⟨1000, 1000, 0.25, q + q⟩]) : (m.withWells [⟨1000, 1000, 0.25, q⟩, ⟨1000, 1000, 1, q⟩]).toX.head (.fin 0) (.fin 0) = m.toX.head (.fin 0) (.fin 0) :=
  ((C141_model m _ (h ▸ twin_pumping q)).1 0 0 fun w hw => by
    rw [h] at hw
    simp only [List.cons_append, List.nil_append, List.mem_cons, List.not_mem_nil, or_false] at hw
    rcases hw with rfl | rfl | rfl <;> simp).2.2.1

/-- C141: one cubic metre more or less makes a difference somewhere. -/
example (m : Aquifer ℝ) (h : m.wells = [⟨1000, 1000, 0.25, 500⟩]) :
    ¬ ∀ X Y : ℝ, (∀ w ∈ m.wells ++ [⟨1000, 1000, 0.25, 501⟩], (X, Y) ≠ (w.xw, w.yw)) → (m.withWells [⟨1000, 1000, 0.25, 501⟩]).toX.potential (.fin X) (.fin Y) = m.toX.potential (.fin X) (.fin Y) := by
  intro hall
  have := C141_only m _ hall 1000 1000
  rw [h] at this
  simp [pumpedAt] at this

end Oneka
