import Verif.Props.Target
import Verif.Props.Idle
import Verif.Props.Examples

/-!
# Examples for C138

A call with two pumping wells, about the first or the second one.
-/

namespace Oneka

open Aquifer

/-- a call for `r` realizations about well number `k` of two -/
noncomputable def pairCall (r k : ℤ) : PyArgs :=
  { exampleCall r with
    target := .int k, wells := .list [.tuple [fl 1000, fl 1000, fl 0.25, .tuple [fl 500, fl 1000]], .tuple [fl 5000, fl 5000, fl 1, .tuple [fl 100, fl 200]]] }

/-- the numbers in it -/
noncomputable def pairInputs (r k : ℤ) : Inputs :=
  { exampleInputs r with run := { (exampleInputs r).run with target := k, wells := [⟨1000, 1000, 0.25, .tuple [500, 1000]⟩, ⟨5000, 5000, 1, .tuple [100, 200]⟩] } }

theorem pair_acceptable (r : ℤ) {k : ℤ} (h0 : 0 ≤ k) (h2 : k < 2) : Acceptable (pairCall r k) := by
  have h := exampleCall_acceptable r
  refine ⟨h.1, h.2, ?_, h.4, h.5, h.6, h.7, h.8, h.9, h.10, h.11, h.12, h.13, h.14, h.15, h.16, h.17⟩
  refine ⟨_, rfl, ?_, k, .inl rfl, h0, by simpa using h2⟩
  intro w hw
  rcases List.mem_cons.mp hw with rfl | hw
  · refine ⟨_, _, _, _, .inl rfl, ⟨_, rfl, trivial⟩, ⟨_, rfl, trivial⟩, ⟨_, rfl, fin_pos (by norm_num)⟩, .inr (.inl ⟨_, _, _, _, .inl rfl, rfl, rfl, trivial, ?_, trivial⟩)⟩
    show (500:ℝ) ≤ 1000
    norm_num
  · obtain rfl := List.mem_singleton.mp hw
    refine ⟨_, _, _, _, .inl rfl, ⟨_, rfl, trivial⟩, ⟨_, rfl, trivial⟩, ⟨_, rfl, fin_pos (by norm_num)⟩, .inr (.inl ⟨_, _, _, _, .inl rfl, rfl, rfl, trivial, ?_, trivial⟩)⟩
    show (100:ℝ) ≤ 200
    norm_num

theorem pair_denotes (r k : ℤ) : (pairCall r k).Denotes (pairInputs r k) := by
  have h := exampleCall_denotes r
  exact ⟨.inl rfl, h.2, h.3, h.4, h.5, h.6, h.7, h.8, ⟨_, rfl, .cons ⟨_, _, _, _, .inl rfl, fl_isReal _, fl_isReal _, fl_isReal _, ⟨_, rfl, .cons (fl_isReal _) (.cons (fl_isReal _) .nil)⟩⟩
    (.cons ⟨_, _, _, _, .inl rfl, fl_isReal _, fl_isReal _, fl_isReal _, ⟨_, rfl, .cons (fl_isReal _) (.cons (fl_isReal _) .nil)⟩⟩ .nil)⟩, h.10, h.11, h.12, h.13, h.14, h.15, h.16, h.17⟩

theorem pair_spread (r k : ℤ) : (pairInputs r k).Spread := by
  have h := exampleInputs_spread r
  refine ⟨h.1, h.2.1, h.2.2.1, fun w hw => ?_⟩
  rintro ⟨x, m, e⟩
  rcases List.mem_cons.mp hw with rfl | hw
  · simp at e
  · obtain rfl := List.mem_singleton.mp hw
    simp at e

theorem pair_retained (r k : ℤ) : filterObs (pairInputs r k).run.obs ((pairInputs r k).run.wells.map fun w => (w.xw, w.yw)) (pairInputs r k).buffer = .ok sevenObs := by
  refine (C137_filter sevenObs [(1000, 1000)] 100 5000 5000 fun o ho => ?_).trans (example_retained r)
  rw [Obs.dist, Real.lt_sqrt (by norm_num)]
  simp only [sevenObs, sixObs, List.cons_append, List.nil_append, List.mem_cons, List.not_mem_nil, or_false] at ho
  rcases ho with rfl | rfl | rfl | rfl | rfl | rfl | rfl <;> norm_num

theorem pair_returns (r : ℤ) {k : ℕ} (h2 : k < 2) (N : ℕ) (t : DateTime) : (oneka (pairCall r k) (exampleCallEnv N t)).ending = .returns .none := by
  obtain ⟨w, hw⟩ : ∃ w, (pairInputs r k).run.wells[k]? = some w := ⟨_, List.getElem?_eq_getElem (by simpa [pairInputs] using h2)⟩
  exact C70_returns (env := exampleCallEnv N t) (pair_acceptable r (by omega) (by omega)) (pair_denotes r k) (exampleInputs_regular r) (fun h => ⟨pair_spread r k, (example_draws r N t h).2⟩) perfect_correct
    perfect_converges sevenObs k w (pair_retained r k) rfl hw (by simp [sevenObs, sixObs]) (fun o ho => (sevenObs_usable o ho).1) sevenObs_general
    (fun _ _ ev _ => ⟨ev, rfl⟩) (example_no_endless _ N _) rfl rfl

/-- C138: 100 realizations about either well, all with the same parameters. -/
example (N : ℕ) (t : DateTime) : ∀ (i : ℕ) (L L' : RealizationLog), (realizations (oneka (pairCall 100 0) (exampleCallEnv N t)).events)[i]? = some L →
    (realizations (oneka (pairCall 100 1) (exampleCallEnv N t)).events)[i]? = some L' → L.model.SameAquifer L'.model := by
  obtain ⟨_, _, _, _, -, -, -, -, -, h⟩ := C138_call (pairCall 100 0) (pairCall 100 1) (pairInputs 100 0) 1 (exampleCallEnv N t) (exampleCallEnv N t) _ _ (pair_denotes 100 0) (pair_denotes 100 1)
    (pair_returns 100 (k := 0) (by norm_num) N t) (pair_returns 100 (k := 1) (by norm_num) N t) rfl
  exact fun i L L' hL hL' => (h i L L' hL hL').1

/-- C138: 100 realizations about either well, all with the same expected potential at the origin, and with the same variance. -/
example (N : ℕ) (t : DateTime) : ∀ (i : ℕ) (L L' : RealizationLog), (realizations (oneka (pairCall 100 0) (exampleCallEnv N t)).events)[i]? = some L →
    (realizations (oneka (pairCall 100 1) (exampleCallEnv N t)).events)[i]? = some L' →
    L'.model.surface L'.model.xo L'.model.yo L'.ev (0, 0) = L.model.surface L.model.xo L.model.yo L.ev (0, 0) ∧
    surfaceCov L'.model.xo L'.model.yo L'.cov (0, 0) (0, 0) = surfaceCov L.model.xo L.model.yo L.cov (0, 0) (0, 0) := by
  intro i L L' hL hL'
  obtain ⟨h1, h2⟩ := (C138_flow (pairCall 100 0) (pairCall 100 1) (pairInputs 100 0) 1 (exampleCallEnv N t) (exampleCallEnv N t) _ _ (pair_denotes 100 0) (pair_denotes 100 1)
    (pair_returns 100 (k := 0) (by norm_num) N t) (pair_returns 100 (k := 1) (by norm_num) N t) rfl (exampleInputs_regular 100) (fun h => ⟨pair_spread 100 0, (example_draws 100 N t h).2⟩) perfect_correct perfect_correct
    i L L' hL hL').1 (0, 0)
  exact ⟨h1, h2 (0, 0)⟩

/-- C138: one realization about either well; the same directions lead upstream. -/
example (N : ℕ) (t : DateTime) : ∃ L L' : RealizationLog, realizations (oneka (pairCall 1 0) (exampleCallEnv N t)).events = [L] ∧ realizations (oneka (pairCall 1 1) (exampleCallEnv N t)).events = [L'] ∧
    ∀ f, L.model.Upstream true f → ∀ tr, L'.traces[0]? = some tr → ∃ path, tr.vertices = ((5002, 5000) :: path.map Prod.snd).map floats ∧ DPPath f 1 10 (5002, 5000) path := by
  obtain ⟨k, j, w, w', L, L', -, -, h3, h4, h5, h6, h7⟩ := C138_traces (pairCall 1 0) (pairCall 1 1) (pairInputs 1 0) 1 (exampleCallEnv N t) (exampleCallEnv N t) _ _ (pair_denotes 1 0) (pair_denotes 1 1)
    (pair_returns 1 (k := 0) (by norm_num) N t) (pair_returns 1 (k := 1) (by norm_num) N t) rfl (exampleInputs_regular 1) (exampleInputs_porous 1) (by simp [pairInputs, exampleInputs]) perfect_correct perfect_correct
    3650 1 10 rfl rfl rfl
  refine ⟨L, L', h5, h6, fun f hf tr htr => ?_⟩
  obtain rfl : j = 1 := by exact_mod_cast h3.symm
  obtain rfl : w' = ⟨5000, 5000, 1, .tuple [100, 200]⟩ := (Option.some.inj h4).symm
  obtain ⟨start, path, p1, p2, p3⟩ := h7 f hf _ _ (.inr ⟨rfl, rfl⟩) 0 tr htr
  have e : start = (5002, 5000) := by
    rw [p1]
    simp
    norm_num
  rw [e] at p2 p3
  exact ⟨path, p2, p3⟩

end Oneka
