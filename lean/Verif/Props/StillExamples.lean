import Verif.Props.Still
import Verif.Props.ArrivalExamples
import Mathlib.Analysis.Complex.ExponentialBounds

/-!
# Examples for C145
-/

namespace Oneka

open Aquifer Set

/-! ## Single models -/

theorem strong_rest : strongModel.AtRest ⟨0, 0, 2, 100⟩ := ⟨rfl, fun _ _ => rfl⟩

/-- The path of `ArrivalExamples.lean` meets the hypotheses of `C145_paths`. -/
example : ∃ c : ℝ, |2 * Real.pi * c - 1| < 1 / 10 ^ 16 ∧ strongPath 0 = spoke ⟨0, 0, 2, 100⟩ (100 * c / (1/4 * 20)) (strongPath 1) 1 := by
  obtain ⟨c, hc, hall⟩ := C145_paths strong_physical strong_rest
  exact ⟨c, hc, hall _ _ zero_le_one strong_carries⟩

/-- `C145_delivers`: within twenty days this well gets the water from 10 m, in one day it does not get it (`C145_radius`). -/
example : strongModel.Delivers true 20 1 10 0 (SWell.start ⟨0, 0, 2, .const 100⟩ 1 0) ∧ ¬ strongModel.Delivers true 1 1 10 0 (SWell.start ⟨0, 0, 2, .const 100⟩ 1 0) := by
  have hp3 := Real.pi_gt_three
  have hp4 := Real.pi_lt_d2
  have hst : SWell.start ⟨0, 0, 2, .const 100⟩ 1 0 = (3, 0) := by
    simp [SWell.start]
    norm_num
  constructor
  · obtain ⟨c, hc, hall⟩ := C145_delivers strong_physical strong_rest (by norm_num)
    rw [hst, hall _ _ _ _ _ (by simp)]
    have hc0 := close_pos hc
    obtain ⟨c1, c2⟩ := abs_lt.mp hc
    have hcc : 1/7 ≤ c := by nlinarith
    -- the time at which the squared distance is 100
    refine ⟨91 / (40 * c), by positivity, ?_, ?_⟩
    · rw [div_le_iff₀ (by positivity)]
      linarith
    · have e : spoke ⟨0, 0, 2, 100⟩ (100 * c / (strongModel.porosity * strongModel.thickness)) (3, 0) (91 / (40 * c)) = (10, 0) := by
        have : (1:ℝ) + 2 * (100 * c / (strongModel.porosity * strongModel.thickness)) * (91 / (40 * c)) / (⟨0, 0, 2, 100⟩ : Well ℝ).r2 3 0 = (10/3) ^ 2 := by
          simp only [strongModel, Well.r2]
          field_simp
          norm_num
        simp only [spoke]
        rw [this, Real.sqrt_sq (by norm_num)]
        norm_num
      rw [e]
      simp [euclid]
  · intro hd
    have := C145_radius strong_physical strong_rest (by norm_num) (by norm_num) ⟨0, 0, 2, .const 100⟩ (by norm_num) rfl rfl 1 0 hd
    have e : euclid (10, 0) ((0:ℝ), (0:ℝ)) = 10 := by
      simp only [euclid]
      rw [show ((0:ℝ) - 10) ^ 2 + (0 - 0) ^ 2 = 10 ^ 2 by norm_num]
      exact Real.sqrt_sq (by norm_num)
    have hle : Real.sqrt (((2:ℝ) + 1) ^ 2 + (1 + 1 / 10 ^ 16) * ((100:ℝ) * 1 / (Real.pi * (strongModel.porosity * strongModel.thickness)))) ≤ 9 := by
      rw [Real.sqrt_le_left (by norm_num)]
      simp only [strongModel]
      have : (1 + 1 / 10 ^ 16) * ((100:ℝ) * 1 / (Real.pi * (1/4 * 20))) ≤ 10 := by
        rw [mul_div_assoc', div_le_iff₀ (by positivity)]
        norm_num
        linarith
      linarith
    rw [e] at this
    linarith

/-- `C145_volume`: 100 days before, the water was where a cylinder holds the 10000 m³ pumped since. -/
example : ∃ R : ℝ, |Real.pi * (R ^ 2 - euclid (3, 0) ((0:ℝ), (0:ℝ)) ^ 2) * (1/4 * 20) - 100 * 100| ≤ 100 * 100 / 10 ^ 16 :=
  ⟨_, C145_volume strong_physical (w := ⟨0, 0, 2, 100⟩) twoPiInv_close (by norm_num) (p := (3, 0)) (by simp) (s := 100) (by norm_num)⟩

/-! ## A call -/

/-- the arguments: a well that pumps 1/2, ten paths, ten days, 100 realizations -/
noncomputable def restWays : PyArgs :=
  { exampleCall 100 with duration := .int 10, pDist := fl (1/4), wells := .list [.tuple [fl 1000, fl 1000, fl (1/4), fl (1/2)]], maxstep := fl (1/2500) }

/-- the numbers in it -/
noncomputable def restInputs : Inputs :=
  { exampleInputs 100 with run := { (exampleInputs 100).run with duration := .fin 10, pDist := .const (1/4), wells := [⟨1000, 1000, 1/4, .const (1/2)⟩], maxstep := .fin (1/2500) } }

/-- the coefficients that are drawn: the aquifer is at rest -/
noncomputable def restCoef : Fin 6 → ℝ := fun j => if j = 5 then 1000 else 0

/-- the environment -/
noncomputable def restEnv (t : DateTime) : CallEnv :=
  { exampleCallEnv 0 t with run := { exampleEnv 0 with mvn := fun _ _ _ => .ok restCoef, interrupt := fun _ _ _ => none } }

theorem rest_acceptable : Acceptable restWays := by
  have h := exampleCall_acceptable 100
  refine ⟨h.1, h.2, ?_, h.4, ⟨_, rfl, by simp⟩, h.6, h.7, .inl ⟨_, rfl, ?_, ?_⟩, h.9, h.10, h.11, h.12, h.13, h.14, h.15, h.16, ⟨_, rfl, fin_pos (by norm_num)⟩⟩
  · refine ⟨_, rfl, ?_, 0, .inl rfl, le_rfl, by simp⟩
    intro w hw
    obtain rfl := List.mem_singleton.mp hw
    exact ⟨_, _, _, _, .inl rfl, ⟨_, rfl, trivial⟩, ⟨_, rfl, trivial⟩, ⟨_, rfl, fin_pos (by norm_num)⟩, .inl ⟨_, rfl, trivial, trivial⟩⟩
  · show (0:ℝ) ≤ 1/4
    norm_num
  · show (1/4:ℝ) ≤ 1
    norm_num

theorem rest_denotes : restWays.Denotes restInputs := by
  have h := exampleCall_denotes 100
  exact ⟨h.1, h.2, by simp [restWays, restInputs, PyVal.num], h.4, h.5, h.6, fl_isReal _, h.8, ⟨_, rfl, .cons ⟨_, _, _, _, .inl rfl, fl_isReal _, fl_isReal _, fl_isReal _, fl_isReal _⟩ .nil⟩,
    h.10, h.11, h.12, h.13, h.14, h.15, h.16, rfl⟩

theorem rest_spread : restInputs.Spread := by
  obtain ⟨h1, -, h3, -⟩ := exampleInputs_spread 100
  refine ⟨h1, ?_, h3, ?_⟩
  · rintro ⟨x, m, h⟩
    simp [restInputs] at h
  · intro w hw
    obtain rfl := List.mem_singleton.mp hw
    rintro ⟨x, m, h⟩
    simp at h

/-- the models of all realizations -/
theorem rest_model {m : Aquifer ℝ} {u : ℕ → ℝ} (hu : ∀ j, 0 ≤ u j ∧ u j < 1) (hl : m.wells.length = 1)
    (hw : ∃ d, m.wells[0]? = some ⟨1000, 1000, 1/4, d⟩ ∧ (Dist.const (1/2)).sample (u 0) = .ok d) (hc : (Dist.tuple [5, 10, 20]).sample (u 1) = .ok m.conductivity)
    (hp : (Dist.const (1/4)).sample (u 2) = .ok m.porosity) (ht : (Dist.const 20).sample (u 3) = .ok m.thickness) (hcoef : m.coef = restCoef) :
    m.Physical ∧ m.porosity = 1/4 ∧ m.thickness = 20 ∧ m.AtRest ⟨1000, 1000, 1/4, 1/2⟩ ∧ ∀ (n : ℤ) (k : ℕ), ∃ P, Follows m true (SWell.start ⟨1000, 1000, 1/4, .const (1/2)⟩ n k) 10 (1/2500) (1/30) P := by
  have hp := const_sample hp
  have ht := const_sample ht
  obtain ⟨d, hd, hd'⟩ := hw
  obtain rfl := const_sample hd'
  have hc' : 0 < m.conductivity := by
    obtain ⟨x, h1, h2⟩ := sample_ok (exampleCall_acceptable 100).cDist (exampleCall_denotes 100).cDist (exampleInputs_spread 100).1 (hu 1).1 (hu 1).2
    have h1 : (Dist.tuple [5, 10, 20]).sample (u 1) = .ok x := h1
    rw [hc] at h1
    obtain rfl := Except.ok.inj h1
    exact h2 (exampleInputs_regular 100).1
  have hphys : m.Physical := ⟨hc', by rw [hp]; norm_num, by rw [ht]; norm_num⟩
  have hwells : m.wells = [⟨1000, 1000, 1/4, 1/2⟩] := by
    obtain ⟨w, hw⟩ := List.length_eq_one_iff.mp hl
    rw [hw] at hd ⊢
    rw [Option.some.inj hd]
  have hrest : m.AtRest ⟨1000, 1000, 1/4, 1/2⟩ := ⟨hwells, fun j hj => by rw [hcoef]; simp [restCoef, hj]⟩
  refine ⟨hphys, hp, ht, hrest, fun n k => ?_⟩
  have hst := C131_start ⟨1000, 1000, 1/4, .const (1/2)⟩ (show (0:ℝ) ≤ 1/4 by norm_num) n k
  simp only at hst
  have hexp := Real.exp_one_lt_d9
  have e : (1/2 : ℝ) * 10 / (1/4 * 20) = 1 := by norm_num
  refine C145_follows hphys hrest (R := 7/5) ?_ (by norm_num) (by norm_num) (by norm_num) ?_ ?_ ?_ ?_ ?_
  · rw [hst]
    norm_num
  · rw [hp, ht]
    norm_num
  · rw [hst, hp, ht]
    norm_num
  · rw [hp, ht]
    norm_num
  · rw [hp, ht]
    simp only [e]
    linarith
  · rw [hp, ht]
    simp only [e]
    linarith

theorem rest_draws (t : DateTime) (i j : ℕ) : 0 ≤ (restEnv t).run.u i j ∧ (restEnv t).run.u i j < 1 := by
  simp only [restEnv, exampleEnv]
  norm_num

theorem rest_no_endless (t : DateTime) : ¬ EndlessRun restInputs sevenObs (restEnv t).run ⟨1000, 1000, 1/4, .const (1/2)⟩ := by
  unfold EndlessRun
  rw [if_pos (by simp [restInputs, exampleInputs])]
  rintro ⟨i, -, m, ev, cov, c, hm, -, hc, k, hk, h⟩
  obtain rfl : restCoef = c := Except.ok.inj hc
  obtain ⟨-, -, -, -, hF⟩ := rest_model (m := { m with xo := 1000, yo := 1000, coef := restCoef }) (rest_draws t i) hm.wells_length (hm.wells 0 _ rfl) hm.conductivity hm.porosity hm.thickness rfl
  obtain ⟨P, F⟩ := hF 10 k
  obtain ⟨r, hr, -⟩ := C95_track (tol := 1) F (by norm_num) (by norm_num) (by norm_num)
  have : some r = none := hr.symm.trans h
  simp at this

theorem rest_returns (t : DateTime) : (oneka restWays (restEnv t)).ending = .returns .none :=
  C70_returns (env := restEnv t) rest_acceptable rest_denotes (exampleInputs_regular 100) (fun _ => ⟨rest_spread, rest_draws t⟩) perfect_correct
    perfect_converges sevenObs 0 _ (example_retained 100) rfl rfl (by simp [sevenObs, sixObs]) (fun o ho => (sevenObs_usable o ho).1) sevenObs_general
    (fun _ i _ _ => ⟨restCoef, rfl⟩) (rest_no_endless t) rfl rfl

/-- This call meets the hypotheses of `C145_archived`, and each of its realizations those of `C145_captures` and `C145_follows`: the node 4 m east of the well is in all capture zones, those 8 m or more east or west of it are in none. -/
example (t : DateTime) : ∃ (d : Dict) (f : PField ℝ),
    loadOneka ((oneka restWays (restEnv t)).events.foldl Effect.apply fun _ => none) (restEnv t).now.archiveName = .ok d ∧ d.get "pfield" = some (.field (.field f)) ∧
    100 ≤ f.weightAt 1004 1000 ∧ ∀ p : ℤ, 2 ≤ |p| → f.weightAt (1000 + p * 4) 1000 ≤ 0 := by
  classical
  obtain ⟨d, f, k, w, c, h1, h2, h3, h4, hc, h5⟩ := C145_archived restWays restInputs (restEnv t) _ rest_denotes (rest_returns t) (fun _ => none) (D := 10) (tol := 1) (maxstep := 1/2500) (δ := 1/30) rfl rfl rfl
    (by norm_num) (by norm_num) (by norm_num) (fun _ _ _ => rfl) rfl
  obtain ⟨-, -, obs, k', w', -, -, -, -, h6, h7, h8, h9, -⟩ := C68_stochastic restWays restInputs (restEnv t) _ rest_denotes (by simp [restInputs, exampleInputs]) (rest_returns t) (fun _ => none)
  obtain rfl : k = 0 := by
    have : (0:ℤ) = k := h3
    omega
  obtain rfl : k' = 0 := by
    have : (0:ℤ) = k' := h6
    omega
  obtain rfl : w = ⟨1000, 1000, 1/4, .const (1/2)⟩ := (Option.some.inj h4).symm
  obtain rfl : w' = ⟨1000, 1000, 1/4, .const (1/2)⟩ := (Option.some.inj h7).symm
  have model : ∀ L ∈ realizations (oneka restWays (restEnv t)).events, L.model.Physical ∧ L.model.porosity = 1/4 ∧ L.model.thickness = 20 ∧ L.model.AtRest ⟨1000, 1000, 1/4, 1/2⟩ ∧
      ∀ (n : ℤ) (k : ℕ), ∃ P, Follows L.model true (SWell.start ⟨1000, 1000, 1/4, .const (1/2)⟩ n k) 10 (1/2500) (1/30) P := by
    intro L hL
    obtain ⟨i, hi⟩ := List.getElem?_of_mem hL
    have R := h9 i L hi
    exact rest_model (rest_draws t i) R.wells_length (R.wells 0 _ rfl) R.conductivity R.porosity R.thickness (Except.ok.inj R.coef).symm
  have key := h5 (fun L hL => ⟨(model L hL).1, fun j _ => (model L hL).2.2.2.2 _ j⟩)
  refine ⟨d, f, h1, h2, ?_, fun p p2 => ?_⟩
  · have lo := (key 1 0 (.inr (le_refl (4:ℝ))) 1004 1000 (show (1004:ℝ) = 1000 + ((1:ℤ):ℝ) * 4 by norm_num) (show (1000:ℝ) = 1000 + ((0:ℤ):ℝ) * 4 by norm_num)).1
    refine le_trans (le_of_eq ?_) lo
    rw [List.countP_eq_length.mpr]
    · have : ((realizations (oneka restWays (restEnv t)).events).length : ℤ) = 100 := h8
      exact_mod_cast this.symm
    · intro L hL
      rw [decide_eq_true_eq]
      refine ⟨_, (model L hL).2.2.2.1, by norm_num, 0, by simp [restInputs, exampleInputs], 0, le_rfl, by norm_num, ?_⟩
      rw [spoke_zero]
      have e : SWell.start ⟨1000, 1000, 1/4, .const (1/2)⟩ restInputs.run.npaths 0 = (1001.25, 1000) := by
        refine Prod.ext ?_ ?_
        · simp [SWell.start]; norm_num
        · simp [SWell.start]
      have hu : restInputs.run.umbra = 4 := rfl
      rw [e, hu]
      simp only [euclid]
      rw [Real.sqrt_lt' (by norm_num)]
      norm_num
  · have up := (key p 0 (.inr (le_refl (4:ℝ))) (1000 + p * 4) 1000 rfl (show (1000:ℝ) = 1000 + ((0:ℤ):ℝ) * 4 by norm_num)).2
    refine up.trans (le_of_eq ?_)
    rw [Nat.cast_eq_zero, List.countP_eq_zero]
    intro L hL hh
    simp only [decide_eq_true_eq] at hh
    obtain ⟨-, hp, ht, hrest, -⟩ := model L hL
    have h := hh _ hrest (by norm_num)
    have hu : restInputs.run.umbra = 4 := rfl
    rw [hu, hp, ht] at h
    have hpi := Real.pi_gt_three
    have hle : Real.sqrt (((1/4:ℝ) + 1) ^ 2 + (1 + 1 / 10 ^ 16) * ((1/2:ℝ) * 10 / (Real.pi * (1/4 * 20)))) ≤ 2 := by
      rw [Real.sqrt_le_left (by norm_num)]
      have : (1 + 1 / 10 ^ 16) * ((1/2:ℝ) * 10 / (Real.pi * (1/4 * 20))) ≤ 1 := by
        rw [mul_div_assoc', div_le_iff₀ (by positivity)]
        norm_num
        linarith
      linarith
    have p2' : (2:ℝ) ≤ |(p:ℝ)| := by exact_mod_cast p2
    have hn := (norm_le_euclid (1000 + p * 4, 1000) (1000, 1000)).trans_lt h
    have hn := (norm_fst_le _).trans_lt hn
    rw [Real.norm_eq_abs] at hn
    have e : (((1000:ℝ), (1000:ℝ)) - (1000 + (p:ℝ) * 4, (1000:ℝ))).1 = -((p:ℝ) * 4) := by simp
    rw [e, abs_neg, abs_mul, abs_of_pos (by norm_num : (0:ℝ) < 4)] at hn
    simp only at hn
    linarith

end Oneka
