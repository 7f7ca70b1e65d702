import Verif.Lemmas.FlFit
import Verif.Lemmas.FlThresholds

/-!
# C111: the fit in floating-point arithmetic

`m.flFitRegionalFlow la obs xo yo` is `fit_regional_flow` with every operation of `construct_fit` rounded (`Verif/Model/FlFit.lean`); `la` stands for numpy's linear algebra. `m.exact` and `o.exact` are the same
numbers read as real numbers. All statements are for observations whose head is not just below the thickness of the aquifer (`LevelClear`): there rounding decides whether it counts as confined, and the potential that
is given to the observation jumps (`C111_critical`).
-/

namespace Oneka
open Matrix Aquifer

variable [LibM] [LibObs]

/-- C111: `construct_fit` raises in floating-point arithmetic exactly when an observation is at or below the base (RangeError), as in exact arithmetic. -/
theorem C111_raises (m : Aquifer Fl) (hK : 0 < m.conductivity.val) (hT : 0 < m.thickness.val) (obs : List FlObs) (xo yo : Fl) (hs : ∀ o ∈ obs, 0 < o.std.val) :
    ((∃ o ∈ obs, o.z.val ≤ m.base.val) → m.flConstructFit xo yo obs = .error .rangeError) ∧ ((∀ o ∈ obs, m.base.val < o.z.val) → ∃ rows, m.flConstructFit xo yo obs = .ok rows) := by
  have low : ∀ o : FlObs, o.z.val ≤ m.base.val → m.flFitRow xo yo o = .error .rangeError := by
    intro o h
    have h1 : (o.z - m.base).val ≤ 0 := by
      change round53 (o.z.val - m.base.val) ≤ 0
      have := round53_mono (by linarith : o.z.val - m.base.val ≤ 0)
      rwa [round53_zero] at this
    have h2 : m.flFosm o = .error .rangeError := by
      unfold flFosm
      simp only
      rw [if_neg (by change ¬ m.thickness.val ≤ (o.z - m.base).val; linarith), if_neg (by linarith)]
    unfold flFitRow
    rw [h2]
  have high : ∀ o ∈ obs, m.base.val < o.z.val → ∃ r, m.flFitRow xo yo o = .ok r := fun o ho h => flFitRow_returns m hK hT xo yo o h (hs o ho)
  constructor
  · rintro ⟨o, ho, h⟩
    refine flConstruct_err m xo yo obs (fun p hp => ?_) ⟨o, ho, low o h⟩
    rcases le_or_gt p.z.val m.base.val with h' | h'
    · exact .inr (low p h')
    · exact .inl (high p hp h')
  · intro h
    choose! row hrow using fun o (ho : o ∈ obs) => high o ho (h o ho)
    exact ⟨_, flConstruct_ok m xo yo row obs hrow⟩

/-- C111: the rows of the weighted system. Every regressor has a relative error of at most `16 · 2^-53`, and the response an error of at most `(44 + 3 n) 2^-53` of the numbers that it is computed from, for `n` wells. -/
theorem C111_rows (hlog : LogAccurate) (hl : LibObs.Accurate) (m : Aquifer Fl) (hK : 0 < m.conductivity.val) (hT : 0 < m.thickness.val) (hn : m.wells.length ≤ 2 ^ 40) (obs : List FlObs) (xo yo : Fl)
    (hu : m.exact.Usable (obs.map FlObs.exact)) (hc : ∀ o ∈ obs, m.exact.LevelClear o.exact) :
    ∃ rows, m.flConstructFit xo yo obs = .ok rows ∧ List.Forall₂ (fun (o : FlObs) (r : (Fin 6 → Fl) × Fl) =>
      (∀ i, |(r.1 i).val - (![(o.x.val - xo.val) ^ 2, (o.y.val - yo.val) ^ 2, (o.x.val - xo.val) * (o.y.val - yo.val), o.x.val - xo.val, o.y.val - yo.val, 1] : Fin 6 → ℝ) i /
          potentialStd m.conductivity.val m.thickness.val (o.z.val - m.base.val) o.std.val| ≤
        16 * 2 ^ (-53 : ℤ) * |(![(o.x.val - xo.val) ^ 2, (o.y.val - yo.val) ^ 2, (o.x.val - xo.val) * (o.y.val - yo.val), o.x.val - xo.val, o.y.val - yo.val, 1] : Fin 6 → ℝ) i /
          potentialStd m.conductivity.val m.thickness.val (o.z.val - m.base.val) o.std.val|) ∧
      |r.2.val - (expectedPotential m.conductivity.val m.thickness.val (o.z.val - m.base.val) o.std.val - m.exact.potentialWells o.x.val o.y.val) /
          potentialStd m.conductivity.val m.thickness.val (o.z.val - m.base.val) o.std.val| ≤
        (44 + 3 * m.wells.length) * 2 ^ (-53 : ℤ) * ((expectedPotential m.conductivity.val m.thickness.val (o.z.val - m.base.val) o.std.val + m.exact.wellTerms o.x.val o.y.val) /
          potentialStd m.conductivity.val m.thickness.val (o.z.val - m.base.val) o.std.val)) obs rows := by
  obtain ⟨row, h1, h2⟩ := flRows hlog hl m hK hT hn obs xo yo hu hc
  refine ⟨_, flConstruct_ok m xo yo row obs h1, ?_⟩
  rw [List.forall₂_map_right_iff, List.forall₂_same]
  intro o ho
  exact ⟨fun i => ((h2 o ho).1 i).1, (h2 o ho).2.1⟩

/-- C111: the fitted flow. If the solver comes within `η ^ 2` of the least sum of squares for the rows it is given, the potential of the fitted flow differs from that of the exact fit everywhere by at most the stated
number of standard deviations: `8/7 η` and, because of the rounding in the rows, `2^-53` times the sizes of the residuals (amplified by `κ`, which says how well the observations determine the flow) and of the numbers
that they are computed from. -/
theorem C111_fit (hlog : LogAccurate) (hl : LibObs.Accurate) (la : FlLinAlg) (η : List ((Fin 6 → Fl) × Fl) → ℝ) (hη : ∀ rows, 0 ≤ η rows) (hla : la.Within η) (la₀ : LinAlg) (hla₀ : la₀.Correct)
    (m : Aquifer Fl) (hK : 0 < m.conductivity.val) (hT : 0 < m.thickness.val) (hn : m.wells.length ≤ 2 ^ 40) (obs : List FlObs) (xo yo : Fl) (hu : m.exact.Usable (obs.map FlObs.exact))
    (hc : ∀ o ∈ obs, m.exact.LevelClear o.exact) (κ : ℝ) (hκ0 : 0 ≤ κ) (hκ : m.exact.Determined (obs.map FlObs.exact) xo.val yo.val κ) (hκ1 : κ ≤ 2 ^ 46)
    (rows : List ((Fin 6 → Fl) × Fl)) (hrows : m.flConstructFit xo yo obs = .ok rows) (m' : Aquifer Fl) (c' : Fin 6 → Fl) (V' : Matrix (Fin 6) (Fin 6) Fl)
    (hf : m.flFitRegionalFlow la obs xo yo = (m', .ok (c', V'))) (m₀ : Aquifer ℝ) (c : Fin 6 → ℝ) (V : Matrix (Fin 6) (Fin 6) ℝ)
    (hf₀ : m.exact.fitRegionalFlow la₀ (obs.map FlObs.exact) xo.val yo.val = (m₀, .ok (c, V))) (x y : ℝ) :
    |m'.exact.potential x y - m₀.potential x y| ≤
      (8/7 * η rows + 2 ^ (-53 : ℤ) * (48 * κ * √(misfit m.exact (obs.map FlObs.exact) m₀.potential) + (132 + 9 * m.wells.length) * m.exact.residualTerms (obs.map FlObs.exact) xo.val yo.val c)) *
        spread V (x - xo.val) (y - yo.val) := by
  obtain ⟨rfl, rfl, hg, hB, hq⟩ := flFit_quad hlog hl hη hla hla₀ hK hT hn hu hc hκ0 hκ hκ1 hrows hf hf₀
  have hd : ({ m with xo := xo, yo := yo, coef := c' } : Aquifer Fl).exact = { m.exact with xo := xo.val, yo := yo.val, coef := fun i => (c' i).val } := rfl
  rw [hd, potential_sub, spread_eq]
  exact within_spread hg hB hq

omit [LibM] [LibObs] in
/-- C111: the observations of a successful exact fit determine the flow, with the `κ` that follows from its covariance matrix: at every observation the absolute values of the regressors times the standard deviations of
the coefficients. -/
theorem C111_determined (la : LinAlg) (hla : la.Correct) (m m' : Aquifer ℝ) (hK : 0 < m.conductivity) (hT : 0 < m.thickness) (obs : List Obs) (xo yo : ℝ) (c : Fin 6 → ℝ) (V : Matrix (Fin 6) (Fin 6) ℝ)
    (hu : m.Usable obs) (h : m.fitRegionalFlow la obs xo yo = (m', .ok (c, V))) :
    m.Determined obs xo yo √(obs.map fun o => (conicTerms (fun i => √(V i i)) (o.x - xo) (o.y - yo) / potentialStd m.conductivity m.thickness (o.z - m.base) o.std) ^ 2).sum := by
  obtain ⟨-, hg, -⟩ := fit_excess hla hK hT hu h
  intro d
  have hq : d ⬝ᵥ (gram ((obs.map (m.rowOf xo yo)).map Prod.fst) *ᵥ d) =
      (obs.map fun o => (conic d (o.x - xo) (o.y - yo) / potentialStd m.conductivity m.thickness (o.z - m.base) o.std) ^ 2).sum := by
    rw [normal_quad, List.map_map, List.map_map]
    congr 1
    refine List.map_congr_left fun o _ => ?_
    simp only [Function.comp, row_value]
  have hd : ∀ i, |d i| ≤ √(V i i) * √(obs.map fun o => (conic d (o.x - xo) (o.y - yo) / potentialStd m.conductivity m.thickness (o.z - m.base) o.std) ^ 2).sum := by
    intro i
    have := inverse_cauchy hg (Pi.single i 1) d
    rw [hq, single_dotProduct, one_mul, single_dotProduct, one_mul, Matrix.mulVec_single_one] at this
    have h1 := inverse_nonneg hg (Pi.single i 1)
    rw [single_dotProduct, one_mul, Matrix.mulVec_single_one] at h1
    change 0 ≤ V i i at h1
    change d i ^ 2 ≤ V i i * _ at this
    rw [← Real.sqrt_sq_eq_abs, ← Real.sqrt_mul h1]
    exact Real.sqrt_le_sqrt this
  set N := √(obs.map fun o => (conic d (o.x - xo) (o.y - yo) / potentialStd m.conductivity m.thickness (o.z - m.base) o.std) ^ 2).sum with hN
  have hN0 : 0 ≤ N := Real.sqrt_nonneg _
  have hb : ∀ u v, conicTerms d u v ≤ N * conicTerms (fun i => √(V i i)) u v := by
    intro u v
    have t : ∀ i p, |d i * p| ≤ N * |√(V i i) * p| := by
      intro i p
      rw [abs_mul, abs_mul, abs_of_nonneg (Real.sqrt_nonneg _)]
      have := mul_le_mul_of_nonneg_right (hd i) (abs_nonneg p)
      linarith
    have t0 := t 0 (u ^ 2)
    have t1 := t 1 (v ^ 2)
    have t2 := t 2 (u * v)
    have t3 := t 3 u
    have t4 := t 4 v
    have t5 := t 5 1
    rw [mul_one, mul_one] at t5
    unfold conicTerms
    rw [mul_assoc (d 2), mul_assoc (√(V 2 2))]
    linarith
  rw [mul_comm, ← vec_norm, ← vec_norm, ← vec_smul _ _ hN0]
  refine vec_mono _ _ _ fun o ho => ?_
  obtain ⟨hz, hs, -⟩ := hu o ho
  have hS := std_pos hK hT (by linarith : 0 < o.z - m.base) hs
  rw [abs_of_nonneg (div_nonneg (by unfold conicTerms; positivity) hS.le), ← mul_div_assoc]
  exact div_le_div_of_nonneg_right (hb _ _) hS.le

/-- C111: near the thickness. The head of an observation can be less than the thickness of the aquifer and the computed head equal to it. The observation then counts as confined, and the term `K σ² / 2` is missing
from its potential: here that is 500 standard deviations. -/
theorem C111_critical : ∃ (m : Aquifer Fl) (o : FlObs) (r : (Fin 6 → Fl) × Fl), m.conductivity.val = 1 ∧ m.thickness.val = 1 ∧ m.wells = [] ∧ 0 < o.z.val - m.base.val ∧ o.z.val - m.base.val < m.thickness.val ∧
    0 < o.std.val ∧ m.flConstructFit 0 0 [o] = .ok [r] ∧
    r.2.val + 500 ≤ expectedPotential m.conductivity.val m.thickness.val (o.z.val - m.base.val) o.std.val / potentialStd m.conductivity.val m.thickness.val (o.z.val - m.base.val) o.std.val := by
  have hb : round53 (-3 * 2 ^ (-55 : ℤ)) = -3 * 2 ^ (-55 : ℤ) := by have := round53_exact (-3) (-55) (by norm_num); push_cast at this; exact this
  have hz : round53 (1 - 2 ^ (-53 : ℤ)) = 1 - 2 ^ (-53 : ℤ) := by
    have := round53_exact (2 ^ 53 - 1) (-53) (by norm_num)
    push_cast at this
    norm_num [_root_.zpow_neg] at this ⊢
    exact this
  have h1 : round53 1 = 1 := by simpa using round53_zpow 0
  have h2 : round53 (1/2) = 1/2 := by simpa using round53_zpow (-1)
  have h3 : round53 1024 = 1024 := by have := round53_zpow 10; norm_num at this; exact this
  have h4 : round53 (1/2048) = 1/2048 := by have := round53_zpow (-11); norm_num [_root_.zpow_neg] at this ⊢; exact this
  have hd : round53 ((1 - 2 ^ (-53 : ℤ)) - (-3 * 2 ^ (-55 : ℤ))) = 1 := by
    rw [round53_eq 53 (2 ^ 53) (by norm_num [_root_.zpow_neg]) (by norm_num [_root_.zpow_neg]) (by norm_num [_root_.zpow_neg]) (by norm_num [_root_.zpow_neg])]
    norm_num
  set b : Fl := ⟨_, hb⟩ with hb_
  set z : Fl := ⟨_, hz⟩ with hz_
  set one : Fl := ⟨1, h1⟩ with one_
  set s : Fl := ⟨1024, h3⟩ with s_
  set half : Fl := ⟨1/2, h2⟩ with half_
  have e1 : z - b = one := Fl.ext' hd
  have e2 : one * one = one := Fl.ext' (by change round53 (1 * 1) = 1; rw [mul_one, h1])
  have e3 : (PyMath.q (1/2) : Fl) = half := Fl.ext' (by change round53 ((1/2 : ℚ) : ℝ) = 1/2; rw [← h2]; norm_num)
  have e4 : half * one = half := Fl.ext' (by change round53 (1/2 * 1) = 1/2; rw [mul_one, h2])
  have e5 : one - half = half := Fl.ext' (by change round53 (1 - 1/2) = 1/2; rw [show (1 - 1/2 : ℝ) = 1/2 by norm_num, h2])
  have e6 : one * half = half := Fl.ext' (by change round53 (1 * (1/2)) = 1/2; rw [one_mul, h2])
  have e7 : one * s = s := Fl.ext' (by change round53 (1 * 1024) = 1024; rw [one_mul, h3])
  let m : Aquifer Fl := ⟨b, one, half, one, [], 0, 0, fun _ => 0⟩
  let o : FlObs := ⟨0, 0, z, s⟩
  have hf : m.flFosm o = .ok (half, s) := by
    simp only [flFosm, m, o, e1, e2, e3, e4, e5, e6, e7]
    rw [if_pos (show one ≤ one from le_refl one.val)]
  have hs : ¬ s.val = 0 := by norm_num [s_]
  have hr : ∃ r, m.flFitRow 0 0 o = .ok r ∧ r.2 = (half - m.potentialWells o.x o.y) / s :=
    ⟨_, by simp only [flFitRow, hf, hs, decide_false, Bool.and_false, Bool.false_eq_true, if_false]; rfl, rfl⟩
  obtain ⟨r, hr1, hr2⟩ := hr
  have hr3 : r.2.val = 1/2048 := by
    rw [hr2]
    change round53 (round53 (1/2 - round53 ((0 : ℚ) : ℝ)) / 1024) = 1/2048
    rw [Rat.cast_zero, round53_zero, sub_zero, h2, ← h4]
    norm_num
  refine ⟨m, o, r, rfl, rfl, rfl, ?_, ?_, ?_, ?_, ?_⟩
  · change 0 < (1 - 2 ^ (-53 : ℤ)) - (-3 * 2 ^ (-55 : ℤ)); norm_num [_root_.zpow_neg]
  · change (1 - 2 ^ (-53 : ℤ)) - (-3 * 2 ^ (-55 : ℤ)) < 1; norm_num [_root_.zpow_neg]
  · change (0:ℝ) < 1024; norm_num
  · simp only [flConstructFit, hr1]
  · rw [hr3]
    change _ ≤ expectedPotential 1 1 ((1 - 2 ^ (-53 : ℤ)) - (-3 * 2 ^ (-55 : ℤ))) 1024 / potentialStd 1 1 ((1 - 2 ^ (-53 : ℤ)) - (-3 * 2 ^ (-55 : ℤ))) 1024
    have l0 : ((1 - 2 ^ (-53 : ℤ)) - (-3 * 2 ^ (-55 : ℤ)) : ℝ) < 1 := by norm_num [_root_.zpow_neg]
    have l1 : (0:ℝ) < (1 - 2 ^ (-53 : ℤ)) - (-3 * 2 ^ (-55 : ℤ)) := by norm_num [_root_.zpow_neg]
    generalize ((1 - 2 ^ (-53 : ℤ)) - (-3 * 2 ^ (-55 : ℤ)) : ℝ) = h at l0 l1
    unfold expectedPotential potentialStd potentialOfHead
    rw [if_pos l0, if_pos l0, min_eq_left l0.le, le_div_iff₀ (by linarith)]
    nlinarith

end Oneka
