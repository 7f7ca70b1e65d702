import Mathlib.Probability.Distributions.Gaussian.Real
import Mathlib.Probability.Independence.InfinitePi
import Verif.Props.Statistics
import Verif.Props.Normal
import Verif.Props.CaptureExactExamples

/-!
# Calls that meet the hypotheses of C96

The call of `CaptureExactExamples`, but with random numbers: whether the flow comes from the east or from the north is decided, in each realization, by the sign of the first of its standard normal numbers.
-/

namespace Oneka

open MeasureTheory ProbabilityTheory Filter Topology

/-- Every law is the law of some independent numbers. -/
theorem exists_iid (ν : Measure Numbers) [IsProbabilityMeasure ν] : IidNumbers (Measure.infinitePi fun _ : ℕ => ν) ν fun i ω => ω i := by
  refine ⟨fun i => measurable_pi_apply i, fun i => Measure.infinitePi_map_eval _ i, ?_⟩
  exact iIndepFun_infinitePi (P := fun _ : ℕ => ν) (X := fun _ y => y) fun _ => measurable_id

/-- Uniform numbers in `[0, 1)`, and standard normal numbers. -/
noncomputable def numpyLaw : Measure Numbers := (Measure.infinitePi fun _ : ℕ => (volume.restrict (Set.Ico 0 1) : Measure ℝ)).prod (Measure.pi fun _ => gaussianReal 0 1)

instance unit_prob : IsProbabilityMeasure (volume.restrict (Set.Ico 0 1) : Measure ℝ) := ⟨by simp⟩

instance numpy_prob : IsProbabilityMeasure numpyLaw := by
  unfold numpyLaw
  infer_instance

/-- the realization has the coefficients of one of two directions -/
noncomputable def coinGen : NormalGen := fun _ _ z => .ok (twoWaysCoef (if z 0 < 0 then 0 else 1))

theorem coin_measurable : coinGen.IsMeasurable := by
  refine ⟨Set.univ, fun p => twoWaysCoef (if p.2 0 < 0 then 0 else 1), .univ, ?_, fun p b => ?_⟩
  · have h : MeasurableSet {p : ((Fin 6 → ℝ) × Matrix (Fin 6) (Fin 6) ℝ) × (Fin 6 → ℝ) | p.2 0 < 0} :=
      measurableSet_lt ((measurable_pi_apply 0).comp measurable_snd) measurable_const
    have : (fun p : ((Fin 6 → ℝ) × Matrix (Fin 6) (Fin 6) ℝ) × (Fin 6 → ℝ) => twoWaysCoef (if p.2 0 < 0 then 0 else 1)) = fun p => if p.2 0 < 0 then twoWaysCoef 0 else twoWaysCoef 1 := by
      funext p
      split_ifs <;> rfl
    rw [this]
    exact Measurable.ite h measurable_const measurable_const
  · simp [coinGen, Except.toOption, eq_comm]

/-- the arguments of the run, with the observations that are retained -/
noncomputable def coinArgs : RunArgs := { twoWaysInputs.run with obs := sevenObs }

/-- the target -/
noncomputable def coinWell : SWell := ⟨1000, 1000, 1/4, .const 0⟩

/-- the call, with the same numbers in each realization -/
noncomputable def coinEnv (t : DateTime) (x : ℕ → Numbers) : CallEnv := { twoWaysEnv t with run := envOf perfect coinGen x }

theorem coin_model {x : Numbers} (hx : ∀ j, 0 ≤ x.1 j ∧ x.1 j < 1) {L : RealizationLog}
    (R : Realized coinArgs perfect coinWell (fun d j => d.sample (x.1 j)) (fun ev cov => coinGen ev cov x.2) (fun _ _ => none) L) :
    Follows L.model true (1001.25, 1000) 365 (1/30) (1/5) (twoWaysPath (if x.2 0 < 0 then 0 else 1)) :=
  twoWays_model _ hx R.wells_length (R.wells 0 _ rfl) R.conductivity R.porosity R.thickness (Except.ok.inj R.coef).symm

theorem coin_no_endless (t : DateTime) (x : ℕ → Numbers) (hx : ∀ i j, 0 ≤ (x i).1 j ∧ (x i).1 j < 1) : ¬ EndlessRun twoWaysInputs sevenObs (coinEnv t x).run ⟨1000, 1000, 1/4, .const 0⟩ := by
  unfold EndlessRun
  rw [if_pos (by simp [twoWaysInputs, exampleInputs])]
  rintro ⟨i, -, m, ev, cov, c, hm, -, hc, k, hk, h⟩
  obtain rfl : k = 0 := by
    have : (k:ℤ) < 1 := hk
    omega
  obtain rfl : twoWaysCoef (if (x i).2 0 < 0 then 0 else 1) = c := Except.ok.inj hc
  have F := twoWays_model (m := { m with xo := 1000, yo := 1000, coef := twoWaysCoef (if (x i).2 0 < 0 then 0 else 1) }) _ (hx i) hm.wells_length (hm.wells 0 _ rfl) hm.conductivity hm.porosity
    hm.thickness rfl
  obtain ⟨r, hr, -⟩ := C95_track (tol := 1) F (by norm_num) (by norm_num) (by norm_num)
  have e := twoWays_start
  rw [← e] at hr
  have : some r = none := hr.symm.trans h
  simp at this

/-- the call returns -/
theorem coin_call (t : DateTime) (x : ℕ → Numbers) (hx : ∀ i j, 0 ≤ (x i).1 j ∧ (x i).1 j < 1) : (oneka twoWays (coinEnv t x)).ending = .returns .none :=
  C70_returns (env := coinEnv t x) twoWays_acceptable twoWays_denotes (exampleInputs_regular 100) (fun _ => ⟨twoWays_spread, hx⟩) perfect_correct
    perfect_converges sevenObs 0 _ (example_retained 100) rfl rfl (by simp [sevenObs, sixObs]) (fun o ho => (sevenObs_usable o ho).1) sevenObs_general
    (fun _ i _ _ => ⟨_, rfl⟩) (coin_no_endless t x hx) rfl rfl

theorem coin_realized {x : Numbers} (hx : ∀ j, 0 ≤ x.1 j ∧ x.1 j < 1) :
    ∃ L, Realized coinArgs perfect coinWell (fun d j => d.sample (x.1 j)) (fun ev cov => coinGen ev cov x.2) (fun _ _ => none) L := by
  obtain ⟨-, -, obs, k, w, -, -, h3, -, h6, h7, h8, h9, -⟩ := C68_stochastic twoWays twoWaysInputs (coinEnv ⟨2024, 1, 1, 0, 0, 0⟩ fun _ => x) _ twoWays_denotes
    (by simp [twoWaysInputs, exampleInputs]) (coin_call _ _ fun _ => hx) (fun _ => none)
  obtain rfl : k = 0 := by simpa [twoWaysInputs, exampleInputs] using h6.symm
  obtain rfl : w = ⟨1000, 1000, 1/4, .const 0⟩ := (Option.some.inj h7).symm
  have e := example_retained 100
  have e' : filterObs twoWaysInputs.run.obs (twoWaysInputs.run.wells.map fun w => (w.xw, w.yw)) twoWaysInputs.buffer = .ok sevenObs := e
  rw [e'] at h3
  obtain rfl := Except.ok.inj h3
  have hl : 0 < (realizations (oneka twoWays (coinEnv ⟨2024, 1, 1, 0, 0, 0⟩ fun _ => x)).events).length := by
    simp only [twoWaysInputs, exampleInputs] at h8
    omega
  exact ⟨_, h9 0 _ (List.getElem?_eq_getElem hl)⟩

/-- which nodes the traces capture: the nodes from 8 to 36 east of the well if and only if the first normal number is negative -/
theorem coin_captured {x : Numbers} (hx : ∀ j, 0 ≤ x.1 j ∧ x.1 j < 1) {p : ℤ} (p1 : 2 ≤ p) (p2 : p ≤ 9) :
    CapturedWith coinArgs perfect coinGen coinWell (1000 + p * 4) (1000 + (0:ℤ) * 4) x ↔ x.2 0 < 0 := by
  have q1 : (2:ℝ) ≤ p := by exact_mod_cast p1
  have q2 : (p:ℝ) ≤ 9 := by exact_mod_cast p2
  have key : ∀ L, Realized coinArgs perfect coinWell (fun d j => d.sample (x.1 j)) (fun ev cov => coinGen ev cov x.2) (fun _ _ => none) L → _ := fun L R =>
    C95_captures (D := 365) (tol := 1) (maxstep := 1/30) (δ := 1/5) R rfl rfl rfl (by norm_num) (by norm_num) (by norm_num) (fun _ _ => rfl)
      (fun _ => twoWaysPath (if x.2 0 < 0 then 0 else 1)) (fun k hk => by
        obtain rfl : k = 0 := by
          have : (k:ℤ) < 1 := hk
          omega
        have := coin_model hx R
        rw [← twoWays_start] at this
        exact this) 4 (1000 + p * 4) (1000 + (0:ℤ) * 4)
  constructor
  · rintro ⟨L, R, hL⟩
    obtain ⟨-, -, s, s0, s1, h⟩ := (key L R).2 (by norm_num) hL
    by_contra hn
    have := (norm_le_euclid _ _).trans_lt h
    rw [Prod.norm_def, max_lt_iff] at this
    have := this.1
    simp only [twoWaysPath, twoWaysDir, if_neg hn] at this
    simp at this
    rw [abs_lt] at this
    linarith
  · intro hn
    obtain ⟨L, R⟩ := coin_realized hx
    refine ⟨L, R, (key L R).1 ⟨0, Int.zero_lt_one, 40 * p - 12.5, by linarith, by linarith, ?_⟩⟩
    rw [if_pos hn]
    have : twoWaysPath 0 (40 * p - 12.5) = ((1000 + p * 4 : ℝ), (1000 + (0:ℤ) * 4 : ℝ)) := by
      unfold twoWaysPath twoWaysDir
      rw [if_pos rfl]
      refine Prod.ext ?_ ?_ <;> simp <;> ring
    rw [this]
    simp [euclid]
    norm_num

theorem numpy_unit : ∀ᵐ x ∂numpyLaw, ∀ j, 0 ≤ x.1 j ∧ x.1 j < 1 := by
  rw [ae_all_iff]
  intro j
  have h1 : MeasurePreserving (fun x : Numbers => x.1 j) numpyLaw (volume.restrict (Set.Ico 0 1)) :=
    (measurePreserving_eval_infinitePi (fun _ : ℕ => (volume.restrict (Set.Ico 0 1) : Measure ℝ)) j).comp measurePreserving_fst
  exact h1.quasiMeasurePreserving.ae (ae_restrict_mem (measurableSet_Ico (a := (0:ℝ)) (b := 1)))

theorem gaussian_half : gaussianReal 0 1 (Set.Iio 0) = 1/2 := by
  have h1 : gaussianReal 0 1 (Set.Ioi 0) = gaussianReal 0 1 (Set.Iio 0) := by
    conv_rhs => rw [← neg_zero (G := ℝ), ← gaussianReal_map_neg, Measure.map_apply measurable_neg measurableSet_Iio]
    congr 1
    ext y
    simp
  have := nullSingletonClass_gaussianReal (μ := 0) (v := 1) one_ne_zero
  have h2 : gaussianReal 0 1 (Set.Iio 0) + gaussianReal 0 1 (Set.Ici 0) = 1 := by
    rw [← Set.compl_Iio, measure_add_measure_compl measurableSet_Iio, measure_univ]
  rw [← Set.Ioi_union_left, measure_union (by simp) (measurableSet_singleton 0), measure_singleton, add_zero, h1] at h2
  rw [ENNReal.eq_div_iff (by simp) (by simp), two_mul]
  exact h2

theorem numpy_sign : numpyLaw {x | x.2 0 < 0} = 1/2 ∧ numpyLaw {x | ¬ x.2 0 < 0} = 1/2 := by
  have h1 : MeasurePreserving (fun x : Numbers => x.2 0) numpyLaw (gaussianReal 0 1) :=
    (measurePreserving_eval (fun _ : Fin 6 => gaussianReal 0 1) 0).comp measurePreserving_snd
  have e : numpyLaw {x | x.2 0 < 0} = 1/2 := by
    rw [← gaussian_half, ← h1.measure_preimage measurableSet_Iio.nullMeasurableSet]
    rfl
  refine ⟨e, ?_⟩
  have : numpyLaw {x | x.2 0 < 0}ᶜ = 1 - 1/2 := by
    rw [prob_compl_eq_one_sub (measurableSet_lt h1.measurable measurable_const), e]
  refine Eq.trans this ?_
  simp

theorem coin_probability {p : ℤ} (p1 : 2 ≤ p) (p2 : p ≤ 9) : numpyLaw {y | CapturedWith coinArgs perfect coinGen coinWell (1000 + p * 4) (1000 + (0:ℤ) * 4) y} = 1/2 := by
  rw [← numpy_sign.1]
  refine measure_congr ?_
  filter_upwards [numpy_unit] with x hx
  exact propext (coin_captured hx p1 p2)

theorem coin_probability_not {p : ℤ} (p1 : 2 ≤ p) (p2 : p ≤ 9) :
    numpyLaw {y | ReturnsWith coinArgs perfect coinGen coinWell y ∧ ¬ CapturedWith coinArgs perfect coinGen coinWell (1000 + p * 4) (1000 + (0:ℤ) * 4) y} = 1/2 := by
  rw [← numpy_sign.2]
  refine measure_congr ?_
  filter_upwards [numpy_unit] with x hx
  exact propext ⟨fun h => fun h' => h.2 ((coin_captured hx p1 p2).mpr h'), fun h => ⟨coin_realized hx, fun h' => h ((coin_captured hx p1 p2).mp h')⟩⟩

/-- C96: almost surely the run returns, … -/
example (n : ℕ) : (Measure.infinitePi fun _ : ℕ => numpyLaw) {ω | ∃ r f, createStochastic coinArgs n (envOf perfect coinGen fun i => ω i) = some r ∧ r.outcome = .ok f} = 1 := by
  rw [C96_returns coinArgs 0 coinWell rfl rfl perfect_correct perfect_converges perfect_strict coin_measurable (exists_iid numpyLaw) (by norm_num [coinArgs, twoWaysInputs, exampleInputs])
    (by norm_num [coinArgs, twoWaysInputs, exampleInputs]) n]
  have : numpyLaw {y | ReturnsWith coinArgs perfect coinGen coinWell y} = 1 := by
    rw [← measure_univ (μ := numpyLaw)]
    refine measure_congr ?_
    filter_upwards [numpy_unit] with x hx
    exact propext ⟨fun _ => trivial, fun _ => coin_realized hx⟩
  rw [this, one_pow]

/-- … the weights of the nodes from 8 to 36 east of the well have the law of the number of heads in 100 tosses of a coin, … -/
example (p : ℤ) (p1 : 2 ≤ p) (p2 : p ≤ 9) (m : ℕ) (hm : m ≤ 100) :
    (Measure.infinitePi fun _ : ℕ => numpyLaw) {ω | ∃ r f, createStochastic coinArgs 100 (envOf perfect coinGen fun i => ω i) = some r ∧ r.outcome = .ok f ∧
      f.weightAt (1000 + p * 4) (1000 + (0:ℤ) * 4) = m} = Nat.choose 100 m * (1/2)^100 := by
  have := C96_binomial coinArgs 0 coinWell rfl rfl perfect_correct perfect_converges perfect_strict coin_measurable (exists_iid numpyLaw) (by norm_num [coinArgs, twoWaysInputs, exampleInputs])
    (by norm_num [coinArgs, twoWaysInputs, exampleInputs]) (by norm_num [coinArgs, twoWaysInputs, exampleInputs]) 100 m p 0 (.inr (le_refl (4:ℝ)))
  refine this.trans ?_
  have e1 := coin_probability p1 p2
  have e2 := coin_probability_not p1 p2
  refine (congrArg₂ (fun s t => (Nat.choose 100 m : ENNReal) * s ^ m * t ^ (100 - m)) e1 e2).trans ?_
  show (Nat.choose 100 m : ENNReal) * (1/2) ^ m * (1/2) ^ (100 - m) = _
  rw [mul_assoc, ← pow_add, Nat.add_sub_cancel' hm]

/-- … and the archived frequencies are off 1/2 by 1/5 or more with a probability of at most `2·exp(-8)`, about 0.0007. -/
example (t : DateTime) (p : ℤ) (p1 : 2 ≤ p) (p2 : p ≤ 9) :
    (Measure.infinitePi fun _ : ℕ => numpyLaw).real {ω | ∃ v d f, (oneka twoWays (coinEnv t fun i => ω i)).ending = .returns v ∧
      loadOneka ((oneka twoWays (coinEnv t fun i => ω i)).events.foldl Effect.apply fun _ => none) t.archiveName = .ok d ∧ d.get "pfield" = some (.field (.field f)) ∧
      1/5 ≤ |f.weightAt (1000 + p * 4) (1000 + (0:ℤ) * 4) / f.total - 1/2|} ≤ 2 * Real.exp (-8) := by
  have := C96_call twoWays twoWaysInputs (twoWaysEnv t) twoWays_denotes (by norm_num [twoWaysInputs, exampleInputs]) sevenObs 0 coinWell (example_retained 100) rfl rfl perfect_correct
    perfect_converges perfect_strict coin_measurable (exists_iid numpyLaw) (fun _ => none) p 0 (.inr (le_refl (4:ℝ))) (1/5) (by norm_num)
  have e1 : numpyLaw.real {y | CapturedWith coinArgs perfect coinGen coinWell (1000 + p * 4) (1000 + (0:ℤ) * 4) y} = 1/2 := by
    rw [measureReal_def, coin_probability p1 p2]
    simp
  have e2 : 2 * Real.exp (-2 * (100 : ℤ) * (1/5 : ℝ) ^ 2) = 2 * Real.exp (-8) := by norm_num
  rw [← e2, ← e1]
  exact this

/-! ## C97 -/

open Classical in
/-- a generator that multiplies the numbers with a factor of the covariance matrix -/
noncomputable def factorGen : NormalGen := fun ev cov z =>
  if h : ∃ B : Matrix (Fin 6) (Fin 6) ℝ, B * B.transpose = cov then .ok (ev + h.choose.mulVec z) else .error .valueError

theorem factorGen_factors : factorGen.Factors := by
  intro ev cov hc
  have h : ∃ B : Matrix (Fin 6) (Fin 6) ℝ, B * B.transpose = cov := by
    open scoped MatrixOrder in
    refine ⟨CFC.sqrt cov, ?_⟩
    have e : (CFC.sqrt cov).transpose = CFC.sqrt cov := by
      rw [← Matrix.conjTranspose_eq_transpose_of_trivial]
      exact (CFC.sqrt_nonneg cov).isSelfAdjoint
    rw [e]
    exact CFC.sqrt_mul_sqrt_self _ hc.nonneg
  refine ⟨h.choose, h.choose_spec, fun z => ?_⟩
  unfold factorGen
  rw [dif_pos h]

/-- the arguments: nothing but the coefficients is random -/
noncomputable def fixedArgs : RunArgs := { coinArgs with cDist := .const 10 }

/-- the model before the fit -/
noncomputable def fixedModel : Aquifer ℝ := ⟨coinArgs.base, 10, 1/4, 20, [⟨1000, 1000, 1/4, 0⟩], 0, 0, fun _ => 0⟩

theorem fixed_drawn (u : ℕ → ℝ) : DrawnModel fixedArgs (fun d j => d.sample (u j)) fixedModel := by
  refine ⟨rfl, rfl, fun j w hj => ?_, rfl, rfl, rfl, ⟨rfl, rfl⟩, rfl⟩
  match j with
  | 0 =>
    obtain rfl := Option.some.inj hj
    exact ⟨0, rfl, rfl⟩
  | j + 1 => simp [fixedArgs, coinArgs, twoWaysInputs] at hj

theorem fixed_usable : fixedModel.Usable fixedArgs.obs := fun o ho => by
  obtain ⟨h1, h2⟩ := sevenObs_usable o ho
  refine ⟨h1, h2, fun w hw e => ?_⟩
  obtain rfl := List.mem_singleton.mp hw
  have ho : o ∈ sevenObs := ho
  simp only [sevenObs, sixObs, List.cons_append, List.nil_append, List.mem_cons, List.not_mem_nil, or_false] at ho
  rcases ho with rfl | rfl | rfl | rfl | rfl | rfl | rfl <;> norm_num at e

/-- the hypotheses of C97 hold, and there are numbers with which the realization can be carried out -/
example : ∃ m' ev cov, fixedModel.fitRegionalFlow perfect fixedArgs.obs coinWell.xw coinWell.yw = (m', .ok (ev, cov)) ∧ StandardNormals numpyLaw Prod.snd ∧
    ∃ x : Numbers, ReturnsWith fixedArgs perfect factorGen coinWell x := by
  obtain ⟨⟨ev, cov⟩, hf⟩ := (C37_degenerate perfect perfect_correct perfect_converges fixedModel (by norm_num [fixedModel]) (by norm_num [fixedModel]) fixedArgs.obs coinWell.xw coinWell.yw fixed_usable).2
    sevenObs_general
  have hf' : fixedModel.fitRegionalFlow perfect fixedArgs.obs coinWell.xw coinWell.yw = ((fixedModel.fitRegionalFlow perfect fixedArgs.obs coinWell.xw coinWell.yw).1, .ok (ev, cov)) := Prod.ext rfl hf
  refine ⟨_, ev, cov, hf', ⟨measurable_snd, ?_⟩, ?_⟩
  · unfold numpyLaw
    exact measurePreserving_snd.map_eq
  have hpd := (C40_covariance perfect perfect_correct fixedModel _ (by norm_num [fixedModel]) (by norm_num [fixedModel]) fixedArgs.obs coinWell.xw coinWell.yw ev cov fixed_usable hf').1
  obtain ⟨B, hB, hg⟩ := factorGen_factors ev cov hpd.posSemidef
  have hdet : IsUnit B.det := by
    have := hpd.det_pos
    rw [← hB, Matrix.det_mul] at this
    exact (left_ne_zero_of_mul this.ne').isUnit
  have hm : ∀ c, ∃ z, factorGen ev cov z = .ok c := fun c => ⟨B⁻¹.mulVec (c - ev), by
    rw [hg, Matrix.mulVec_mulVec, Matrix.mul_nonsing_inv _ hdet, Matrix.one_mulVec]
    simp⟩
  obtain ⟨z, hz⟩ := hm (twoWaysCoef 0)
  let M : Aquifer ℝ := ⟨coinArgs.base, 10, 1/4, 20, [⟨1000, 1000, 1/4, 0⟩], 1000, 1000, twoWaysCoef 0⟩
  obtain ⟨r, hr, -⟩ := C95_track (tol := 1) (twoWays_follows (m := M) 0 ⟨by norm_num [M], by norm_num [M], by norm_num [M]⟩ rfl rfl rfl rfl) (by norm_num) (by norm_num) (by norm_num)
  rw [← twoWays_start] at hr
  refine ⟨(fun _ => 0, z), ⟨M, ev, cov, 0, [r]⟩, rfl, rfl, fun j w hj => ?_, rfl, rfl, rfl, ⟨rfl, rfl⟩, ?_, hz, rfl, fun k tr hk => ?_⟩
  · match j with
    | 0 =>
      obtain rfl := Option.some.inj hj
      exact ⟨0, rfl, rfl⟩
    | j + 1 => simp [fixedArgs, coinArgs, twoWaysInputs] at hj
  · rw [← hf]
    exact fit_congr (m := fixedModel) (m' := M) rfl rfl rfl rfl _ _ _
  · match k with
    | 0 =>
      obtain rfl := Option.some.inj hk
      exact hr
    | k + 1 => simp at hk

end Oneka
