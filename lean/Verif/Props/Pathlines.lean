import Verif.Lemmas.PropsPathlines
import Verif.Props.Accuracy
import Verif.Props.Upstream

/-!
# C82: the traces of the library follow the pathlines of its models

`‖·‖` is the max norm of the plane.
-/

namespace Oneka

open Aquifer

/-! ## C82 -/

/-- C82: let `X` be the exact pathline upstream from the start through the model, and let there be flow in a tube of radius `ρ` around it: no wells, and a positive head if the aquifer is not treated
as confined. Let the upstream direction have the Lipschitz constant `L` and the bound `M` there, and be nowhere slower than `11/10 maxstep / H`. If `H` is at least the initial step 1/10 and at
most `1/(100 L)`, and the tube is wide enough, then tracing along the velocity that the library computes returns, without warning, and the vertex for time `t` is within
`22 maxstep (exp (L t) - 1)` of `X t`; consecutive vertices are different, less than `maxstep` apart, and at most the time `H` apart. -/
theorem C82_follows (m : Aquifer ℝ) (hm : m.Physical) (confined : Bool) (f : ℝ × ℝ → ℝ × ℝ) (hf : m.Upstream confined f) (X : ℝ → ℝ × ℝ) (start : ℝ × ℝ) (D tol maxstep L M H ρ : ℝ)
    (hX : Pathline f start D X) (hflow : ∀ q ∈ Tube X D ρ, m.OffWells q.1 q.2 ∧ ∃ b, m.Saturated confined q.1 q.2 b)
    (hlip : ∀ a ∈ Tube X D ρ, ∀ b ∈ Tube X D ρ, ‖f a - f b‖ ≤ L * ‖a - b‖) (hbound : ∀ a ∈ Tube X D ρ, ‖f a‖ ≤ M) (hD : 0 < D)
    (htol : (10/9)^5 * (2:ℝ)^(-52 : ℤ) < tol) (hmax : (10/9) * (2:ℝ)^(-52 : ℤ) < maxstep) (hL : 0 < L) (hM : 0 ≤ M) (hH : 1/10 ≤ H) (hLH : L * H ≤ 1/100)
    (hρ : 22 * maxstep * (Real.exp (L * D) - 1) + 25 * H * M ≤ ρ) (hfast : ∀ q ∈ Tube X D ρ, 11/10 * maxstep ≤ H * ‖f q‖) :
    ∃ r, computeBacktrace (.fin start.1) (.fin start.2) (.fin D) (.fin tol) (.fin maxstep) (fun _ => m.toX.reverseVelocity confined) = some r ∧ r.warning = none ∧
      ∃ path : List (ℝ × (ℝ × ℝ)), r.vertices = (start :: path.map Prod.snd).map floats ∧ ((0, start) :: path).IsChain (Stride H maxstep) ∧
        (∀ v ∈ path, v.1 ≤ D ∧ ‖v.2 - X v.1‖ ≤ 22 * maxstep * (Real.exp (L * v.1) - 1)) ∧ (path.map Prod.fst).getLast? = some D := by
  simp only [reverseVelocity_eq]
  obtain ⟨r, hr, hw, path, p1, p2, p3, p4⟩ := C80_follows (finPart fun _ => m.toX.backVelocity confined) f X start D tol maxstep L M H ρ hX
    ⟨hlip, hbound, fun n a v _ h => computes_of m hm confined hf (fun _ _ _ h => h) n a v h⟩
    (fun n q hq => by
      obtain ⟨hoff, b, hb⟩ := hflow q hq
      exact flows_total m hm confined hoff hb n) hD htol hmax hL hM hH hLH hρ hfast
  have ht0 : 0 ≤ tol := le_trans (by positivity) htol.le
  exact ⟨r.emb, backtrace_lift ht0 hr hw, by simp [Trace.emb, hw], path, by rw [← p1]; rfl, p2, p3, p4⟩

/-- C82 for runs: under the same conditions, a trace of a realization of a run that was not interrupted follows the exact pathline through the model of that realization. -/
theorem C82_realization {a : RunArgs} {la : LinAlg} {t : SWell} {q : Dist → ℕ → Except PyErr ℝ} {coefs : (Fin 6 → ℝ) → Matrix (Fin 6) (Fin 6) ℝ → Except PyErr (Fin 6 → ℝ)}
    {interrupt : ℕ → ℕ → Option PyErr} {T : RealizationLog} (R : Realized a la t q coefs interrupt T) {D tol maxstep : ℝ} (hd : a.duration = .fin D) (ht : a.tol = .fin tol)
    (hm : a.maxstep = .fin maxstep) (hP : T.model.Physical) (f : ℝ × ℝ → ℝ × ℝ) (hf : T.model.Upstream a.confined f) (k : ℕ) (hk : k < T.traces.length) (hi : ∀ n, interrupt k n = none)
    (X : ℝ → ℝ × ℝ) (L M H ρ : ℝ)
    (hX : Pathline f (t.xw + (t.rw + 1) * Real.cos (2 * Real.pi * k / a.npaths), t.yw + (t.rw + 1) * Real.sin (2 * Real.pi * k / a.npaths)) D X)
    (hflow : ∀ q ∈ Tube X D ρ, T.model.OffWells q.1 q.2 ∧ ∃ b, T.model.Saturated a.confined q.1 q.2 b)
    (hlip : ∀ a ∈ Tube X D ρ, ∀ b ∈ Tube X D ρ, ‖f a - f b‖ ≤ L * ‖a - b‖) (hbound : ∀ a ∈ Tube X D ρ, ‖f a‖ ≤ M) (hD : 0 < D)
    (htol : (10/9)^5 * (2:ℝ)^(-52 : ℤ) < tol) (hmax : (10/9) * (2:ℝ)^(-52 : ℤ) < maxstep) (hL : 0 < L) (hM : 0 ≤ M) (hH : 1/10 ≤ H) (hLH : L * H ≤ 1/100)
    (hρ : 22 * maxstep * (Real.exp (L * D) - 1) + 25 * H * M ≤ ρ) (hfast : ∀ q ∈ Tube X D ρ, 11/10 * maxstep ≤ H * ‖f q‖) :
    T.traces[k].warning = none ∧ ∃ path : List (ℝ × (ℝ × ℝ)), T.traces[k].vertices = (X 0 :: path.map Prod.snd).map floats ∧ ((0, X 0) :: path).IsChain (Stride H maxstep) ∧
      (∀ v ∈ path, v.1 ≤ D ∧ ‖v.2 - X v.1‖ ≤ 22 * maxstep * (Real.exp (L * v.1) - 1)) ∧ (path.map Prod.fst).getLast? = some D := by
  obtain ⟨r, hr, hw, h⟩ := C82_follows T.model hP a.confined f hf X _ D tol maxstep L M H ρ hX hflow hlip hbound hD htol hmax hL hM hH hLH hρ hfast
  have h' := R.traces k _ (List.getElem?_eq_getElem hk)
  rw [hd, ht, hm] at h'
  simp only [hi] at h'
  rw [hr] at h'
  obtain rfl := Option.some.inj h'
  rw [hX.1]
  exact ⟨hw, h⟩

/-! ## An example: a year upstream from a well -/

/-- a well at the origin and nothing else; the discharge is `5000 · 2π` (in terms of the constant of the code for `1/(2π)`) -/
noncomputable def lonely : Aquifer ℝ := ⟨0, 1, 1/4, 20, [⟨0, 0, 1, 5000 / (twoPiInv : ℚ)⟩], 0, 0, fun _ => 0⟩

/-- the direction away from the well, 1000 divided by the distance -/
noncomputable def away : ℝ × ℝ → ℝ × ℝ := fun q => (1000 * q.1 / (q.1^2 + q.2^2), 1000 * q.2 / (q.1^2 + q.2^2))

/-- the pathline on the axis: the area inside grows linearly -/
noncomputable def outward : ℝ → ℝ × ℝ := fun t => (Real.sqrt (1000000 + 2000 * t), 0)

theorem lonely_physical : lonely.Physical := ⟨by simp [lonely], by simp [lonely], by simp [lonely]⟩

theorem lonely_upstream : lonely.Upstream true away := by
  intro x y b hoff hs
  have hr : x^2 + y^2 ≠ 0 := by
    intro h
    have hx : x = 0 := by nlinarith [sq_nonneg x, sq_nonneg y]
    have hy : y = 0 := by nlinarith [sq_nonneg x, sq_nonneg y]
    exact hoff ⟨0, 0, 1, 5000 / (twoPiInv : ℚ)⟩ (by simp [lonely]) (by rw [hx, hy])
  obtain ⟨d1, d2⟩ := C29_partials lonely x y hoff
  simp only [Saturated, if_true, lonely] at hs
  subst hs
  have hp : ((twoPiInv : ℚ) : ℝ) ≠ 0 := by unfold twoPiInv; norm_num
  constructor
  · refine d1.congr_deriv ?_
    rw [discharge_eq]
    simp [lonely, away, Well.r2]
    field_simp
    ring
  · refine d2.congr_deriv ?_
    rw [discharge_eq]
    simp [lonely, away, Well.r2]
    field_simp
    ring

theorem outward_sqrt {t : ℝ} (h0 : 0 ≤ t) (h1 : t ≤ 365) : 1000 ≤ Real.sqrt (1000000 + 2000 * t) ∧ Real.sqrt (1000000 + 2000 * t) ≤ 1316 := by
  constructor
  · exact Real.le_sqrt_of_sq_le (by linarith)
  · exact Real.sqrt_le_iff.mpr ⟨by norm_num, by linarith⟩

theorem outward_path : Pathline away (1000, 0) 365 outward := by
  refine ⟨?_, fun t h0 h1 => ?_⟩
  · refine Prod.ext ?_ rfl
    show Real.sqrt (1000000 + 2000 * 0) = 1000
    rw [show (1000000 + 2000 * 0 : ℝ) = 1000^2 by norm_num, Real.sqrt_sq (by norm_num)]
  · have hpos : (0:ℝ) < 1000000 + 2000 * t := by linarith
    have hs : 0 < Real.sqrt (1000000 + 2000 * t) := Real.sqrt_pos.mpr hpos
    have h2 : HasDerivAt (fun t : ℝ => 1000000 + 2000 * t) 2000 t := by simpa using ((hasDerivAt_id t).const_mul 2000).const_add 1000000
    have h3 := (h2.sqrt hpos.ne').prodMk (hasDerivAt_const t (0:ℝ))
    refine h3.congr_deriv ?_
    refine Prod.ext ?_ ?_
    · show 2000 / (2 * Real.sqrt (1000000 + 2000 * t)) = 1000 * Real.sqrt (1000000 + 2000 * t) / (Real.sqrt (1000000 + 2000 * t)^2 + 0^2)
      rw [zero_pow two_ne_zero, add_zero, pow_two, mul_div_mul_right _ _ hs.ne', show (2000:ℝ) = 2 * 1000 by norm_num, mul_div_mul_left _ _ two_ne_zero]
    · simp [away, outward]

theorem outward_tube {q : ℝ × ℝ} (h : q ∈ Tube outward 365 100) : 900 ≤ q.1 ∧ q.1 ≤ 1416 ∧ |q.2| ≤ 100 := by
  obtain ⟨t, h0, h1, h⟩ := h
  obtain ⟨s1, s2⟩ := outward_sqrt h0 h1
  rw [Prod.norm_def, max_le_iff, Real.norm_eq_abs, Real.norm_eq_abs] at h
  simp only [outward, Prod.fst_sub, Prod.snd_sub, sub_zero] at h
  have := abs_le.mp h.1
  exact ⟨by linarith, by linarith, h.2⟩

theorem outward_flow (q : ℝ × ℝ) (h : q ∈ Tube outward 365 100) : lonely.OffWells q.1 q.2 ∧ ∃ b, lonely.Saturated true q.1 q.2 b := by
  refine ⟨fun w hw e => ?_, 20, by simp [Saturated, lonely]⟩
  have h1 := (outward_tube h).1
  simp only [lonely, List.mem_singleton] at hw
  subst hw
  have := (Prod.mk.inj e).1
  linarith

theorem away_lip {a b : ℝ × ℝ} (a1 : 900 ≤ a.1) (b1 : 900 ≤ b.1) : ‖away a - away b‖ ≤ 1/560 * ‖a - b‖ := by
  have ra : 810000 ≤ a.1^2 + a.2^2 := by nlinarith [sq_nonneg a.2]
  have rb : 810000 ≤ b.1^2 + b.2^2 := by nlinarith [sq_nonneg b.2]
  have n1 : |a.1 - b.1| ≤ ‖a - b‖ := by simpa using norm_fst_le (a - b)
  have n2 : |a.2 - b.2| ≤ ‖a - b‖ := by simpa using norm_snd_le (a - b)
  have m1 := sq_le_sq' (by linarith [abs_nonneg (a.1 - b.1)] : -‖a - b‖ ≤ |a.1 - b.1|) n1
  have m2 := sq_le_sq' (by linarith [abs_nonneg (a.2 - b.2)] : -‖a - b‖ ≤ |a.2 - b.2|) n2
  rw [sq_abs] at m1 m2
  have key : (away a - away b).1^2 + (away a - away b).2^2 = 1000000 * ((a.1 - b.1)^2 + (a.2 - b.2)^2) / ((a.1^2 + a.2^2) * (b.1^2 + b.2^2)) := by
    have ha0 : a.1^2 + a.2^2 ≠ 0 := by linarith
    have hb0 : b.1^2 + b.2^2 ≠ 0 := by linarith
    simp only [away, Prod.fst_sub, Prod.snd_sub]
    field_simp
    ring
  have bnd : (away a - away b).1^2 + (away a - away b).2^2 ≤ (1/560 * ‖a - b‖)^2 := by
    rw [key, div_le_iff₀ (by positivity)]
    have : (810000:ℝ) * 810000 ≤ (a.1^2 + a.2^2) * (b.1^2 + b.2^2) := mul_le_mul ra rb (by norm_num) (by linarith)
    nlinarith [sq_nonneg ‖a - b‖]
  have h0 : 0 ≤ 1/560 * ‖a - b‖ := by positivity
  rw [Prod.norm_def, max_le_iff, Real.norm_eq_abs, Real.norm_eq_abs]
  exact ⟨abs_le_of_sq_le_sq (by nlinarith [sq_nonneg (away a - away b).2]) h0, abs_le_of_sq_le_sq (by nlinarith [sq_nonneg (away a - away b).1]) h0⟩

theorem away_norm {q : ℝ × ℝ} (h1 : 900 ≤ q.1) (h2 : q.1 ≤ 1417) (h3 : |q.2| ≤ 100) : 7/10 ≤ ‖away q‖ ∧ ‖away q‖ ≤ 112/100 := by
  have hr : 0 < q.1^2 + q.2^2 := by nlinarith [sq_nonneg q.2]
  have hy : q.2^2 ≤ 10000 := by
    have := sq_le_sq' (by linarith [abs_nonneg q.2] : -100 ≤ |q.2|) h3
    rw [sq_abs] at this
    linarith
  constructor
  · refine le_trans ?_ ((le_abs_self _).trans (norm_fst_le (away q)))
    simp only [away]
    rw [le_div_iff₀ hr]
    nlinarith
  · rw [Prod.norm_def, max_le_iff, Real.norm_eq_abs, Real.norm_eq_abs]
    simp only [away, abs_div, abs_mul, abs_of_pos hr]
    rw [div_le_iff₀ hr, div_le_iff₀ hr, abs_of_pos (by linarith : 0 < q.1), abs_of_pos (by norm_num : (0:ℝ) < 1000)]
    constructor <;> nlinarith [sq_nonneg q.2]

theorem exp_outward : Real.exp (1/500 * 365) ≤ 2.08 := by
  have h := Real.exp_bound' (x := 1/500 * 365) (by norm_num) (by norm_num) (n := 5) (by norm_num)
  refine h.trans ?_
  simp [Finset.sum_range_succ, Nat.factorial]
  norm_num

/-- A year upstream from a well of about 31416 cubic metres per day: the call returns, without warning, and ends within 24 m of the exact end, which is 315 m from the start. -/
example : ∃ r, computeBacktrace (.fin 1000) (.fin 0) (.fin 365) (.fin 1) (.fin 1) (fun _ => lonely.toX.reverseVelocity true) = some r ∧ r.warning = none ∧
    ∃ p : ℝ × ℝ, r.vertices.getLast? = some (floats p) ∧ ‖p - (Real.sqrt 1730000, 0)‖ ≤ 24 := by
  have hE := exp_outward
  obtain ⟨r, hr, hw, path, h1, -, h3, h4⟩ := C82_follows lonely lonely_physical true away lonely_upstream outward (1000, 0) 365 1 1 (1/500) (112/100) 2 100 outward_path outward_flow
    (fun a ha b hb => (away_lip (outward_tube ha).1 (outward_tube hb).1).trans (mul_le_mul_of_nonneg_right (by norm_num) (norm_nonneg _)))
    (fun q hq => let h := outward_tube hq; (away_norm h.1 (by linarith [h.2.1]) h.2.2).2) (by norm_num) (by norm_num) (by norm_num) (by norm_num) (by norm_num) (by norm_num) (by norm_num) (by linarith)
    (fun q hq => by have h := outward_tube hq; have := (away_norm h.1 (by linarith [h.2.1]) h.2.2).1; linarith)
  refine ⟨r, hr, hw, ?_⟩
  rw [List.getLast?_map, Option.map_eq_some_iff] at h4
  obtain ⟨v, hv, hv1⟩ := h4
  refine ⟨v.2, ?_, ?_⟩
  · rw [h1, List.getLast?_map, List.getLast?_cons, List.getLast?_map, hv]
    rfl
  · have := (h3 v (List.mem_of_getLast? hv)).2
    rw [hv1] at this
    have e : outward 365 = (Real.sqrt 1730000, 0) := by unfold outward; norm_num
    rw [e] at this
    linarith

/-! ## An example for runs: a year upstream from an idle well in uniform flow -/

/-- the arguments: one path, thickness 20 and porosity 1/4 for certain -/
noncomputable def uniformArgs : RunArgs where
  target := 0
  npaths := 1
  duration := .fin 365
  base := 0
  cDist := .const 1
  pDist := .const (1/4)
  tDist := .const 20
  wells := [⟨0, 0, 1/4, .const 0⟩]
  obs := sixObs
  spacing := 4
  umbra := 4
  confined := true
  tol := .fin 1
  maxstep := .fin (1/30)

/-- the coefficients that were drawn: a potential that increases to the east -/
noncomputable def uniformCoef : Fin 6 → ℝ := fun i => if i = 3 then 1/2 else if i = 5 then 1000 else 0

/-- the model of the realization -/
noncomputable def uniformModel : Aquifer ℝ := ⟨0, 1, 1/4, 20, [⟨0, 0, 1/4, 0⟩], 0, 0, uniformCoef⟩

/-- its pathline from the start -/
noncomputable def eastward : ℝ → ℝ × ℝ := fun t => (5/4 + 1/10 * t, 0)

theorem uniform_physical : uniformModel.Physical := ⟨by simp [uniformModel], by simp [uniformModel], by simp [uniformModel]⟩

theorem uniform_upstream : uniformModel.Upstream true (fun _ => (1/10, 0)) := by
  intro x y b hoff hs
  obtain ⟨d1, d2⟩ := C29_partials uniformModel x y hoff
  simp only [Saturated, if_true, uniformModel] at hs
  subst hs
  constructor
  · refine d1.congr_deriv ?_
    rw [discharge_eq]
    simp [uniformModel, uniformCoef]
    norm_num
  · refine d2.congr_deriv ?_
    rw [discharge_eq]
    simp [uniformModel, uniformCoef]

theorem eastward_path : Pathline (fun _ => (1/10, 0)) (5/4, 0) 365 eastward := by
  refine ⟨by simp [eastward], fun t _ _ => ?_⟩
  have h : HasDerivAt (fun t : ℝ => 5/4 + 1/10 * t) (1/10) t := by simpa [-one_div] using ((hasDerivAt_id t).const_mul (1/10)).const_add (5/4)
  exact h.prodMk (hasDerivAt_const t (0:ℝ))

theorem eastward_flow (q : ℝ × ℝ) (h : q ∈ Tube eastward 365 (11/10)) : uniformModel.OffWells q.1 q.2 ∧ ∃ b, uniformModel.Saturated true q.1 q.2 b := by
  refine ⟨fun w hw e => ?_, 20, by simp [Saturated, uniformModel]⟩
  obtain ⟨t, h0, -, h⟩ := h
  have h1 := (norm_fst_le _).trans h
  simp only [uniformModel, List.mem_singleton] at hw
  subst hw
  rw [Real.norm_eq_abs, abs_le] at h1
  simp only [eastward, Prod.fst_sub, (Prod.mk.inj e).1] at h1
  linarith

theorem exp_eastward : Real.exp (1/10000 * 365) ≤ 1.04 := by
  have := Real.exp_bound_div_one_sub_of_interval (x := 1/10000 * 365) (by norm_num) (by norm_num)
  refine this.trans ?_
  norm_num

theorem uniform_start : (0 + (1/4 + 1) * Real.cos (2 * Real.pi * ((0:ℕ):ℝ) / (1:ℤ)), 0 + (1/4 + 1) * Real.sin (2 * Real.pi * ((0:ℕ):ℝ) / (1:ℤ))) = ((5/4, 0) : ℝ × ℝ) := by
  refine Prod.ext ?_ ?_
  · simp; norm_num
  · simp

/-- a realization that meets the hypotheses of `C82_realization` (and those of `C81_realization`) -/
example : ∃ T, Realized uniformArgs perfect ⟨0, 0, 1/4, .const 0⟩ (fun d _ => d.mean) (fun _ _ => .ok uniformCoef) (fun _ _ => none) T ∧ T.model = uniformModel ∧ T.traces.length = 1 ∧
    ∃ h : 0 < T.traces.length, ∃ p : ℝ × ℝ, T.traces[0].vertices.getLast? = some (floats p) ∧ ‖p - (37.75, 0)‖ ≤ 3/100 := by
  have hE := exp_eastward
  obtain ⟨tr, htr, -⟩ := C82_follows uniformModel uniform_physical true _ uniform_upstream eastward (5/4, 0) 365 1 (1/30) (1/10000) (1/10) (2/5) (11/10) eastward_path eastward_flow
    (fun a _ b _ => by simp) (fun a _ => by simp [Prod.norm_def]) (by norm_num) (by norm_num) (by norm_num) (by norm_num) (by norm_num) (by norm_num) (by norm_num)
    (by linarith) (fun q _ => by simp [Prod.norm_def]; norm_num)
  obtain ⟨⟨ev, cov⟩, hfit⟩ := (C37_degenerate perfect perfect_correct perfect_converges uniformModel (by simp [uniformModel]) (by simp [uniformModel]) sixObs 0 0 (sixObs_usable_of rfl (by simp [uniformModel]))).2 sixObs_general
  have R : Realized uniformArgs perfect ⟨0, 0, 1/4, .const 0⟩ (fun d _ => d.mean) (fun _ _ => .ok uniformCoef) (fun _ _ => none)
      ⟨uniformModel, ev, cov, 0, [tr]⟩ := by
    refine ⟨rfl, rfl, fun j w hj => ?_, rfl, rfl, rfl, ⟨rfl, rfl⟩, hfit, rfl, rfl, fun k tr' hk => ?_⟩
    · rcases j with _ | j
      · obtain rfl := Option.some.inj hj
        exact ⟨0, rfl, rfl⟩
      · simp [uniformArgs] at hj
    · rcases k with _ | k
      · obtain rfl := Option.some.inj hk
        have e := uniform_start
        rw [← htr]
        exact congrArg (fun s : ℝ × ℝ => computeBacktrace (.fin s.1) (.fin s.2) (.fin 365) (.fin 1) (.fin (1/30)) fun _ => uniformModel.toX.reverseVelocity true) e
      · simp at hk
  refine ⟨_, R, rfl, rfl, Nat.one_pos, ?_⟩
  obtain ⟨-, path, h1, -, h3, h4⟩ := C82_realization R rfl rfl rfl uniform_physical _ uniform_upstream 0 Nat.one_pos (fun _ => rfl) eastward (1/10000) (1/10) (2/5) (11/10)
    (uniform_start ▸ eastward_path) eastward_flow
    (fun a _ b _ => by simp) (fun a _ => by simp [Prod.norm_def]) (by norm_num) (by norm_num) (by norm_num) (by norm_num) (by norm_num) (by norm_num) (by norm_num)
    (by linarith) (fun q _ => by simp [Prod.norm_def]; norm_num)
  rw [List.getLast?_map, Option.map_eq_some_iff] at h4
  obtain ⟨v, hv, hv1⟩ := h4
  refine ⟨v.2, ?_, ?_⟩
  · rw [h1, List.getLast?_map, List.getLast?_cons, List.getLast?_map, hv]
    rfl
  · have := (h3 v (List.mem_of_getLast? hv)).2
    rw [hv1] at this
    have e : eastward 365 = (37.75, 0) := by unfold eastward; norm_num
    rw [e] at this
    linarith

end Oneka
