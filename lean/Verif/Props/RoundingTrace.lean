import Verif.Lemmas.FlFollow

/-!
# Traces in floating-point arithmetic (C90, C91, C92)

The tracer of `Verif/Model/Backtrace.lean` run on floating-point numbers: every sum, difference, product, quotient and square root is rounded to 53 binary digits. The power
function is whatever the C library provides (`LibM`).
-/

namespace Oneka
section
variable [LibM]

/-! ## C90 -/

/-- C90: a trace covers the duration up to rounding. All steps are positive; the clock, advanced in floating-point arithmetic, passes the duration by at most a unit in the
last place; it reaches the duration unless there was a warning, in which case the time reported is that of the clock, before the duration; and what the clock shows differs
from the exact sum of the steps by at most `2^-52 D` per step. -/
theorem C90_duration (hpow : PowPositive) (xs ys D tol maxstep : Fl) (feval : ℕ → Fl × Fl → Except PyErr (Fl × Fl)) (hD : 0 < D.val) (htol : 0 < tol.val) (hmax : 0 < maxstep.val)
    (r : Trace Fl) (h : computeBacktrace xs ys D tol maxstep feval = some r) :
    (∀ st ∈ r.steps, 0 < st.dt.val) ∧ r.vertices.length = r.steps.length + 1 ∧
    (clock (r.steps.map Accepted.dt)).val ≤ D.val + ulp D.val ∧
    |((r.steps.map Accepted.dt).map Fl.val).sum - (clock (r.steps.map Accepted.dt)).val| ≤ r.steps.length * (2 ^ (-52 : ℤ) * D.val) ∧
    (r.warning = none → D.val ≤ (clock (r.steps.map Accepted.dt)).val) ∧
    (∀ t, r.warning = some t → t = clock (r.steps.map Accepted.dt) ∧ t.val < D.val) := by
  obtain ⟨a, b, c, d, e⟩ := trace_time_fl hpow hD htol hmax h
  have e2 : 2 * eps = 2 ^ (-52 : ℤ) := by unfold eps; norm_num [zpow_neg]
  rw [e2] at c
  exact ⟨a, by rw [trace_vertices h]; simp, b, c, d, e⟩

/-! ## C91 -/

/-- C91: the accuracy of a trace in floating-point arithmetic. `X` is the exact pathline of the velocity `f`, which is Lipschitz (`L`) and bounded (`M`) in the tube of radius
`ρ` around it; the velocities that the program answers there are within `ν` of `f`. Then the vertices of a trace of at most `N` steps, none longer than `H`, are visited at
increasing times, at most `H` and one `maxstep` (up to rounding) apart, and the vertex at time `t` differs from `X t` by at most `22 m (exp (L t) - 1) + (N η + 2 t μ) exp (L t)`. Here `η` is the rounding error of a position, `μ` the
resulting error of a velocity, and `m` is `maxstep` with the roundings of a step added. -/
theorem C91_accuracy (hpow : PowPositive) (feval : ℕ → Fl × Fl → Except PyErr (Fl × Fl)) (f : ℝ × ℝ → ℝ × ℝ) (X : ℝ → ℝ × ℝ) (xs ys D tol maxstep : Fl) (L M H ρ R ν η μ m T : ℝ) (N : ℕ)
    (hη : η = 2 ^ (-53 : ℤ) * (R + 18 * ρ)) (hμ : μ = ν + L * η) (hm : m = maxstep.val * (1 + 2 ^ (-51 : ℤ)) + η + 3 * (H * μ)) (hT : T = D.val * (1 + (N + 1) * 2 ^ (-52 : ℤ)))
    (hX : Pathline f (fv (xs, ys)) T X) (hR : ∀ t, 0 ≤ t → t ≤ T → ‖X t‖ ≤ R) (hf : Moderate f (Tube X T ρ) L M) (hfe : Approximates feval f (Tube X T ρ) ν)
    (hD : 0 < D.val) (htol : 0 < tol.val) (hmax : 0 < maxstep.val) (hL : 0 < L) (hM : 0 ≤ M) (hH : 0 ≤ H) (hν : 0 ≤ ν) (hρ0 : 0 ≤ ρ) (hLH : L * H ≤ 1/100)
    (hρ : 22 * m * (Real.exp (L * T) - 1) + (N * η + 2 * (T * μ)) * Real.exp (L * T) + 25 * (H * (M + μ)) + η ≤ ρ)
    (r : Trace Fl) (h : computeBacktrace xs ys D tol maxstep feval = some r) (hN : r.steps.length ≤ N) (hst : ∀ st ∈ r.steps, st.dt.val ≤ H) :
    ∃ path : List (ℝ × (Fl × Fl)), r.vertices = (xs, ys) :: path.map Prod.snd ∧ ((0, (xs, ys)) :: path).IsChain (StrideFl H (maxstep.val * (1 + 2 ^ (-51 : ℤ)))) ∧
      (∀ v ∈ path, v.1 ≤ T ∧ ‖fv v.2 - X v.1‖ ≤ 22 * m * (Real.exp (L * v.1) - 1) + (N * η + 2 * (v.1 * μ)) * Real.exp (L * v.1)) ∧
      (r.warning = none → ∃ t, (0 :: path.map Prod.fst).getLast? = some t ∧ |t - D.val| ≤ (N + 1) * (2 ^ (-52 : ℤ) * D.val)) := by
  have e1 : 4 * eps = 2 ^ (-51 : ℤ) := by unfold eps; norm_num [zpow_neg]
  have e2 : 2 * eps = 2 ^ (-52 : ℤ) := by unfold eps; norm_num [zpow_neg]
  have e := eps_pos
  have T0 : 0 ≤ T := by rw [hT, ← e2]; positivity
  have R0 : 0 ≤ R := (norm_nonneg _).trans (hR 0 le_rfl T0)
  have A : AccurateFl feval f X (fv (xs, ys)) T L M H ρ m maxstep.val R ν η μ N :=
    ⟨hX, hf, hfe, hL, hLH, hM, hH, hmax, hν, by rw [hη]; positivity, hη, hμ, by rw [e1]; exact hm, hR, hρ⟩
  obtain ⟨a, b, c, d, -⟩ := trace_time_fl hpow hD htol hmax h
  refine ⟨marksFl 0 r.steps, ?_, e1 ▸ trace_strides h a hst, accuracy_fl hpow A hD htol (by rw [e2, hT]) h hN hst, fun hw => ⟨0 + timeOf r.steps, marksFl_last 0 r.steps, ?_⟩⟩
  · rw [marksFl_snd]; exact trace_vertices h
  · have d := d hw
    have u := ulp_eps hD
    change |timeOf r.steps - _| ≤ _ at c
    have n : ((r.steps.length : ℕ) : ℝ) ≤ N := by exact_mod_cast hN
    have n' := mul_le_mul_of_nonneg_right n (by positivity : 0 ≤ 2 * eps * D.val)
    rw [zero_add, ← e2]
    rw [abs_le] at c ⊢
    constructor <;> linarith [c.1, c.2]

/-- C91: if moreover the velocity in the tube is nowhere slower than `6/5 maxstep / H`, no evaluation there raises, and the magnitudes are not too far apart (see C92), the call
returns, without warning, a complete trace with that accuracy. Nothing is assumed about the program outside the tube. -/
theorem C91_follows (hroot : RootAccurate) (feval : ℕ → Fl × Fl → Except PyErr (Fl × Fl)) (f : ℝ × ℝ → ℝ × ℝ) (X : ℝ → ℝ × ℝ) (xs ys D tol maxstep : Fl) (L M H ρ R ν η μ m T : ℝ) (N : ℕ)
    (hη : η = 2 ^ (-53 : ℤ) * (R + 18 * ρ)) (hμ : μ = ν + L * η) (hm : m = maxstep.val * (1 + 2 ^ (-51 : ℤ)) + η + 3 * (H * μ)) (hT : T = D.val * (1 + (N + 1) * 2 ^ (-52 : ℤ)))
    (hX : Pathline f (fv (xs, ys)) T X) (hR : ∀ t, 0 ≤ t → t ≤ T → ‖X t‖ ≤ R) (hf : Moderate f (Tube X T ρ) L M) (hfe : Approximates feval f (Tube X T ρ) ν)
    (htotal : ∀ n q, fv q ∈ Tube X T ρ → ∃ v, feval n q = .ok v)
    (hD : 0 < D.val) (hD40 : D.val ≤ 2 ^ 40) (htol : 2 ^ (-50 : ℤ) ≤ tol.val) (hmax : 2 ^ (-50 : ℤ) ≤ maxstep.val) (h1 : (M + ν) * D.val ≤ 2 ^ 37 * tol.val)
    (h2 : (M + ν) * D.val ≤ 2 ^ 37 * maxstep.val) (hs : ‖fv (xs, ys)‖ ≤ 2 ^ 47 * maxstep.val)
    (hL : 0 < L) (hM : 0 ≤ M) (hH : 11/100 ≤ H) (hν : 0 ≤ ν) (hρ0 : 0 ≤ ρ) (hLH : L * H ≤ 1/100)
    (hρ : 22 * m * (Real.exp (L * T) - 1) + (N * η + 2 * (T * μ)) * Real.exp (L * T) + 25 * (H * (M + μ)) + η ≤ ρ)
    (hfast : ∀ q ∈ Tube X T ρ, 6/5 * maxstep.val ≤ H * ‖f q‖) (hfine : 3 * (H * μ) + 10 * η ≤ maxstep.val / 100)
    (hN : 9 + 40 * D.val + 16 * ((M + ν) * D.val / tol.val) + 288 * ((M + ν) * D.val / maxstep.val) ≤ N) :
    ∃ r, computeBacktrace xs ys D tol maxstep feval = some r ∧ r.warning = none ∧
      ∃ path : List (ℝ × (Fl × Fl)), r.vertices = (xs, ys) :: path.map Prod.snd ∧ ((0, (xs, ys)) :: path).IsChain (StrideFl H (maxstep.val * (1 + 2 ^ (-51 : ℤ)))) ∧
        (∀ v ∈ path, v.1 ≤ T ∧ ‖fv v.2 - X v.1‖ ≤ 22 * m * (Real.exp (L * v.1) - 1) + (N * η + 2 * (v.1 * μ)) * Real.exp (L * v.1)) ∧
        ∃ t, (0 :: path.map Prod.fst).getLast? = some t ∧ |t - D.val| ≤ (N + 1) * (2 ^ (-52 : ℤ) * D.val) := by
  classical
  have e1 : 4 * eps = 2 ^ (-51 : ℤ) := by unfold eps; norm_num [zpow_neg]
  have e2 : 2 * eps = 2 ^ (-52 : ℤ) := by unfold eps; norm_num [zpow_neg]
  have e := eps_pos
  have ht0 : 0 < tol.val := lt_of_lt_of_le (by positivity) htol
  have hm0 : 0 < maxstep.val := lt_of_lt_of_le (by positivity) hmax
  have H0 : 0 ≤ H := le_trans (by norm_num) hH
  have T0 : 0 ≤ T := by rw [hT, ← e2]; positivity
  have R0 : 0 ≤ R := (norm_nonneg _).trans (hR 0 le_rfl T0)
  let g : ℕ → Fl × Fl → Except PyErr (Fl × Fl) := fun n q => if fv q ∈ Tube X T ρ then feval n q else .ok (0, 0)
  have hg : ∀ n q, fv q ∈ Tube X T ρ → g n q = feval n q := fun n q hq => if_pos hq
  have hga : Approximates g f (Tube X T ρ) ν := fun n q v hq hv => hfe n q v hq (by rw [← hg n q hq]; exact hv)
  have hgb : ∀ n q v, g n q = .ok v → ‖fv v‖ ≤ M + ν := by
    intro n q v hv
    by_cases hq : fv q ∈ Tube X T ρ
    · have h3 := hga n q v hq hv
      have h4 := hf.bound _ hq
      have := norm_add_le (fv v - f (fv q)) (f (fv q))
      rw [sub_add_cancel] at this
      linarith
    · simp only [g, if_neg hq] at hv
      obtain rfl := Except.ok.inj hv
      have : fv ((0, 0) : Fl × Fl) = 0 := by unfold fv; simp
      rw [this, norm_zero]; linarith
  obtain ⟨δ, d, B, hc⟩ := bounded_of hgb (by linarith) hD hD40 htol hmax h1 h2
  have A : AccurateFl g f X (fv (xs, ys)) T L M H ρ m maxstep.val R ν η μ N :=
    ⟨hX, hf, hga, hL, hLH, hM, H0, hm0, hν, by rw [hη]; positivity, hη, hμ, by rw [e1]; exact hm, hR, hρ⟩
  have FA : FastFl g f X (fv (xs, ys)) D tol maxstep T L M H ρ m R ν η μ (M + ν) (2 ^ 47 * maxstep.val) δ d N :=
    ⟨A, B, by rw [e2, hT], fun n hn => by have := (hc n hn).trans hN; exact_mod_cast this, hH, hfast, hfine⟩
  obtain ⟨r, hr, hw, hn, hst⟩ := FA.returns hroot (fe' := feval) hs (fun n q hq => (hg n q hq).symm) (fun n q hq => by
    obtain ⟨v, hv⟩ := htotal n q hq
    exact ⟨v, (hg n q hq).trans hv⟩)
  obtain ⟨path, p1, p2, p3, p4⟩ := C91_accuracy hroot.pos feval f X xs ys D tol maxstep L M H ρ R ν η μ m T N hη hμ hm hT hX hR hf hfe hD ht0 hm0 hL hM H0 hν hρ0 hLH hρ r hr hn hst
  exact ⟨r, hr, hw, path, p1, p2, p3, p4 hw⟩

/-! ## C92 -/

/-- C92: if the velocities answered are bounded by `M`, the call returns, and after boundedly many steps, unless the magnitudes are so far apart that rounding stalls it: the way
`M D` may be up to `2^37` times `tol` and `maxstep`, the duration up to `2^40`, the distance from the origin up to `2^47 maxstep`. -/
theorem C92_returns (hroot : RootAccurate) (xs ys D tol maxstep : Fl) (M : ℝ) (feval : ℕ → Fl × Fl → Except PyErr (Fl × Fl)) (hb : ∀ n q v, feval n q = .ok v → ‖fv v‖ ≤ M)
    (hM : 0 ≤ M) (hD : 0 < D.val) (hD40 : D.val ≤ 2 ^ 40) (htol : 2 ^ (-50 : ℤ) ≤ tol.val) (hmax : 2 ^ (-50 : ℤ) ≤ maxstep.val) (h1 : M * D.val ≤ 2 ^ 37 * tol.val)
    (h2 : M * D.val ≤ 2 ^ 37 * maxstep.val) (hs : ‖fv (xs, ys)‖ ≤ 2 ^ 47 * maxstep.val) :
    ∃ r, computeBacktrace xs ys D tol maxstep feval = some r ∧
      r.steps.length ≤ 9 + 40 * D.val + 16 * (M * D.val / tol.val) + 288 * (M * D.val / maxstep.val) := by
  obtain ⟨δ, d, B, hc⟩ := bounded_of hb hM hD hD40 htol hmax h1 h2
  obtain ⟨r, hr, hn⟩ := returns_fl hroot B hs
  exact ⟨r, hr, hc _ hn⟩

end

/-! ## A shear flow

`f (x, y) = (1, x / 1000)`, evaluated with rounding, with a C library that rounds to nearest; the exact pathline from the origin is the parabola `(t, t² / 2000)`. -/

/-- a library that rounds to nearest -/
@[instance_reducible] noncomputable def nearestLib : LibM :=
  ⟨fun x => Fl.of (x.val ^ ((1:ℝ)/5)), fun x => Fl.of (Real.log x.val), fun x => Fl.of (Real.cos x.val), fun x => Fl.of (Real.sin x.val), Fl.of Real.pi⟩

theorem nearestLib_root : @RootAccurate nearestLib := by
  intro x hx
  have h := round53_accurate (x.val ^ ((1:ℝ)/5))
  have h0 := (Real.rpow_pos_of_pos hx ((1:ℝ)/5)).le
  rw [abs_of_nonneg h0] at h
  have e' : (2:ℝ) ^ (-53:ℤ) = eps := rfl
  rw [e'] at h
  have := mul_le_mul_of_nonneg_right eps_small h0
  change |round53 (x.val ^ ((1:ℝ)/5)) - _| ≤ _
  linarith

/-- shear -/
noncomputable def shear (q : ℝ × ℝ) : ℝ × ℝ := (1, q.1 / 1000)

/-- shear, computed with rounding -/
noncomputable def shearFl : ℕ → Fl × Fl → Except PyErr (Fl × Fl) := fun _ q => .ok (Fl.of 1, q.1 / Fl.of 1000)

/-- its pathline from the origin -/
noncomputable def parabola (t : ℝ) : ℝ × ℝ := (t, t ^ 2 / 2000)

theorem thousand : (Fl.of 1000).val = 1000 := by
  have := round53_exact 1000 0 (by norm_num)
  simp at this
  exact this

theorem parabola_path (T : ℝ) : Pathline shear (fv (0, 0)) T parabola := by
  refine ⟨by simp [parabola, fv], fun t _ _ => ?_⟩
  have h1 : HasDerivAt (fun t : ℝ => t ^ 2 / 2000) (t / 1000) t := by
    have := ((hasDerivAt_id t).mul (hasDerivAt_id t)).div_const 2000
    refine (this.congr_deriv (by simp; ring)).congr_of_eventuallyEq (Filter.Eventually.of_forall fun s => ?_)
    simp; ring
  exact (hasDerivAt_id t).prodMk h1

theorem shear_tube {T ρ : ℝ} (hT : T ≤ 2) (hρ : ρ ≤ 98) {q : ℝ × ℝ} (hq : q ∈ Tube parabola T ρ) : |q.1| ≤ 100 := by
  obtain ⟨t, t0, tT, h⟩ := hq
  have := (norm_fst_le (q - parabola t)).trans h
  rw [Prod.fst_sub, Real.norm_eq_abs, abs_le] at this
  change _ ≤ q.1 - t ∧ q.1 - t ≤ _ at this
  rw [abs_le]
  constructor <;> linarith [this.1, this.2]

theorem shear_norm {q : ℝ × ℝ} (hq : |q.1| ≤ 100) : ‖shear q‖ = 1 := by
  rw [Prod.norm_def]
  simp only [shear, norm_one]
  refine max_eq_left ?_
  rw [Real.norm_eq_abs, abs_div, abs_of_pos (by norm_num : (0:ℝ) < 1000)]
  linarith

theorem shear_tame {T ρ : ℝ} (hT : T ≤ 2) (hρ : ρ ≤ 98) : Moderate shear (Tube parabola T ρ) (1/1000) 1 where
  lip a _ b _ := by
    have := norm_fst_le (a - b)
    rw [Prod.fst_sub, Real.norm_eq_abs] at this
    rw [Prod.norm_def]
    refine max_le ?_ ?_
    · simp only [shear, Prod.fst_sub, sub_self, norm_zero]
      positivity
    · simp only [shear, Prod.snd_sub]
      rw [← sub_div, Real.norm_eq_abs, abs_div, abs_of_pos (by norm_num : (0:ℝ) < 1000)]
      linarith
  bound a ha := (shear_norm (shear_tube hT hρ ha)).le

theorem shear_approx {T ρ : ℝ} (hT : T ≤ 2) (hρ : ρ ≤ 98) : Approximates shearFl shear (Tube parabola T ρ) (2 ^ (-53 : ℤ)) := by
  intro n q v hq hv
  obtain rfl := Except.ok.inj hv
  have h1 : (Fl.of 1).val = 1 := round53_one
  have hx := shear_tube hT hρ hq
  refine (Prod.norm_def _).trans_le (max_le ?_ ?_)
  · simp only [fv, shear, Prod.fst_sub, h1, sub_self, norm_zero]
    positivity
  · simp only [fv, shear, Prod.snd_sub, Fl.div_val, thousand]
    refine (round53_accurate _).trans ?_
    refine mul_le_of_le_one_right (by positivity) ?_
    rw [abs_div, abs_of_pos (by norm_num : (0:ℝ) < 1000)]
    change |q.1.val| ≤ 100 at hx
    linarith

/-- C91, C92 and C90: the trace of the shear flow for one time unit, with `tol = 1/64` and `maxstep = 1/8`. -/
example : letI := nearestLib
    ∃ r, computeBacktrace 0 0 (Fl.of 1) (Fl.of (1/64)) (Fl.of (1/8)) shearFl = some r ∧ r.warning = none ∧
      ∃ path : List (ℝ × (Fl × Fl)), r.vertices = (0, 0) :: path.map Prod.snd ∧ (0 :: path.map Prod.fst).IsChain (· < ·) ∧ (∀ v ∈ path, ‖fv v.2 - parabola v.1‖ ≤ 1/300) ∧
        ∃ t, (0 :: path.map Prod.fst).getLast? = some t ∧ |t - 1| ≤ 1/1000000 := by
  let _ := nearestLib
  have h1 : (Fl.of 1).val = 1 := round53_one
  have h64 : (Fl.of (1/64)).val = 1/64 := by
    have := round53_zpow (-6)
    norm_num [zpow_neg] at this ⊢
    exact this
  have h8 : (Fl.of (1/8)).val = 1/8 := by
    have := round53_zpow (-3)
    norm_num [zpow_neg] at this ⊢
    exact this
  have hT : (1 + ((4000 : ℕ) + 1) * (2:ℝ) ^ (-52 : ℤ)) ≤ 10001/10000 := by norm_num [zpow_neg]
  have hT0 : 0 ≤ (1 + ((4000 : ℕ) + 1) * (2:ℝ) ^ (-52 : ℤ)) := by positivity
  have hexp : ∀ t : ℝ, t ≤ 10001/10000 → Real.exp (1/1000 * t) ≤ 1 + 1002/1000000 := by
    intro t ht
    refine (Real.exp_le_exp.mpr (by linarith : 1/1000 * t ≤ 10001/10000000)).trans ?_
    refine (Real.exp_bound_div_one_sub_of_interval (by norm_num) (by norm_num)).trans ?_
    norm_num
  have z : fv ((0, 0) : Fl × Fl) = 0 := by unfold fv; simp
  obtain ⟨r, hr, hw, path, p1, p2, p3, t, p4, p5⟩ := C91_follows nearestLib_root shearFl shear parabola 0 0 (Fl.of 1) (Fl.of (1/64)) (Fl.of (1/8)) (1/1000) 1 (15/100) 10 2 (2 ^ (-53 : ℤ))
    _ _ _ _ 4000 rfl rfl rfl rfl (parabola_path _) (by
      intro t t0 tT
      rw [h1, one_mul] at tT
      have tT := tT.trans hT
      refine (Prod.norm_def _).trans_le (max_le ?_ ?_)
      · simp only [parabola, Real.norm_eq_abs, abs_of_nonneg t0]; linarith
      · simp only [parabola, Real.norm_eq_abs]
        rw [abs_of_nonneg (by positivity)]
        nlinarith) (shear_tame (by rw [h1, one_mul]; exact hT.trans (by norm_num)) (by norm_num)) (shear_approx (by rw [h1, one_mul]; exact hT.trans (by norm_num)) (by norm_num)) (fun n q _ => ⟨_, rfl⟩)
    (by rw [h1]; norm_num) (by rw [h1]; norm_num) (by rw [h64]; norm_num [zpow_neg]) (by rw [h8]; norm_num [zpow_neg]) (by rw [h1, h64]; norm_num [zpow_neg])
    (by rw [h1, h8]; norm_num [zpow_neg]) (by rw [z, norm_zero, h8]; norm_num) (by norm_num) (by norm_num) (by norm_num) (by positivity) (by norm_num) (by norm_num) (by
      rw [h1, one_mul, h8]
      have := hexp _ hT
      have e0 := Real.exp_pos (1/1000 * (1 + ((4000 : ℕ) + 1) * (2:ℝ) ^ (-52 : ℤ)))
      set E := Real.exp (1/1000 * (1 + ((4000 : ℕ) + 1) * (2:ℝ) ^ (-52 : ℤ)))
      norm_num [zpow_neg]
      linarith) (by
      intro q hq
      rw [h1, one_mul] at hq
      rw [shear_norm (shear_tube (hT.trans (by norm_num)) (by norm_num) hq), h8]; norm_num) (by rw [h8]; norm_num [zpow_neg]) (by rw [h1, h64, h8]; norm_num [zpow_neg])
  refine ⟨r, hr, hw, path, p1, strides_times p2, fun v hv => ?_, t, p4, ?_⟩
  · obtain ⟨a, b⟩ := p3 v hv
    refine b.trans ?_
    rw [h1, one_mul] at a
    have v0 : 0 ≤ v.1 := by
      have := List.isChain_iff_pairwise.mp (strides_times p2)
      rw [List.pairwise_cons] at this
      exact (this.1 v.1 (List.mem_map_of_mem hv)).le
    have a' := a.trans hT
    have h3 := hexp _ a'
    have h4 := Real.exp_pos (1/1000 * v.1)
    rw [h8]
    set E := Real.exp (1/1000 * v.1)
    have h5 : v.1 * E ≤ 2 * 2 := mul_le_mul (by linarith) (by linarith) h4.le (by norm_num)
    norm_num [zpow_neg]
    nlinarith
  · rw [h1] at p5
    refine p5.trans ?_
    norm_num [zpow_neg]

/-- C90: the trace above covers the time unit, to the last place. -/
example (r : Trace Fl) : letI := nearestLib
    computeBacktrace 0 0 (Fl.of 1) (Fl.of (1/64)) (Fl.of (1/8)) shearFl = some r → (clock (r.steps.map Accepted.dt)).val ≤ 1 + ulp 1 := by
  let _ := nearestLib
  intro h
  have h1 : (Fl.of 1).val = 1 := round53_one
  have := (C90_duration nearestLib_root.pos 0 0 (Fl.of 1) (Fl.of (1/64)) (Fl.of (1/8)) shearFl (by rw [h1]; norm_num) (round53_pos (by norm_num)) (round53_pos (by norm_num)) r h).2.2.1
  rwa [h1] at this

/-- C92: any program that answers velocities up to 1, for ten years, starting ten kilometres away. -/
example (feval : ℕ → Fl × Fl → Except PyErr (Fl × Fl)) (hb : ∀ n q v, feval n q = .ok v → ‖fv v‖ ≤ 1) : letI := nearestLib
    ∃ r, computeBacktrace (Fl.of 10000) (Fl.of 10000) (Fl.of 3652) (Fl.of 1) (Fl.of 16) feval = some r := by
  let _ := nearestLib
  have int : ∀ n : ℕ, n ≤ 2 ^ 53 → (Fl.of n).val = n := by
    intro n hn
    have := round53_exact n 0 (by rw [abs_of_nonneg (by positivity)]; exact_mod_cast hn)
    simp at this
    exact this
  have a := int 10000 (by norm_num); have b := int 3652 (by norm_num); have c := int 1 (by norm_num); have d := int 16 (by norm_num)
  push_cast at a b c d
  obtain ⟨r, hr, -⟩ := C92_returns nearestLib_root (Fl.of 10000) (Fl.of 10000) (Fl.of 3652) (Fl.of 1) (Fl.of 16) 1 feval hb (by norm_num) (by rw [b]; norm_num) (by rw [b]; norm_num)
    (by rw [c]; norm_num [zpow_neg]) (by rw [d]; norm_num [zpow_neg]) (by rw [b, c]; norm_num) (by rw [b, d]; norm_num) (by
      rw [Prod.norm_def]
      simp only [fv, a, d]
      norm_num)
  exact ⟨r, hr⟩

end Oneka
