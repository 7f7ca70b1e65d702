import Verif.Props.Divide
import Verif.Props.WidthExamples

/-!
# Examples for C144
-/

namespace Oneka

open Aquifer Set

/-- `C144_divides`, `C144_near` and `C144_shape` for the well of `WidthExamples.lean`: the water 2 m north of the well is inside, and so is all water that it is carried to; the water 6 m north of it is outside, and so is all water that it is carried to. -/
example : ∃ c : ℝ, InsideDivide ⟨0, 0, 2, 100⟩ 5 0 c (0, 2) ∧ ¬ InsideDivide ⟨0, 0, 2, 100⟩ 5 0 c (0, 6) ∧
    (∃ γ τ, 0 < τ ∧ γ 0 = (0, 2) ∧ windModel.Carries true γ τ ∧ InsideDivide ⟨0, 0, 2, 100⟩ 5 0 c (γ τ)) ∧
    (∃ γ τ, 0 < τ ∧ γ 0 = (0, 6) ∧ windModel.Carries true γ τ ∧ ¬ InsideDivide ⟨0, 0, 2, 100⟩ 5 0 c (γ τ)) := by
  have hs : Real.sqrt ((5:ℝ) ^ 2 + 0 ^ 2) = 5 := by
    rw [show (5:ℝ) ^ 2 + 0 ^ 2 = 5 ^ 2 by norm_num]
    exact Real.sqrt_sq (by norm_num)
  have h2 := Real.pi_lt_d2
  obtain ⟨c, hc, hall⟩ := C144_divides wind_physical wind_uniform (by norm_num)
  have i1 : InsideDivide ⟨0, 0, 2, 100⟩ 5 0 c (0, 2) := by
    refine C144_near (by norm_num) (by norm_num) hc ?_
    have e : euclid (0, 2) ((0:ℝ), (0:ℝ)) = 2 := by
      simp only [euclid]
      rw [show ((0:ℝ) - 0) ^ 2 + (0 - 2) ^ 2 = 2 ^ 2 by norm_num]
      exact Real.sqrt_sq (by norm_num)
    rw [e]
    unfold stagnation
    rw [hs, mul_div_assoc', le_div_iff₀ (by positivity)]
    norm_num
    linarith
  have i2 : ¬ InsideDivide ⟨0, 0, 2, 100⟩ 5 0 c (0, 6) := by
    intro h
    have := (C144_shape (by norm_num) (by norm_num) hc _).1 h
    have hb : bearing ⟨0, 0, 2, 100⟩ 5 0 (0, 6) = Real.pi / 2 := by
      unfold bearing
      rw [Complex.arg_eq_pi_div_two_iff]
      norm_num [downstream, leftOf]
    rw [hb, abs_of_pos (by positivity), show Real.pi / 2 / Real.pi = 1 / 2 by field_simp] at this
    unfold fromAxis leftOf halfWidth at this
    rw [hs] at this
    norm_num at this
  refine ⟨c, i1, i2, ?_, ?_⟩
  · obtain ⟨γ, τ, h0, g0, hγ, -⟩ := wind_carries (p := (0, 2)) (by simp) Filter.univ_mem
    exact ⟨γ, τ, h0, g0, hγ, (hall _ γ τ h0.le hγ).mp (g0 ▸ i1)⟩
  · obtain ⟨γ, τ, h0, g0, hγ, -⟩ := wind_carries (p := (0, 6)) (by simp) Filter.univ_mem
    exact ⟨γ, τ, h0, g0, hγ, fun h => (g0 ▸ i2) ((hall _ γ τ h0.le hγ).mpr h)⟩

/-! ## A call with a well that pumps in a uniform flow -/

/-- the arguments: a well that pumps 1/2, one path, a day, 100 realizations -/
noncomputable def pumpedWays : PyArgs :=
  { exampleCall 100 with npaths := .int 1, duration := .int 1, pDist := fl (1/4), wells := .list [.tuple [fl 1000, fl 1000, fl (1/4), fl (1/2)]], maxstep := fl (1/2000), umbra := fl 3 }

/-- the numbers in it -/
noncomputable def pumpedInputs : Inputs :=
  { exampleInputs 100 with run := { (exampleInputs 100).run with npaths := 1, duration := .fin 1, pDist := .const (1/4), wells := [⟨1000, 1000, 1/4, .const (1/2)⟩], maxstep := .fin (1/2000), umbra := 3 } }

/-- the coefficients that are drawn: the water comes from the east -/
noncomputable def pumpedCoef : Fin 6 → ℝ := fun j => if j = 3 then 1/20 else if j = 5 then 1000 else 0

/-- the environment -/
noncomputable def pumpedEnv (t : DateTime) : CallEnv :=
  { exampleCallEnv 0 t with run := { exampleEnv 0 with mvn := fun _ _ _ => .ok pumpedCoef, interrupt := fun _ _ _ => none } }

/-- the upstream direction -/
noncomputable def pumpedUp (p : ℝ × ℝ) : ℝ × ℝ :=
  (1/100 + twoPiInv / 10 * ((p.1 - 1000) / ((p.1 - 1000) ^ 2 + (p.2 - 1000) ^ 2)), twoPiInv / 10 * ((p.2 - 1000) / ((p.1 - 1000) ^ 2 + (p.2 - 1000) ^ 2)))

/-- the way upstream along the axis, from the eastern starting point -/
theorem pumped_axis : ∃ x : ℝ → ℝ, x 0 = 5/4 ∧ ∀ t, 0 ≤ t → t ≤ 1 → 5/4 ≤ x t ∧ HasDerivAt x (1/100 + twoPiInv / 10 / x t) t := by
  obtain ⟨k1, k2⟩ := twoPiInv_bounds
  have hlip : ∀ a b : ℝ, |(max a 1)⁻¹ - (max b 1)⁻¹| ≤ |a - b| := by
    intro a b
    have ha : (1:ℝ) ≤ max a 1 := le_max_right _ _
    have hb : (1:ℝ) ≤ max b 1 := le_max_right _ _
    rw [inv_sub_inv (by positivity) (by positivity), abs_div]
    have hab : 1 ≤ |max a 1 * max b 1| := by
      rw [abs_of_pos (by positivity)]
      nlinarith
    refine (div_le_self (abs_nonneg _) hab).trans ?_
    rw [abs_sub_comm]
    have := abs_max_sub_max_le_abs a b 1
    exact this
  have hb : ∀ a : ℝ, 0 < (max a 1)⁻¹ ∧ (max a 1)⁻¹ ≤ 1 := by
    intro a
    have ha : (1:ℝ) ≤ max a 1 := le_max_right _ _
    exact ⟨by positivity, inv_le_one_of_one_le₀ ha⟩
  have hPL : IsPicardLindelof (fun _ x : ℝ => 1/100 + twoPiInv / 10 * (max x 1)⁻¹) (tmin := -2) (tmax := 2) ⟨0, by norm_num⟩ (5/4) 2 0 1 1 := by
    refine ⟨fun t _ => ?_, fun x _ => continuousOn_const, fun t _ x _ => ?_, ?_⟩
    · refine LipschitzWith.lipschitzOnWith (LipschitzWith.of_dist_le_mul fun a b => ?_)
      rw [Real.dist_eq, Real.dist_eq, NNReal.coe_one, one_mul]
      have e : 1/100 + (twoPiInv : ℝ) / 10 * (max a 1)⁻¹ - (1/100 + twoPiInv / 10 * (max b 1)⁻¹) = twoPiInv / 10 * ((max a 1)⁻¹ - (max b 1)⁻¹) := by ring
      rw [e, abs_mul, abs_of_pos (by linarith)]
      nlinarith [hlip a b, abs_nonneg ((max a 1)⁻¹ - (max b 1)⁻¹)]
    · obtain ⟨b1, b2⟩ := hb x
      rw [Real.norm_eq_abs, NNReal.coe_one, abs_le]
      constructor <;> nlinarith
    · norm_num
  obtain ⟨x, x0, hx⟩ := hPL.exists_eq_forall_mem_Icc_hasDerivWithinAt₀
  have hd : ∀ t : ℝ, -2 < t → t < 2 → HasDerivAt x (1/100 + twoPiInv / 10 * (max (x t) 1)⁻¹) t := fun t t1 t2 => (hx t ⟨t1.le, t2.le⟩).hasDerivAt (Icc_mem_nhds t1 t2)
  have hmono : MonotoneOn x (Icc 0 1) := by
    refine monotoneOn_of_deriv_nonneg (convex_Icc 0 1) (fun t ht => (hd t (by linarith [ht.1]) (by linarith [ht.2])).continuousAt.continuousWithinAt) (fun t ht => ?_) (fun t ht => ?_)
    · rw [interior_Icc] at ht
      exact (hd t (by linarith [ht.1]) (by linarith [ht.2])).differentiableAt.differentiableWithinAt
    · rw [interior_Icc] at ht
      rw [(hd t (by linarith [ht.1]) (by linarith [ht.2])).deriv]
      have := (hb (x t)).1
      nlinarith
  refine ⟨x, x0, fun t t0 t1 => ?_⟩
  have h54 : 5/4 ≤ x t := by
    rw [← x0]
    exact hmono ⟨le_rfl, zero_le_one⟩ ⟨t0, t1⟩ t0
  refine ⟨h54, (hd t (by linarith) (by linarith)).congr_deriv ?_⟩
  rw [max_eq_left (by linarith)]
  ring

theorem inversion_lip (p q r s : ℝ) (h1 : 1 ≤ p ^ 2 + q ^ 2) (h2 : 1 ≤ r ^ 2 + s ^ 2) :
    |p / (p ^ 2 + q ^ 2) - r / (r ^ 2 + s ^ 2)| ≤ |p - r| + |q - s| ∧ |q / (p ^ 2 + q ^ 2) - s / (r ^ 2 + s ^ 2)| ≤ |p - r| + |q - s| := by
  have n1 : p ^ 2 + q ^ 2 ≠ 0 := by linarith
  have n2 : r ^ 2 + s ^ 2 ≠ 0 := by linarith
  have key : (p / (p ^ 2 + q ^ 2) - r / (r ^ 2 + s ^ 2)) ^ 2 + (q / (p ^ 2 + q ^ 2) - s / (r ^ 2 + s ^ 2)) ^ 2 = ((p - r) ^ 2 + (q - s) ^ 2) / ((p ^ 2 + q ^ 2) * (r ^ 2 + s ^ 2)) := by
    field_simp
    ring
  have hle : ((p - r) ^ 2 + (q - s) ^ 2) / ((p ^ 2 + q ^ 2) * (r ^ 2 + s ^ 2)) ≤ (|p - r| + |q - s|) ^ 2 := by
    refine (div_le_self (by positivity) (by nlinarith)).trans ?_
    rw [← sq_abs (p - r), ← sq_abs (q - s)]
    nlinarith [mul_nonneg (abs_nonneg (p - r)) (abs_nonneg (q - s))]
  have h0 : 0 ≤ |p - r| + |q - s| := by positivity
  refine ⟨abs_le_of_sq_le_sq ?_ h0, abs_le_of_sq_le_sq ?_ h0⟩
  · nlinarith [sq_nonneg (q / (p ^ 2 + q ^ 2) - s / (r ^ 2 + s ^ 2))]
  · nlinarith [sq_nonneg (p / (p ^ 2 + q ^ 2) - r / (r ^ 2 + s ^ 2))]

/-- the traces follow it -/
theorem pumped_follows {m : Aquifer ℝ} (hm : m.Physical) (hp : m.porosity = 1/4) (hT : m.thickness = 20) (hw : m.wells = [⟨1000, 1000, 1/4, 1/2⟩]) (hc : m.coef = pumpedCoef) :
    ∃ P, Follows m true (1001.25, 1000) 1 (1/2000) (1/100) P := by
  obtain ⟨k1, k2⟩ := twoPiInv_bounds
  obtain ⟨x, x0, hx⟩ := pumped_axis
  have htube : ∀ q ∈ Tube (fun t => (1000 + x t, 1000)) 1 (1/8), 9/8 ≤ q.1 - 1000 := by
    rintro q ⟨t, t0, t1, h⟩
    have h1 := (norm_fst_le _).trans h
    rw [Real.norm_eq_abs, abs_le] at h1
    have := (hx t t0 t1).1
    simp only [Prod.fst_sub] at h1
    linarith
  have hexp : Real.exp (1/10 * 1) ≤ 6/5 := by
    have := Real.exp_bound_div_one_sub_of_interval (x := 1/10) (by norm_num) (by norm_num)
    rw [mul_one]
    refine this.trans (by norm_num)
  have hr : ∀ q : ℝ × ℝ, 9/8 ≤ q.1 - 1000 → (1:ℝ) ≤ (q.1 - 1000) ^ 2 + (q.2 - 1000) ^ 2 := fun q hq => by nlinarith [sq_nonneg (q.2 - 1000)]
  have hfst : ∀ q : ℝ × ℝ, 9/8 ≤ q.1 - 1000 → 0 ≤ (q.1 - 1000) / ((q.1 - 1000) ^ 2 + (q.2 - 1000) ^ 2) ∧ (q.1 - 1000) / ((q.1 - 1000) ^ 2 + (q.2 - 1000) ^ 2) ≤ 1 := by
    intro q hq
    have := hr q hq
    refine ⟨div_nonneg (by linarith) (by linarith), ?_⟩
    rw [div_le_one (by linarith)]
    nlinarith [sq_nonneg (q.2 - 1000)]
  have hsnd : ∀ q : ℝ × ℝ, 9/8 ≤ q.1 - 1000 → |(q.2 - 1000) / ((q.1 - 1000) ^ 2 + (q.2 - 1000) ^ 2)| ≤ 1 := by
    intro q hq
    have := hr q hq
    rw [abs_div, abs_of_pos (show 0 < (q.1 - 1000) ^ 2 + (q.2 - 1000) ^ 2 by linarith), div_le_one (by linarith), abs_le]
    constructor <;> nlinarith [sq_nonneg (q.2 - 1000 - 1), sq_nonneg (q.2 - 1000 + 1)]
  refine ⟨fun t => (1000 + x t, 1000), pumpedUp, 1/10, 3/100, 1/10, 1/8, hm, ?_, ⟨?_, fun t t0 t1 => ?_⟩, fun q hq => ⟨fun w hw' e => ?_, 20, by simp [Saturated, hT]⟩, fun a ha b hb => ?_, fun a ha => ?_, by norm_num,
    by norm_num, by norm_num, by norm_num, by linarith, fun q hq => ?_, by linarith⟩
  · intro x y b hoff hs
    obtain ⟨d1, d2⟩ := C29_partials m x y hoff
    simp only [Saturated, if_true] at hs
    subst hs
    have e := discharge_eq m x y
    have c0 : m.coef 0 = 0 := by rw [hc]; simp [pumpedCoef]
    have c1 : m.coef 1 = 0 := by rw [hc]; simp [pumpedCoef]
    have c2 : m.coef 2 = 0 := by rw [hc]; simp [pumpedCoef]
    have c3 : m.coef 3 = 1/20 := by rw [hc]; simp [pumpedCoef]
    have c4 : m.coef 4 = 0 := by rw [hc]; simp [pumpedCoef]
    simp only [hw, c0, c1, c2, c3, c4, List.map_cons, List.map_nil, List.sum_cons, List.sum_nil, zero_mul, mul_zero, zero_add, add_zero, sub_zero, Well.r2] at e
    constructor
    · refine d1.congr_deriv ?_
      rw [e, hp, hT]
      simp only [pumpedUp]
      ring
    · refine d2.congr_deriv ?_
      rw [e, hp, hT]
      simp only [pumpedUp]
      ring
  · show ((1000 + x 0, 1000) : ℝ × ℝ) = _
    rw [x0]
    norm_num
  · have h54 := (hx t t0 t1).1
    refine (((hx t t0 t1).2.const_add 1000).prodMk (hasDerivAt_const t (1000:ℝ))).congr_deriv (Prod.ext ?_ ?_)
    · simp only [pumpedUp]
      have : x t ≠ 0 := by linarith
      field_simp
      ring
    · simp [pumpedUp]
  · have := htube q hq
    rw [hw, List.mem_singleton] at hw'
    subst hw'
    have := (Prod.mk.inj e).1
    simp only at this
    linarith
  · have ra := hr a (htube a ha)
    have rb := hr b (htube b hb)
    obtain ⟨d1, d2⟩ := inversion_lip (a.1 - 1000) (a.2 - 1000) (b.1 - 1000) (b.2 - 1000) ra rb
    rw [show a.1 - 1000 - (b.1 - 1000) = (a - b).1 by simp, show a.2 - 1000 - (b.2 - 1000) = (a - b).2 by simp] at d1 d2
    have n1 := norm_fst_le (a - b)
    have n2 := norm_snd_le (a - b)
    rw [Real.norm_eq_abs] at n1 n2
    rw [Prod.norm_def (pumpedUp a - pumpedUp b), max_le_iff, Real.norm_eq_abs, Real.norm_eq_abs]
    have p0 : (0:ℝ) < twoPiInv / 10 := by linarith
    constructor
    · have e : (pumpedUp a - pumpedUp b).1 = twoPiInv / 10 * ((a.1 - 1000) / ((a.1 - 1000) ^ 2 + (a.2 - 1000) ^ 2) - (b.1 - 1000) / ((b.1 - 1000) ^ 2 + (b.2 - 1000) ^ 2)) := by
        simp only [pumpedUp, Prod.fst_sub]
        ring
      rw [e, abs_mul, abs_of_pos p0]
      nlinarith [abs_nonneg (a - b).1, abs_nonneg (a - b).2]
    · have e : (pumpedUp a - pumpedUp b).2 = twoPiInv / 10 * ((a.2 - 1000) / ((a.1 - 1000) ^ 2 + (a.2 - 1000) ^ 2) - (b.2 - 1000) / ((b.1 - 1000) ^ 2 + (b.2 - 1000) ^ 2)) := by
        simp only [pumpedUp, Prod.snd_sub]
        ring
      rw [e, abs_mul, abs_of_pos p0]
      nlinarith [abs_nonneg (a - b).1, abs_nonneg (a - b).2]
  · have ha := htube a ha
    obtain ⟨f1, f2⟩ := hfst a ha
    have f3 := abs_le.mp (hsnd a ha)
    rw [Prod.norm_def, max_le_iff, Real.norm_eq_abs, Real.norm_eq_abs, abs_le, abs_le]
    simp only [pumpedUp]
    refine ⟨⟨?_, ?_⟩, ?_, ?_⟩ <;> nlinarith
  · have hq := htube q hq
    obtain ⟨f1, f2⟩ := hfst q hq
    have h1 := norm_fst_le (pumpedUp q)
    rw [Real.norm_eq_abs] at h1
    have h2 := le_abs_self (pumpedUp q).1
    have h3 : 1/100 ≤ (pumpedUp q).1 := by
      simp only [pumpedUp]
      nlinarith
    linarith

theorem pumped_acceptable : Acceptable pumpedWays := by
  have h := exampleCall_acceptable 100
  refine ⟨h.1, h.2, ?_, .inl ⟨1, rfl, by norm_num⟩, ⟨_, rfl, by simp⟩, h.6, h.7, .inl ⟨_, rfl, ?_, ?_⟩, h.9, h.10, h.11, h.12, ⟨_, rfl, fin_pos (by norm_num)⟩, h.14, h.15, h.16, ⟨_, rfl, fin_pos (by norm_num)⟩⟩
  · refine ⟨_, rfl, ?_, 0, .inl rfl, le_rfl, by simp⟩
    intro w hw
    obtain rfl := List.mem_singleton.mp hw
    exact ⟨_, _, _, _, .inl rfl, ⟨_, rfl, trivial⟩, ⟨_, rfl, trivial⟩, ⟨_, rfl, fin_pos (by norm_num)⟩, .inl ⟨_, rfl, trivial, trivial⟩⟩
  · show (0:ℝ) ≤ 1/4
    norm_num
  · show (1/4:ℝ) ≤ 1
    norm_num

theorem pumped_denotes : pumpedWays.Denotes pumpedInputs := by
  have h := exampleCall_denotes 100
  exact ⟨h.1, .inl rfl, by simp [pumpedWays, pumpedInputs, PyVal.num], h.4, h.5, h.6, fl_isReal _, h.8, ⟨_, rfl, .cons ⟨_, _, _, _, .inl rfl, fl_isReal _, fl_isReal _, fl_isReal _, fl_isReal _⟩ .nil⟩,
    h.10, h.11, h.12, fl_isReal _, h.14, h.15, h.16, rfl⟩

theorem pumped_spread : pumpedInputs.Spread := by
  obtain ⟨h1, -, h3, -⟩ := exampleInputs_spread 100
  refine ⟨h1, ?_, h3, ?_⟩
  · rintro ⟨x, m, h⟩
    simp [pumpedInputs] at h
  · intro w hw
    obtain rfl := List.mem_singleton.mp hw
    rintro ⟨x, m, h⟩
    simp at h

theorem pumped_start : SWell.start ⟨1000, 1000, 1/4, .const (1/2)⟩ 1 0 = (1001.25, 1000) := by
  refine Prod.ext ?_ ?_
  · simp [SWell.start]; norm_num
  · simp [SWell.start]

/-- the models of all realizations -/
theorem pumped_model {m : Aquifer ℝ} {u : ℕ → ℝ} (hu : ∀ j, 0 ≤ u j ∧ u j < 1) (hl : m.wells.length = 1)
    (hw : ∃ d, m.wells[0]? = some ⟨1000, 1000, 1/4, d⟩ ∧ (Dist.const (1/2)).sample (u 0) = .ok d) (hc : (Dist.tuple [5, 10, 20]).sample (u 1) = .ok m.conductivity)
    (hp : (Dist.const (1/4)).sample (u 2) = .ok m.porosity) (ht : (Dist.const 20).sample (u 3) = .ok m.thickness) (hcoef : m.coef = pumpedCoef) :
    m.Physical ∧ m.UniformFlow ⟨1000, 1000, 1/4, 1/2⟩ (-(1/20)) 0 ∧ ∃ P, Follows m true (1001.25, 1000) 1 (1/2000) (1/100) P := by
  have hp := const_sample hp
  have ht := const_sample ht
  obtain ⟨d, hd, hd'⟩ := hw
  obtain rfl := const_sample hd'
  have hc' : 0 < m.conductivity := by
    obtain ⟨x, h1, h2⟩ := sample_ok (exampleCall_acceptable 100).cDist (exampleCall_denotes 100).cDist (exampleInputs_spread 100).1 (hu 1).1 (hu 1).2
    have h1 : (Dist.tuple [5, 10, 20]).sample (u 1) = .ok x := h1
    rw [hc] at h1
    obtain rfl := Except.ok.inj h1
    exact h2 (exampleInputs_regular 100).1
  have hphys : m.Physical := ⟨hc', by rw [hp]; norm_num, by rw [ht]; norm_num⟩
  have hwells : m.wells = [⟨1000, 1000, 1/4, 1/2⟩] := by
    obtain ⟨w, hw⟩ := List.length_eq_one_iff.mp hl
    rw [hw] at hd ⊢
    rw [Option.some.inj hd]
  refine ⟨hphys, ⟨hwells, ⟨?_, ?_, ?_⟩, ?_, ?_⟩, pumped_follows hphys hp ht hwells hcoef⟩ <;> rw [hcoef] <;> simp [pumpedCoef]

theorem pumped_draws (t : DateTime) (i j : ℕ) : 0 ≤ (pumpedEnv t).run.u i j ∧ (pumpedEnv t).run.u i j < 1 := by
  simp only [pumpedEnv, exampleEnv]
  norm_num

theorem pumped_no_endless (t : DateTime) : ¬ EndlessRun pumpedInputs sevenObs (pumpedEnv t).run ⟨1000, 1000, 1/4, .const (1/2)⟩ := by
  unfold EndlessRun
  rw [if_pos (by simp [pumpedInputs, exampleInputs])]
  rintro ⟨i, -, m, ev, cov, c, hm, -, hc, k, hk, h⟩
  obtain rfl : k = 0 := by
    have : (k:ℤ) < 1 := hk
    omega
  obtain rfl : pumpedCoef = c := Except.ok.inj hc
  obtain ⟨-, -, P, F⟩ := pumped_model (m := { m with xo := 1000, yo := 1000, coef := pumpedCoef }) (pumped_draws t i) hm.wells_length (hm.wells 0 _ rfl) hm.conductivity hm.porosity hm.thickness rfl
  obtain ⟨r, hr, -⟩ := C95_track (tol := 1) F (by norm_num) (by norm_num) (by norm_num)
  have e := pumped_start
  rw [← e] at hr
  have : some r = none := hr.symm.trans h
  simp at this

theorem pumped_returns (t : DateTime) : (oneka pumpedWays (pumpedEnv t)).ending = .returns .none :=
  C70_returns (env := pumpedEnv t) pumped_acceptable pumped_denotes (exampleInputs_regular 100) (fun _ => ⟨pumped_spread, pumped_draws t⟩) perfect_correct
    perfect_converges sevenObs 0 _ (example_retained 100) rfl rfl (by simp [sevenObs, sixObs]) (fun o ho => (sevenObs_usable o ho).1) sevenObs_general
    (fun _ i _ _ => ⟨pumpedCoef, rfl⟩) (pumped_no_endless t) rfl rfl

theorem pumped_sqrt : Real.sqrt ((-(1/20:ℝ)) ^ 2 + 0 ^ 2) = 1/20 := by
  rw [show (-(1/20:ℝ)) ^ 2 + 0 ^ 2 = (1/20) ^ 2 by norm_num]
  exact Real.sqrt_sq (by norm_num)

theorem pumped_stagnation : (1/4:ℝ) + 1 ≤ (1 - 1 / 10 ^ 16) * stagnation ⟨1000, 1000, 1/4, 1/2⟩ (-(1/20)) 0 := by
  have h2 := Real.pi_lt_d2
  unfold stagnation
  rw [pumped_sqrt, mul_div_assoc', le_div_iff₀ (by positivity)]
  norm_num
  linarith

/-- no place of the classical capture zone that is downstream of the well is farther than 3 m from the axis -/
theorem pumped_zone {p : ℝ × ℝ} (hz : ClassicalZone ⟨1000, 1000, 1/4, 1/2⟩ (-(1/20)) 0 p) (hp : p.1 < 1000) : |p.2 - 1000| ≤ 3 := by
  obtain ⟨-, h⟩ := hz
  have hb : |bearing ⟨1000, 1000, 1/4, 1/2⟩ (-(1/20)) 0 p| ≤ Real.pi / 2 := by
    unfold bearing
    rw [Complex.abs_arg_le_pi_div_two_iff]
    simp only [downstream]
    linarith
  have hb : |bearing ⟨1000, 1000, 1/4, 1/2⟩ (-(1/20)) 0 p| / Real.pi ≤ 1 / 2 := by
    rw [div_le_iff₀ Real.pi_pos]
    linarith
  unfold fromAxis leftOf halfWidth at h
  rw [pumped_sqrt, div_le_iff₀ (by norm_num)] at h
  have e : |(-(1/20:ℝ)) * (p.2 - 1000) - 0 * (p.1 - 1000)| = 1/20 * |p.2 - 1000| := by
    rw [zero_mul, sub_zero, abs_mul, abs_neg, abs_of_pos (by norm_num : (0:ℝ) < 1/20)]
  rw [e] at h
  norm_num at h
  nlinarith

/-- This call meets the hypotheses of `C144_archived`, and each of its realizations those of `C144_captures` and `C144_delivers`: the nodes 4 m downstream of the well and 8 m north or south of it are in no capture zone, although the zone is 10 m wide far upstream. -/
example (t : DateTime) : ∃ (d : Dict) (f : PField ℝ),
    loadOneka ((oneka pumpedWays (pumpedEnv t)).events.foldl Effect.apply fun _ => none) (pumpedEnv t).now.archiveName = .ok d ∧ d.get "pfield" = some (.field (.field f)) ∧
    ∀ q : ℤ, 2 ≤ |q| → f.weightAt 996 (1000 + q * 4) ≤ 0 := by
  classical
  obtain ⟨d, f, k, w, h1, h2, h3, h4, h5⟩ := C144_archived pumpedWays pumpedInputs (pumpedEnv t) _ pumped_denotes (pumped_returns t) (fun _ => none) (D := 1) (tol := 1) (maxstep := 1/2000) (δ := 1/100) rfl rfl rfl
    (by norm_num) (by norm_num) (by norm_num) (fun _ _ _ => rfl)
  obtain ⟨-, -, obs, k', w', -, -, -, -, h6, h7, -, h9, -⟩ := C68_stochastic pumpedWays pumpedInputs (pumpedEnv t) _ pumped_denotes (by simp [pumpedInputs, exampleInputs]) (pumped_returns t) (fun _ => none)
  obtain rfl : k = 0 := by
    have : (0:ℤ) = k := h3
    omega
  obtain rfl : k' = 0 := by
    have : (0:ℤ) = k' := h6
    omega
  obtain rfl : w = ⟨1000, 1000, 1/4, .const (1/2)⟩ := (Option.some.inj h4).symm
  obtain rfl : w' = ⟨1000, 1000, 1/4, .const (1/2)⟩ := (Option.some.inj h7).symm
  refine ⟨d, f, h1, h2, fun q q2 => ?_⟩
  have key := h5 (fun L hL => by
    obtain ⟨i, hi⟩ := List.getElem?_of_mem hL
    have R := h9 i L hi
    obtain ⟨m1, -, P, m3⟩ := pumped_model (pumped_draws t i) R.wells_length (R.wells 0 _ rfl) R.conductivity R.porosity R.thickness (Except.ok.inj R.coef).symm
    refine ⟨m1, fun j hj => ?_⟩
    obtain rfl : j = 0 := by
      have : (j:ℤ) < 1 := hj
      omega
    rw [← pumped_start] at m3
    exact ⟨P, m3⟩) (-1) q (.inr (show (3:ℝ) ≤ 4 by norm_num)) 996 (1000 + q * 4) (show (996:ℝ) = 1000 + ((-1:ℤ):ℝ) * 4 by norm_num) rfl
  refine key.trans (le_of_eq ?_)
  rw [Nat.cast_eq_zero, List.countP_eq_zero]
  intro L hL hh
  simp only [decide_eq_true_eq] at hh
  obtain ⟨i, hi⟩ := List.getElem?_of_mem hL
  have R := h9 i L hi
  obtain ⟨-, m2, -⟩ := pumped_model (pumped_draws t i) R.wells_length (R.wells 0 _ rfl) R.conductivity R.porosity R.thickness (Except.ok.inj R.coef).symm
  obtain ⟨p, hd, hz⟩ := hh _ _ _ m2 (by norm_num) (by norm_num) pumped_stagnation
  rw [show pumpedInputs.run.umbra + 1/100 = 301/100 by show (3:ℝ) + 1/100 = 301/100; norm_num] at hd
  have hn := (norm_le_euclid p (996, 1000 + q * 4)).trans_lt hd
  rw [Prod.norm_def, max_lt_iff, Real.norm_eq_abs, Real.norm_eq_abs] at hn
  simp only [Prod.fst_sub, Prod.snd_sub, abs_lt] at hn
  obtain ⟨⟨n1, n2⟩, n3, n4⟩ := hn
  have z := abs_le.mp (pumped_zone hz (by linarith))
  have q2' : (2:ℝ) ≤ |(q:ℝ)| := by exact_mod_cast q2
  rcases le_abs.mp q2' with h | h <;> linarith

end Oneka
