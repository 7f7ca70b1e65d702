import Verif.Props.Rivals
import Verif.Props.FlFit
import Verif.Props.FlUtilities
import Verif.Props.Fit

/-!
# Cases that meet the hypotheses of C112

Six levels on a plane that rises by one in four to the east, in a confined aquifer: conductivity 1, porosity 1/4, thickness 20.
-/

namespace Oneka
open Matrix Aquifer

noncomputable def slant : Aquifer Fl := ⟨0, Fl.of (1 : ℕ), Fl.of (2 ^ (-2 : ℤ)), Fl.of (20 : ℕ), [], 0, 0, fun _ => 0⟩

noncomputable def slantReal : Aquifer ℝ := ⟨0, 1, 1/4, 20, [], 0, 0, fun _ => 0⟩

theorem slant_exact : slant.exact = slantReal := by
  have h1 := of_nat (n := 1) (by norm_num)
  have h2 := of_nat (n := 20) (by norm_num)
  have h5 := of_pow (k := -2)
  have e5 : (2:ℝ) ^ (-2 : ℤ) = 1/4 := by norm_num [_root_.zpow_neg]
  unfold exact slant slantReal
  simp only [List.map_nil]
  rw [h1, h2, h5, e5, Fl.zero_val, Nat.cast_one, Nat.cast_ofNat]

theorem slant_physical : slantReal.Physical := ⟨by norm_num [slantReal], by norm_num [slantReal], by norm_num [slantReal]⟩

/-- the levels -/
noncomputable def gridObs : List FlObs :=
  [⟨0, 0, Fl.of (1000 : ℕ), Fl.of (1 : ℕ)⟩, ⟨Fl.of (400 : ℕ), 0, Fl.of (1100 : ℕ), Fl.of (1 : ℕ)⟩, ⟨Fl.of (800 : ℕ), 0, Fl.of (1200 : ℕ), Fl.of (1 : ℕ)⟩,
   ⟨0, Fl.of (400 : ℕ), Fl.of (1000 : ℕ), Fl.of (1 : ℕ)⟩, ⟨0, Fl.of (800 : ℕ), Fl.of (1000 : ℕ), Fl.of (1 : ℕ)⟩, ⟨Fl.of (400 : ℕ), Fl.of (400 : ℕ), Fl.of (1100 : ℕ), Fl.of (1 : ℕ)⟩]

def gridReal : List Obs := [⟨0, 0, 1000, 1⟩, ⟨400, 0, 1100, 1⟩, ⟨800, 0, 1200, 1⟩, ⟨0, 400, 1000, 1⟩, ⟨0, 800, 1000, 1⟩, ⟨400, 400, 1100, 1⟩]

theorem grid_exact : gridObs.map FlObs.exact = gridReal := by
  simp only [gridObs, gridReal, List.map_cons, List.map_nil, FlObs.exact, Fl.zero_val]
  rw [of_nat (n := 1) (by norm_num), of_nat (n := 400) (by norm_num), of_nat (n := 800) (by norm_num), of_nat (n := 1000) (by norm_num), of_nat (n := 1100) (by norm_num), of_nat (n := 1200) (by norm_num)]
  norm_num

theorem grid_mem {o : Obs} (h : o ∈ gridReal) : 0 ≤ o.x ∧ o.x ≤ 800 ∧ 0 ≤ o.y ∧ o.y ≤ 800 ∧ o.x * o.y ≤ 160000 ∧ o.z = 1000 + o.x / 4 ∧ o.std = 1 := by
  simp only [gridReal, List.mem_cons, List.not_mem_nil, or_false] at h
  rcases h with rfl | rfl | rfl | rfl | rfl | rfl <;> norm_num

theorem grid_usable : slantReal.Usable gridReal := by
  intro o ho
  obtain ⟨h1, -, -, -, -, h2, h3⟩ := grid_mem ho
  refine ⟨?_, by rw [h3]; norm_num, by simp [OffWells, slantReal]⟩
  simp only [slantReal]
  linarith

theorem grid_std {o : Obs} (h : o ∈ gridReal) : potentialStd slantReal.conductivity slantReal.thickness (o.z - slantReal.base) o.std = 20 := by
  obtain ⟨h1, -, -, -, -, h2, h3⟩ := grid_mem h
  simp only [potentialStd, slantReal, h3]
  rw [min_eq_right (by linarith)]
  norm_num

theorem grid_expected {o : Obs} (h : o ∈ gridReal) : expectedPotential slantReal.conductivity slantReal.thickness (o.z - slantReal.base) o.std = 19800 + 5 * o.x := by
  obtain ⟨h1, -, -, -, -, h2, h3⟩ := grid_mem h
  have h4 : slantReal.thickness ≤ o.z - slantReal.base := by simp only [slantReal]; linarith
  unfold expectedPotential potentialOfHead
  rw [if_neg (not_lt.mpr h4), if_neg (not_lt.mpr h4)]
  simp only [slantReal]
  rw [h2]
  ring

theorem grid_general : ¬ OnOneConic gridReal := by
  rintro ⟨c, hc, h⟩
  apply hc
  have h0 := h ⟨0, 0, 1000, 1⟩ (by simp [gridReal])
  have h1 := h ⟨400, 0, 1100, 1⟩ (by simp [gridReal])
  have h2 := h ⟨800, 0, 1200, 1⟩ (by simp [gridReal])
  have h3 := h ⟨0, 400, 1000, 1⟩ (by simp [gridReal])
  have h4 := h ⟨0, 800, 1000, 1⟩ (by simp [gridReal])
  have h5 := h ⟨400, 400, 1100, 1⟩ (by simp [gridReal])
  simp only [conic] at h0 h1 h2 h3 h4 h5
  funext i
  fin_cases i <;> simp <;> linarith

/-- a quadratic that is small at the observations has small coefficients -/
theorem grid_small {d : Fin 6 → ℝ} {N : ℝ} (h : ∀ o ∈ gridReal, |conic d (o.x - 0) (o.y - 0)| ≤ 20 * N) :
    |d 0| ≤ 1/4000 * N ∧ |d 1| ≤ 1/4000 * N ∧ |d 2| ≤ 1/2000 * N ∧ |d 3| ≤ 1/5 * N ∧ |d 4| ≤ 1/5 * N ∧ |d 5| ≤ 20 * N := by
  have h0 := abs_le.mp (h ⟨0, 0, 1000, 1⟩ (by simp [gridReal]))
  have h1 := abs_le.mp (h ⟨400, 0, 1100, 1⟩ (by simp [gridReal]))
  have h2 := abs_le.mp (h ⟨800, 0, 1200, 1⟩ (by simp [gridReal]))
  have h3 := abs_le.mp (h ⟨0, 400, 1000, 1⟩ (by simp [gridReal]))
  have h4 := abs_le.mp (h ⟨0, 800, 1000, 1⟩ (by simp [gridReal]))
  have h5 := abs_le.mp (h ⟨400, 400, 1100, 1⟩ (by simp [gridReal]))
  simp only [conic] at h0 h1 h2 h3 h4 h5
  refine ⟨?_, ?_, ?_, ?_, ?_, ?_⟩ <;> refine abs_le.mpr ⟨?_, ?_⟩ <;> linarith [h0.1, h0.2, h1.1, h1.2, h2.1, h2.2, h3.1, h3.2, h4.1, h4.2, h5.1, h5.2]

theorem grid_values {d : Fin 6 → ℝ} {N : ℝ} (hN : 0 ≤ N)
    (h : (gridReal.map fun o => (conic d (o.x - 0) (o.y - 0) / potentialStd slantReal.conductivity slantReal.thickness (o.z - slantReal.base) o.std) ^ 2).sum ≤ N ^ 2) :
    ∀ o ∈ gridReal, |conic d (o.x - 0) (o.y - 0)| ≤ 20 * N := by
  intro o ho
  have h1 := List.single_le_sum (l := gridReal.map fun o => (conic d (o.x - 0) (o.y - 0) / potentialStd slantReal.conductivity slantReal.thickness (o.z - slantReal.base) o.std) ^ 2) (by
    intro t ht
    obtain ⟨p, -, rfl⟩ := List.mem_map.mp ht
    exact sq_nonneg _) _ (List.mem_map.mpr ⟨o, ho, rfl⟩)
  have h2 := abs_le_of_sq_le_sq (h1.trans h) hN
  rw [grid_std ho] at h2
  rw [abs_div, abs_of_pos (by norm_num : (0:ℝ) < 20), div_le_iff₀ (by norm_num)] at h2
  linarith

theorem grid_determined : slantReal.Determined gridReal 0 0 100 := by
  intro d
  set N := √(gridReal.map fun o => (conic d (o.x - 0) (o.y - 0) / potentialStd slantReal.conductivity slantReal.thickness (o.z - slantReal.base) o.std) ^ 2).sum with hN
  have hN0 : 0 ≤ N := Real.sqrt_nonneg _
  have hnn : 0 ≤ (gridReal.map fun o => (conic d (o.x - 0) (o.y - 0) / potentialStd slantReal.conductivity slantReal.thickness (o.z - slantReal.base) o.std) ^ 2).sum :=
    List.sum_nonneg fun t ht => by
      obtain ⟨p, -, rfl⟩ := List.mem_map.mp ht
      exact sq_nonneg _
  obtain ⟨d0, d1, d2, d3, d4, d5⟩ := grid_small (grid_values hN0 (by rw [hN, Real.sq_sqrt hnn]))
  have ht : ∀ o ∈ gridReal, (conicTerms d (o.x - 0) (o.y - 0) / potentialStd slantReal.conductivity slantReal.thickness (o.z - slantReal.base) o.std) ^ 2 ≤ (37 * N) ^ 2 := by
    intro o ho
    rw [grid_std ho]
    obtain ⟨x0, x1, y0, y1, xy, -, -⟩ := grid_mem ho
    refine pow_le_pow_left₀ (div_nonneg (by unfold conicTerms; positivity) (by norm_num)) ?_ 2
    rw [div_le_iff₀ (by norm_num)]
    simp only [conicTerms, sub_zero, abs_mul, abs_pow, abs_of_nonneg x0, abs_of_nonneg y0]
    have a0 : |d 0| * o.x ^ 2 ≤ 1/4000 * N * 640000 := mul_le_mul d0 (by nlinarith) (by positivity) (by positivity)
    have a1 : |d 1| * o.y ^ 2 ≤ 1/4000 * N * 640000 := mul_le_mul d1 (by nlinarith) (by positivity) (by positivity)
    have a2 : |d 2| * (o.x * o.y) ≤ 1/2000 * N * 160000 := mul_le_mul d2 xy (by positivity) (by positivity)
    have a3 : |d 3| * o.x ≤ 1/5 * N * 800 := mul_le_mul d3 x1 x0 (by positivity)
    have a4 : |d 4| * o.y ≤ 1/5 * N * 800 := mul_le_mul d4 y1 y0 (by positivity)
    linarith
  refine Real.sqrt_le_iff.mpr ⟨by positivity, ?_⟩
  have := List.sum_le_card_nsmul (gridReal.map fun o => (conicTerms d (o.x - 0) (o.y - 0) / potentialStd slantReal.conductivity slantReal.thickness (o.z - slantReal.base) o.std) ^ 2) ((37 * N) ^ 2) (by
    intro t ht'
    obtain ⟨p, hp', rfl⟩ := List.mem_map.mp ht'
    exact ht p hp')
  have l : gridReal.length = 6 := rfl
  rw [List.length_map, l, nsmul_eq_mul] at this
  refine this.trans ?_
  have := sq_nonneg N
  push_cast
  nlinarith

/-- the plane through the levels, as potential -/
noncomputable def plane : Fin 6 → ℝ := fun i => if i = 3 then 5 else if i = 5 then 19800 else 0

theorem plane_conic (u v : ℝ) : conic plane u v = 5 * u + 19800 := by
  have e0 : plane 0 = 0 := rfl
  have e1 : plane 1 = 0 := rfl
  have e2 : plane 2 = 0 := rfl
  have e3 : plane 3 = 5 := rfl
  have e4 : plane 4 = 0 := rfl
  have e5 : plane 5 = 19800 := rfl
  simp only [conic, e0, e1, e2, e3, e4, e5]
  ring

theorem slant_potential (c : Fin 6 → ℝ) (x y : ℝ) : ({ slantReal with xo := 0, yo := 0, coef := c } : Aquifer ℝ).potential x y = conic c (x - 0) (y - 0) := by
  rw [potential_eq]
  simp [slantReal]

theorem grid_gram (d : Fin 6 → ℝ) : d ⬝ᵥ (gram ((gridReal.map (slantReal.rowOf 0 0)).map Prod.fst) *ᵥ d) =
    (gridReal.map fun o => (conic d (o.x - 0) (o.y - 0) / potentialStd slantReal.conductivity slantReal.thickness (o.z - slantReal.base) o.std) ^ 2).sum := by
  rw [normal_quad, List.map_map, List.map_map]
  congr 1
  refine List.map_congr_left fun o _ => ?_
  simp only [Function.comp, row_value]

/-- the exact fit -/
theorem grid_fit : ∃ V, slantReal.fitRegionalFlow perfect gridReal 0 0 = ({ slantReal with xo := 0, yo := 0, coef := plane }, .ok (plane, V)) ∧
    misfit slantReal gridReal ({ slantReal with xo := 0, yo := 0, coef := plane } : Aquifer ℝ).potential = 0 ∧ gram ((gridReal.map (slantReal.rowOf 0 0)).map Prod.fst) * V = 1 := by
  obtain ⟨⟨c, V⟩, h⟩ := (C37_degenerate perfect perfect_correct perfect_converges slantReal slant_physical.1 slant_physical.3 gridReal 0 0 grid_usable).2 grid_general
  have h' : slantReal.fitRegionalFlow perfect gridReal 0 0 = (_, .ok (c, V)) := Prod.ext rfl h
  obtain ⟨e, hg, hex⟩ := fit_excess perfect_correct slant_physical.1 slant_physical.3 grid_usable h'
  rw [e] at h' hex
  have hz : misfit slantReal gridReal ({ slantReal with xo := 0, yo := 0, coef := plane } : Aquifer ℝ).potential = 0 := by
    unfold misfit
    refine List.sum_eq_zero fun t ht => ?_
    obtain ⟨o, ho, rfl⟩ := List.mem_map.mp ht
    rw [slant_potential, plane_conic, grid_expected ho, sub_zero, show 5 * o.x + 19800 - (19800 + 5 * o.x) = 0 by ring, zero_div]
    norm_num
  have h2 := hex plane
  rw [hz] at h2
  have h3 : 0 ≤ misfit slantReal gridReal ({ slantReal with xo := 0, yo := 0, coef := c } : Aquifer ℝ).potential :=
    List.sum_nonneg fun t ht => by
      obtain ⟨p, -, rfl⟩ := List.mem_map.mp ht
      exact sq_nonneg _
  have h4 : (plane - c) ⬝ᵥ (gram ((gridReal.map (slantReal.rowOf 0 0)).map Prod.fst) *ᵥ (plane - c)) ≤ 0 ^ 2 := by
    rw [zero_pow two_ne_zero]
    linarith
  rw [grid_gram] at h4
  obtain ⟨d0, d1, d2, d3, d4, d5⟩ := grid_small (grid_values le_rfl h4)
  have : c = plane := by
    have z : plane - c = 0 := by
      funext i
      fin_cases i
      · exact abs_nonpos_iff.mp (d0.trans (by norm_num))
      · exact abs_nonpos_iff.mp (d1.trans (by norm_num))
      · exact abs_nonpos_iff.mp (d2.trans (by norm_num))
      · exact abs_nonpos_iff.mp (d3.trans (by norm_num))
      · exact abs_nonpos_iff.mp (d4.trans (by norm_num))
      · exact abs_nonpos_iff.mp (d5.trans (by norm_num))
    exact (sub_eq_zero.mp z).symm
  subst this
  exact ⟨V, h', hz, hg⟩

/-- how well the gradient is known -/
theorem grid_slope {V : Matrix (Fin 6) (Fin 6) ℝ} (hg : gram ((gridReal.map (slantReal.rowOf 0 0)).map Prod.fst) * V = 1) {u v : ℝ} (hu : |u| ≤ 500) (hv : |v| ≤ 100) : gradientSpread V u v ≤ 1 := by
  have key : ∀ a b, (a = 1 ∧ b = 0 ∨ a = 0 ∧ b = 1) → slopeSpread V u v a b ≤ 1 := by
    intro a b hab
    rw [slopeSpread_eq]
    obtain ⟨d, hd1, hd2⟩ := inverse_attained hg (slopes u v a b) (η := 1) zero_le_one (δ := √(slopes u v a b ⬝ᵥ (V *ᵥ slopes u v a b))) (by rw [abs_of_nonneg (Real.sqrt_nonneg _), one_mul])
    rw [grid_gram] at hd2
    obtain ⟨d0, d1, d2, d3, d4, d5⟩ := grid_small (grid_values zero_le_one hd2)
    rw [← hd1]
    have e : slopes u v a b ⬝ᵥ d = 2 * a * u * d 0 + 2 * b * v * d 1 + (a * v + b * u) * d 2 + a * d 3 + b * d 4 := by
      change ∑ i, slopes u v a b i * d i = _
      rw [Fin.sum_univ_six]
      change 2 * a * u * d 0 + 2 * b * v * d 1 + (a * v + b * u) * d 2 + a * d 3 + b * d 4 + 0 * d 5 = _
      ring
    rw [e]
    have p : ∀ {s t B C : ℝ}, |s| ≤ B → |t| ≤ C → 0 ≤ B → s * t ≤ B * C := fun {s t B C} h1 h2 h3 =>
      (le_abs_self _).trans ((abs_mul s t).trans_le (mul_le_mul h1 h2 (abs_nonneg _) h3))
    have q0 := p hu d0 (by norm_num)
    have q1 := p hv d1 (by norm_num)
    have q2 := p hv d2 (by norm_num)
    have q3 := p hu d2 (by norm_num)
    have q4 := (le_abs_self _).trans d3
    have q5 := (le_abs_self _).trans d4
    rcases hab with ⟨rfl, rfl⟩ | ⟨rfl, rfl⟩ <;> linarith
  exact max_le (key 1 0 (.inl ⟨rfl, rfl⟩)) (key 0 1 (.inr ⟨rfl, rfl⟩))

/-- flows to the west -/
theorem slant_upstream (g : ℝ) (c : Fin 6 → ℝ) (hc : c = fun i => if i = 3 then 5 * g else if i = 5 then 19800 else 0) :
    ({ slantReal with xo := 0, yo := 0, coef := c } : Aquifer ℝ).Upstream true fun _ => (g, 0) := by
  intro x y b hoff hs
  obtain ⟨d1, d2⟩ := C29_partials _ x y hoff
  simp only [Saturated, if_true] at hs
  subst hs
  constructor
  · refine d1.congr_deriv ?_
    rw [discharge_eq, hc]
    simp [slantReal]
    left
    norm_num
  · refine d2.congr_deriv ?_
    rw [discharge_eq, hc]
    simp [slantReal]

theorem plane_upstream : ({ slantReal with xo := 0, yo := 0, coef := plane } : Aquifer ℝ).Upstream true fun _ => (1, 0) :=
  slant_upstream 1 plane (by funext i; simp [plane])

theorem west_path (g D : ℝ) : Pathline (fun _ => (g, 0)) (0, 0) D fun t => (g * t, 0) := by
  refine ⟨by simp, fun t _ _ => ?_⟩
  have := ((hasDerivAt_id t).const_mul g).prodMk (hasDerivAt_const t (0:ℝ))
  simpa using this

theorem west_tube {D : ℝ} (hD : D ≤ 366) {q : ℝ × ℝ} (h : q ∈ Tube (fun t => (1 * t, 0)) D 100) : |q.1 - 0| ≤ 500 ∧ |q.2 - 0| ≤ 100 := by
  obtain ⟨t, h0, h1, h⟩ := h
  rw [Prod.norm_def, max_le_iff, Real.norm_eq_abs, Real.norm_eq_abs] at h
  simp only [Prod.fst_sub, Prod.snd_sub, sub_zero, one_mul] at h
  have := abs_le.mp h.1
  rw [sub_zero, sub_zero]
  exact ⟨abs_le.mpr ⟨by linarith, by linarith⟩, h.2⟩

theorem steeper_misfit : misfit slantReal gridReal ({ slantReal with xo := 0, yo := 0, coef := fun i => if i = 3 then 5 * 1.002 else if i = 5 then 19800 else 0 } : Aquifer ℝ).potential ≤ (1/2) ^ 2 := by
  unfold misfit
  have e : ∀ o ∈ gridReal, ((({ slantReal with xo := 0, yo := 0, coef := fun i => if i = 3 then 5 * 1.002 else if i = 5 then 19800 else 0 } : Aquifer ℝ).potential o.x o.y -
      expectedPotential slantReal.conductivity slantReal.thickness (o.z - slantReal.base) o.std) / potentialStd slantReal.conductivity slantReal.thickness (o.z - slantReal.base) o.std) ^ 2 =
      (o.x / 2000) ^ 2 := by
    intro o ho
    rw [slant_potential, grid_expected ho, grid_std ho]
    simp [conic]
    ring
  rw [List.map_congr_left e]
  norm_num [gridReal]

/-- C112: the slope that differs by 0.2 % has an excess misfit of 0.24; the pathlines of a hundred days -/
example : ∃ V, slantReal.fitRegionalFlow perfect gridReal 0 0 = ({ slantReal with xo := 0, yo := 0, coef := plane }, .ok (plane, V)) ∧
    misfit slantReal gridReal ({ slantReal with xo := 0, yo := 0, coef := fun i => if i = 3 then 5 * 1.002 else if i = 5 then 19800 else 0 } : Aquifer ℝ).potential ≤ (1/2) ^ 2 ∧
    (∀ t : ℝ, 0 ≤ t → t ≤ 100 → ‖((1.002 * t, 0) : ℝ × ℝ) - (1 * t, 0)‖ ≤ (‖((0, 0) : ℝ × ℝ) - (0, 0)‖ + 1/10 * t) * Real.exp (1/1000 * t)) ∧
    |(1 * (-(5 * 1.002)) + 0 * 0) - (1 * (-5) + 0 * 0)| ≤ (1/2) * slopeSpread V (0 - 0) (0 - 0) 1 0 := by
  obtain ⟨V, h, hz, hg⟩ := grid_fit
  have hm := steeper_misfit
  refine ⟨V, h, hm, ?_, ?_⟩
  · refine C112_pathline perfect perfect_correct slantReal _ slant_physical gridReal 0 0 plane V grid_usable h (1/2) (by norm_num) _ (by rw [hz, zero_add]; exact hm) true _ _ plane_upstream
      (slant_upstream 1.002 _ rfl) _ _ (0, 0) (0, 0) 100 (1/1000) (1/10) 100 (west_path 1 100) (west_path 1.002 100) (by norm_num) (by norm_num) (by norm_num) (fun a _ b _ => ?_) (fun q hq => ?_) ?_
    · rw [sub_self, norm_zero]
      positivity
    · obtain ⟨h1, h2⟩ := west_tube (by norm_num) hq
      refine ⟨by simp [OffWells, slantReal], 20, 0, by simp [Saturated, slantReal], le_rfl, by norm_num, by simp, ?_⟩
      have := grid_slope hg h1 h2
      simp only [slantReal]
      norm_num at this ⊢
      linarith
    · have h1 := Real.exp_bound' (x := 1/10) (by norm_num) (by norm_num) (n := 2) (by norm_num)
      norm_num [Finset.sum_range_succ, Nat.factorial] at h1 ⊢
      linarith
  · have := (C112_discharge perfect perfect_correct slantReal _ slant_physical.1 slant_physical.3 gridReal 0 0 plane V grid_usable h (1/2) (by norm_num) 0 0 1 0 (1 * (-(5 * 1.002)) + 0 * 0)).mp
      ⟨fun i => if i = 3 then 5 * 1.002 else if i = 5 then 19800 else 0, by rw [hz, zero_add]; exact hm, by rw [discharge_eq]; simp [slantReal]⟩
    rw [discharge_eq] at this
    simpa [slantReal, plane] using this

/-- C112: the same flows, at the origin, with the thickness taken from the head -/
example : ∃ V f g, slantReal.fitRegionalFlow perfect gridReal 0 0 = ({ slantReal with xo := 0, yo := 0, coef := plane }, .ok (plane, V)) ∧
    ({ slantReal with xo := 0, yo := 0, coef := plane } : Aquifer ℝ).Upstream false f ∧
    ({ slantReal with xo := 0, yo := 0, coef := fun i => if i = 3 then 5 * 1.002 else if i = 5 then 19800 else 0 } : Aquifer ℝ).Upstream false g ∧ ‖g (0, 0) - f (0, 0)‖ ≤ 1/9 := by
  obtain ⟨V, h, hz, hg⟩ := grid_fit
  obtain ⟨f, hf⟩ := exists_upstream ({ slantReal with xo := 0, yo := 0, coef := plane } : Aquifer ℝ) ⟨slant_physical.1, slant_physical.2, slant_physical.3⟩ false
  obtain ⟨g, hgu⟩ := exists_upstream ({ slantReal with xo := 0, yo := 0, coef := fun i => if i = 3 then 5 * 1.002 else if i = 5 then 19800 else 0 } : Aquifer ℝ)
    ⟨slant_physical.1, slant_physical.2, slant_physical.3⟩ false
  refine ⟨V, f, g, h, hf, hgu, ?_⟩
  have hp : ({ slantReal with xo := 0, yo := 0, coef := plane } : Aquifer ℝ).potential 0 0 = 19800 := by rw [slant_potential, plane_conic]; norm_num
  have hs : ({ slantReal with xo := 0, yo := 0, coef := plane } : Aquifer ℝ).Saturated false 0 0 20 := by
    simp only [Saturated, Bool.false_eq_true, if_false]
    refine ⟨1000, by norm_num, ?_, by norm_num [slantReal]⟩
    rw [hp]
    norm_num [potentialOfHead, slantReal]
  have hspread : spread V (0 - 0) (0 - 0) ≤ 20 := by
    rw [spread_eq]
    obtain ⟨d, hd1, hd2⟩ := inverse_attained hg (mono (0 - 0) (0 - 0)) (η := 1) zero_le_one (δ := √(mono (0 - 0) (0 - 0) ⬝ᵥ (V *ᵥ mono (0 - 0) (0 - 0))))
      (by rw [abs_of_nonneg (Real.sqrt_nonneg _), one_mul])
    rw [grid_gram] at hd2
    obtain ⟨-, -, -, -, -, d5⟩ := grid_small (grid_values zero_le_one hd2)
    rw [← hd1]
    change ∑ i, mono (0 - 0) (0 - 0) i * d i ≤ 20
    rw [conic_mono]
    simp only [conic]
    linarith [le_abs_self (d 5)]
  obtain ⟨-, k⟩ := C112_velocity perfect perfect_correct slantReal _ slant_physical gridReal 0 0 plane V grid_usable h (1/2) (by norm_num) _ (by rw [hz, zero_add]; exact steeper_misfit) false f g hf hgu 0 0 20
    (1/1000) (by simp [OffWells, slantReal]) hs (by norm_num) (by norm_num) (fun _ => by rw [hp]; exact (mul_le_mul_of_nonneg_left hspread (by norm_num)).trans (by norm_num))
  refine k.trans ?_
  have k1 := grid_slope hg (u := 0 - 0) (v := 0 - 0) (by norm_num) (by norm_num)
  have k2 : ‖({ slantReal with xo := 0, yo := 0, coef := plane } : Aquifer ℝ).discharge 0 0‖ ≤ 5 := by
    rw [discharge_eq, Prod.norm_def]
    simp [slantReal, plane]
  rw [div_le_iff₀ (by norm_num [slantReal])]
  refine (add_le_add (mul_le_mul_of_nonneg_left k1 (by norm_num)) (mul_le_mul_of_nonneg_left k2 (by norm_num))).trans ?_
  norm_num [slantReal]

/-! ### From the observations to the trace, with rounding -/

/-- the plane in floating-point numbers -/
noncomputable def planeFl : Fin 6 → Fl := fun i => if i = 3 then Fl.of (5 : ℕ) else if i = 5 then Fl.of (19800 : ℕ) else 0

theorem planeFl_val : (fun i => (planeFl i).val) = plane := by
  funext i
  unfold planeFl plane
  split_ifs
  · rw [of_nat (by norm_num)]; norm_num
  · rw [of_nat (by norm_num)]; norm_num
  · exact Fl.zero_val

/-- A solver that answers the plane (whatever it is asked), and by how much it misses the least sum of squares (root) at most. -/
noncomputable def planeSolver : FlLinAlg where
  lstsq _ := .ok planeFl
  normal _ := fun _ _ => 0
  inv A := .ok A

noncomputable def planeExcess (rows : List ((Fin 6 → Fl) × Fl)) : ℝ := √(rows.map fun r => (∑ i, (r.1 i).val * (planeFl i).val - r.2.val) ^ 2).sum

theorem squares_nonneg {α : Type*} (l : List α) (g : α → ℝ) : 0 ≤ (l.map fun a => g a ^ 2).sum :=
  List.sum_nonneg fun t ht => by
    obtain ⟨p, -, rfl⟩ := List.mem_map.mp ht
    exact sq_nonneg _

theorem planeSolver_within : planeSolver.Within planeExcess := by
  intro rows c h c'
  cases Except.ok.inj h
  unfold planeExcess
  rw [Real.sq_sqrt (squares_nonneg rows fun r => ∑ i, (r.1 i).val * (planeFl i).val - r.2.val)]
  have := squares_nonneg rows fun r => ∑ i, (r.1 i).val * c' i - r.2.val
  linarith

theorem slant_clear : ∀ o ∈ gridObs, slant.exact.LevelClear o.exact := by
  intro o ho
  have h : o.exact ∈ gridReal := by rw [← grid_exact]; exact List.mem_map.mpr ⟨o, ho, rfl⟩
  obtain ⟨h1, -, -, -, -, h2, h3⟩ := grid_mem h
  left
  rw [slant_exact]
  simp only [slantReal]
  linarith

theorem grid_terms : slantReal.residualTerms gridReal 0 0 plane ≤ 7000 := by
  unfold residualTerms
  have ht : ∀ o ∈ gridReal, ((conicTerms plane (o.x - 0) (o.y - 0) + expectedPotential slantReal.conductivity slantReal.thickness (o.z - slantReal.base) o.std + slantReal.wellTerms o.x o.y) /
      potentialStd slantReal.conductivity slantReal.thickness (o.z - slantReal.base) o.std) ^ 2 ≤ 2400 ^ 2 := by
    intro o ho
    obtain ⟨x0, x1, y0, y1, xy, -, -⟩ := grid_mem ho
    rw [grid_std ho, grid_expected ho]
    have e : conicTerms plane (o.x - 0) (o.y - 0) = 5 * o.x + 19800 := by
      have e0 : plane 0 = 0 := rfl
      have e1 : plane 1 = 0 := rfl
      have e2 : plane 2 = 0 := rfl
      have e3 : plane 3 = 5 := rfl
      have e4 : plane 4 = 0 := rfl
      have e5 : plane 5 = 19800 := rfl
      simp only [conicTerms, e0, e1, e2, e3, e4, e5, sub_zero, zero_mul, abs_zero, zero_add, add_zero]
      rw [abs_of_nonneg (by positivity), abs_of_pos (by norm_num)]
    rw [e]
    have w : slantReal.wellTerms o.x o.y = 0 := by simp [wellTerms, slantReal]
    rw [w]
    refine pow_le_pow_left₀ (by positivity) ?_ 2
    linarith
  have := List.sum_le_card_nsmul _ ((2400:ℝ) ^ 2) (by
    intro t ht'
    obtain ⟨p, hp', rfl⟩ := List.mem_map.mp ht'
    exact ht p hp')
  have l : gridReal.length = 6 := rfl
  rw [List.length_map, l, nsmul_eq_mul] at this
  refine Real.sqrt_le_iff.mpr ⟨by norm_num, this.trans ?_⟩
  norm_num

theorem exp_west {t : ℝ} (ht : t ≤ 366) : Real.exp (1/1000 * t) ≤ 1.5 := by
  refine (Real.exp_le_exp.mpr (by linarith : 1/1000 * t ≤ 366/1000)).trans ?_
  have h := Real.exp_bound' (x := 366/1000) (by norm_num) (by norm_num) (n := 4) (by norm_num)
  refine h.trans ?_
  simp [Finset.sum_range_succ, Nat.factorial]
  norm_num

theorem forall₂_partner {α β : Type*} {R : α → β → Prop} {l : List α} {l' : List β} (h : List.Forall₂ R l l') {b : β} (hb : b ∈ l') : ∃ a ∈ l, R a b := by
  induction h with
  | nil => cases hb
  | cons hr _ ih =>
    rcases List.mem_cons.mp hb with rfl | hb
    · exact ⟨_, List.mem_cons_self, hr⟩
    · obtain ⟨a, ha, h⟩ := ih hb
      exact ⟨a, List.mem_cons_of_mem _ ha, h⟩

/-- the rows of the plane and its residuals -/
theorem slant_rows : letI := nearestLib; letI := nearestObs
    ∃ rows, slant.flConstructFit 0 0 gridObs = .ok rows ∧ planeExcess rows ≤ 1/10000000000 := by
  let _ := nearestLib
  let _ := nearestObs
  have z : (0 : Fl).val = 0 := Fl.zero_val
  have hK : slant.conductivity.val = 1 := congrArg Aquifer.conductivity slant_exact
  have hT : slant.thickness.val = 20 := congrArg Aquifer.thickness slant_exact
  have hb : slant.base.val = 0 := congrArg Aquifer.base slant_exact
  obtain ⟨rows, hr, hall⟩ := C111_rows nearestLib_log nearestObs_accurate slant (by rw [hK]; norm_num) (by rw [hT]; norm_num) (by simp [slant]) gridObs 0 0
    (by rw [slant_exact, grid_exact]; exact grid_usable) slant_clear
  refine ⟨rows, hr, ?_⟩
  have each : ∀ r ∈ rows, (∑ i, (r.1 i).val * (planeFl i).val - r.2.val) ^ 2 ≤ (1/50000000000) ^ 2 := by
    intro r hrm
    obtain ⟨o, ho, h1, h2⟩ := forall₂_partner hall hrm
    have hm : o.exact ∈ gridReal := by rw [← grid_exact]; exact List.mem_map.mpr ⟨o, ho, rfl⟩
    have hs := grid_std hm
    have he := grid_expected hm
    obtain ⟨x0, x1, y0, y1, xy, -, -⟩ := grid_mem hm
    change 0 ≤ o.x.val at x0
    change o.x.val ≤ 800 at x1
    rw [← slant_exact] at hs he
    change potentialStd slant.conductivity.val slant.thickness.val (o.z.val - slant.base.val) o.std.val = 20 at hs
    change expectedPotential slant.conductivity.val slant.thickness.val (o.z.val - slant.base.val) o.std.val = 19800 + 5 * o.x.val at he
    rw [hs, he] at h2
    rw [hs, z] at h1
    have hw : slant.exact.potentialWells o.x.val o.y.val = 0 := by rw [slant_exact, potentialWells_eq]; simp [slantReal]
    have ht : slant.exact.wellTerms o.x.val o.y.val = 0 := by rw [slant_exact]; simp [wellTerms, slantReal]
    have hn : slant.wells.length = 0 := rfl
    rw [hw, ht, hn] at h2
    have k3 := h1 3
    have k5 := h1 5
    change |(r.1 3).val - (o.x.val - 0) / 20| ≤ 16 * 2 ^ (-53 : ℤ) * |(o.x.val - 0) / 20| at k3
    change |(r.1 5).val - 1 / 20| ≤ 16 * 2 ^ (-53 : ℤ) * |(1:ℝ) / 20| at k5
    rw [sub_zero, abs_of_nonneg (by positivity : 0 ≤ o.x.val / 20)] at k3
    rw [abs_of_pos (by norm_num : (0:ℝ) < 1 / 20)] at k5
    have e : ∑ i, (r.1 i).val * (planeFl i).val = (r.1 3).val * 5 + (r.1 5).val * 19800 := by
      have : ∀ i, (planeFl i).val = plane i := fun i => congrFun planeFl_val i
      simp only [this]
      rw [Fin.sum_univ_six]
      change _ * (0:ℝ) + _ * (0:ℝ) + _ * (0:ℝ) + _ * (5:ℝ) + _ * (0:ℝ) + _ * (19800:ℝ) = _
      ring
    rw [e]
    refine sq_le_sq' ?_ ?_
    all_goals
      norm_num [_root_.zpow_neg] at h2 k3 k5
      have := abs_le.mp h2
      have := abs_le.mp k3
      have := abs_le.mp k5
      linarith
  have := List.sum_le_card_nsmul (rows.map fun r => (∑ i, (r.1 i).val * (planeFl i).val - r.2.val) ^ 2) _ (by
    intro t ht'
    obtain ⟨p, hp', rfl⟩ := List.mem_map.mp ht'
    exact each p hp')
  have l : rows.length = 6 := hall.length_eq.symm
  rw [List.length_map, l, nsmul_eq_mul] at this
  refine Real.sqrt_le_iff.mpr ⟨by norm_num, this.trans ?_⟩
  norm_num

/-- C112: the levels are fitted, and a year is traced upstream, everything computed with rounding: the trace is complete, and all vertices are within 24 m of the pathline of the exact fit, which ends 365 m from the start. -/
example : letI := nearestLib; letI := nearestObs
    ∃ m' c' V', slant.flFitRegionalFlow planeSolver gridObs 0 0 = (m', .ok (c', V')) ∧
    ∃ r, computeBacktrace 0 0 (Fl.of (365 : ℕ)) (Fl.of (1 : ℕ)) (Fl.of (1 : ℕ)) (fun _ => m'.reverseVelocity true) = some r ∧ r.warning = none ∧
      ∃ path : List (ℝ × (Fl × Fl)), r.vertices = (0, 0) :: path.map Prod.snd ∧ (∀ v ∈ path, 0 < v.1 → ‖fv v.2 - (1 * v.1, 0)‖ ≤ 24) ∧
        ∃ t, (0 :: path.map Prod.fst).getLast? = some t ∧ |t - 365| ≤ 1/1000000 := by
  let _ := nearestLib
  let _ := nearestObs
  have b : (Fl.of (365 : ℕ)).val = 365 := by rw [of_nat (by norm_num)]; norm_num
  have c : (Fl.of (1 : ℕ)).val = 1 := by rw [of_nat (by norm_num)]; norm_num
  have z : (0 : Fl).val = 0 := Fl.zero_val
  have e0 : fv ((0, 0) : Fl × Fl) = (0, 0) := by unfold fv; rw [z]
  have hT : (365:ℝ) * (1 + ((150000 : ℕ) + 1) * (2:ℝ) ^ (-52 : ℤ)) ≤ 366 := by norm_num [_root_.zpow_neg]
  obtain ⟨rows, hr, hexc⟩ := slant_rows
  obtain ⟨V, h, hz, hg⟩ := grid_fit
  have hfit : slant.flFitRegionalFlow planeSolver gridObs 0 0 = ({ slant with xo := 0, yo := 0, coef := planeFl }, .ok (planeFl, fun _ _ => 0)) := by
    simp only [flFitRegionalFlow, hr, planeSolver]
  refine ⟨_, _, _, hfit, ?_⟩
  have hd : ({ slant with xo := 0, yo := 0, coef := planeFl } : Aquifer Fl).exact = { slantReal with xo := 0, yo := 0, coef := plane } := by
    rw [← slant_exact, ← planeFl_val]
    unfold exact
    simp only [z]
  have hphi : slant.porosity.val = 1/4 := congrArg Aquifer.porosity slant_exact
  have hn : slant.wells.length = 0 := rfl
  set B := 8/7 * planeExcess rows + 2 ^ (-53 : ℤ) * (48 * 100 * √(misfit slant.exact (gridObs.map FlObs.exact) ({ slantReal with xo := 0, yo := 0, coef := plane } : Aquifer ℝ).potential) +
    (132 + 9 * slant.wells.length) * slant.exact.residualTerms (gridObs.map FlObs.exact) (0 : Fl).val (0 : Fl).val plane) with hB
  have hB1 : B ≤ 1/1000000000 := by
    rw [hB, slant_exact, grid_exact, hz, z, hn, Real.sqrt_zero]
    have := grid_terms
    norm_num [_root_.zpow_neg]
    linarith
  have hB0 : 0 ≤ B := by
    have h1 : 0 ≤ planeExcess rows := Real.sqrt_nonneg _
    have h2 : 0 ≤ slant.exact.residualTerms (gridObs.map FlObs.exact) (0 : Fl).val (0 : Fl).val plane := Real.sqrt_nonneg _
    positivity
  obtain ⟨r, hr', hw, path, p1, p2, p3, t, p4, p5⟩ := C112_traces nearestLib_log nearestLib_root nearestObs_accurate planeSolver planeExcess (fun _ => Real.sqrt_nonneg _) planeSolver_within perfect
    perfect_correct slant (by rw [slant_exact]; exact slant_physical) (by simp [slant]) gridObs 0 0 (by rw [slant_exact, grid_exact]; exact grid_usable) slant_clear 100 (by norm_num)
    (by rw [slant_exact, grid_exact, z]; exact grid_determined) (by norm_num) rows hr _ _ _ hfit { slantReal with xo := 0, yo := 0, coef := plane } plane V (by rw [slant_exact, grid_exact, z]; exact h)
    B hB true (fun _ => (1, 0)) plane_upstream (fun t => (1 * t, 0)) 0 0 (Fl.of (365 : ℕ)) (Fl.of (1 : ℕ)) (Fl.of (1 : ℕ)) (1/1000) 1 2 100 366 (1/1000000000) _ _ _ _ 150000 rfl rfl rfl rfl
    (by rw [e0]; exact west_path 1 _) (by
      intro t t0 tT
      rw [b] at tT
      refine (Prod.norm_def _).trans_le (max_le ?_ (by simp))
      simp only [one_mul]
      rw [Real.norm_eq_abs, abs_of_nonneg t0]
      linarith) ⟨fun x _ y _ => by rw [sub_self, norm_zero]; positivity, fun x _ => by rw [Prod.norm_def]; simp⟩ (by
      intro q hq
      rw [b] at hq
      obtain ⟨q1, q2⟩ := west_tube hT hq
      rw [hd, slant_exact, hphi, hn, z]
      refine ⟨by simp [OffWells, slantReal], by simp only [condition, if_true]; norm_num [_root_.zpow_neg], 20, 0, by simp [Saturated, slantReal], le_rfl, by norm_num, by simp, ?_⟩
      have hs := grid_slope hg q1 q2
      have hs' : B * gradientSpread V (q.1 - 0) (q.2 - 0) ≤ 1/1000000000 := by nlinarith
      have hdt : ({ slantReal with xo := 0, yo := 0, coef := plane } : Aquifer ℝ).dischargeTerms q.1 q.2 = 5 := by
        unfold dischargeTerms
        simp [slantReal, plane]
      rw [hdt]
      simp only [condition, if_true]
      norm_num [_root_.zpow_neg]
      norm_num at hs'
      linarith)
    (by rw [b]; norm_num) (by rw [b]; norm_num) (by rw [c]; norm_num [_root_.zpow_neg]) (by rw [c]; norm_num [_root_.zpow_neg]) (by rw [b, c]; norm_num) (by rw [b, c]; norm_num)
    (by rw [e0, c, Prod.norm_def]; norm_num) (by norm_num) (by norm_num) (by norm_num) (by norm_num) (by norm_num) (by norm_num) (by
      rw [b, c]
      have h := exp_west hT
      have h0 := Real.exp_pos (1/1000 * (365 * (1 + ((150000 : ℕ) + 1) * (2:ℝ) ^ (-52 : ℤ))))
      set E := Real.exp (1/1000 * (365 * (1 + ((150000 : ℕ) + 1) * (2:ℝ) ^ (-52 : ℤ))))
      norm_num [_root_.zpow_neg]
      linarith) (by
      intro q hq
      rw [c, Prod.norm_def]
      norm_num) (by rw [c]; norm_num [_root_.zpow_neg]) (by rw [b, c]; norm_num)
  refine ⟨r, hr', hw, path, p1, fun v hv v0 => ?_, t, p4, ?_⟩
  · obtain ⟨u, w⟩ := p3 v hv
    refine w.trans ?_
    rw [b] at u
    have u' := u.trans hT
    have h3 := exp_west u'
    have h4 := Real.exp_pos (1/1000 * v.1)
    rw [c]
    set E := Real.exp (1/1000 * v.1)
    have h5 : v.1 * E ≤ 366 * 1.5 := mul_le_mul u' h3 h4.le (by norm_num)
    norm_num [_root_.zpow_neg]
    nlinarith
  · rw [b] at p5
    refine p5.trans ?_
    norm_num [_root_.zpow_neg]

end Oneka
