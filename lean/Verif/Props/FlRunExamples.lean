import Verif.Props.FlRun
import Verif.Props.RivalsExamples
import Verif.Props.RoundingZoneExamples

/-!
# Cases that meet the hypotheses of C113

Six levels on a plane that rises by one in four to the east, around an idle well: its discharge is distributed uniformly between -1 and 1.
-/

namespace Oneka
open Matrix Aquifer

noncomputable def idle : Aquifer Fl := ⟨0, Fl.of (1 : ℕ), Fl.of (2 ^ (-2 : ℤ)), Fl.of (20 : ℕ), [⟨0, 0, Fl.of (9 : ℕ), 0⟩], 0, 0, fun _ => 0⟩

noncomputable def idleReal : Aquifer ℝ := ⟨0, 1, 1/4, 20, [⟨0, 0, 9, 0⟩], 0, 0, fun _ => 0⟩

theorem idle_exact : idle.exact = idleReal := by
  have h1 := of_nat (n := 1) (by norm_num)
  have h2 := of_nat (n := 20) (by norm_num)
  have h3 := of_nat (n := 9) (by norm_num)
  have h5 := of_pow (k := -2)
  have e5 : (2:ℝ) ^ (-2 : ℤ) = 1/4 := by norm_num [_root_.zpow_neg]
  unfold exact idle idleReal
  simp only [List.map_cons, List.map_nil]
  rw [h1, h2, h3, h5, e5, Fl.zero_val, Nat.cast_one, Nat.cast_ofNat, Nat.cast_ofNat]

theorem idle_physical : idleReal.Physical := ⟨by norm_num [idleReal], by norm_num [idleReal], by norm_num [idleReal]⟩

/-- the levels -/
noncomputable def ringObs : List FlObs :=
  [⟨-Fl.of (400 : ℕ), 0, Fl.of (900 : ℕ), Fl.of (1 : ℕ)⟩, ⟨Fl.of (400 : ℕ), 0, Fl.of (1100 : ℕ), Fl.of (1 : ℕ)⟩, ⟨Fl.of (800 : ℕ), 0, Fl.of (1200 : ℕ), Fl.of (1 : ℕ)⟩,
   ⟨0, Fl.of (400 : ℕ), Fl.of (1000 : ℕ), Fl.of (1 : ℕ)⟩, ⟨0, Fl.of (800 : ℕ), Fl.of (1000 : ℕ), Fl.of (1 : ℕ)⟩, ⟨Fl.of (400 : ℕ), Fl.of (400 : ℕ), Fl.of (1100 : ℕ), Fl.of (1 : ℕ)⟩]

def ringReal : List Obs := [⟨-400, 0, 900, 1⟩, ⟨400, 0, 1100, 1⟩, ⟨800, 0, 1200, 1⟩, ⟨0, 400, 1000, 1⟩, ⟨0, 800, 1000, 1⟩, ⟨400, 400, 1100, 1⟩]

theorem ring_exact : ringObs.map FlObs.exact = ringReal := by
  have neg : ∀ a : Fl, (-a).val = -a.val := fun _ => rfl
  simp only [ringObs, ringReal, List.map_cons, List.map_nil, FlObs.exact, Fl.zero_val, neg]
  rw [of_nat (n := 1) (by norm_num), of_nat (n := 400) (by norm_num), of_nat (n := 800) (by norm_num), of_nat (n := 900) (by norm_num), of_nat (n := 1000) (by norm_num), of_nat (n := 1100) (by norm_num),
    of_nat (n := 1200) (by norm_num)]
  norm_num

theorem ring_mem {o : Obs} (h : o ∈ ringReal) : -400 ≤ o.x ∧ o.x ≤ 800 ∧ 0 ≤ o.y ∧ o.y ≤ 800 ∧ |o.x| * o.y ≤ 160000 ∧ o.z = 1000 + o.x / 4 ∧ o.std = 1 ∧ (o.x, o.y) ≠ (0, 0) := by
  simp only [ringReal, List.mem_cons, List.not_mem_nil, or_false] at h
  rcases h with rfl | rfl | rfl | rfl | rfl | rfl <;> norm_num

theorem ring_usable : idleReal.Usable ringReal := by
  intro o ho
  obtain ⟨h1, -, -, -, -, h2, h3, h4⟩ := ring_mem ho
  refine ⟨?_, by rw [h3]; norm_num, by simp only [OffWells, idleReal, List.mem_singleton]; rintro w rfl; exact h4⟩
  simp only [idleReal]
  linarith

theorem ring_std {o : Obs} (h : o ∈ ringReal) : potentialStd idleReal.conductivity idleReal.thickness (o.z - idleReal.base) o.std = 20 := by
  obtain ⟨h1, -, -, -, -, h2, h3, -⟩ := ring_mem h
  simp only [potentialStd, idleReal, h3]
  rw [min_eq_right (by linarith)]
  norm_num

theorem ring_expected {o : Obs} (h : o ∈ ringReal) : expectedPotential idleReal.conductivity idleReal.thickness (o.z - idleReal.base) o.std = 19800 + 5 * o.x := by
  obtain ⟨h1, -, -, -, -, h2, h3, -⟩ := ring_mem h
  have h4 : idleReal.thickness ≤ o.z - idleReal.base := by simp only [idleReal]; linarith
  unfold expectedPotential potentialOfHead
  rw [if_neg (not_lt.mpr h4), if_neg (not_lt.mpr h4)]
  simp only [idleReal]
  rw [h2]
  ring

theorem ring_general : ¬ OnOneConic ringReal := by
  rintro ⟨c, hc, h⟩
  apply hc
  have h0 := h ⟨-400, 0, 900, 1⟩ (by simp [ringReal])
  have h1 := h ⟨400, 0, 1100, 1⟩ (by simp [ringReal])
  have h2 := h ⟨800, 0, 1200, 1⟩ (by simp [ringReal])
  have h3 := h ⟨0, 400, 1000, 1⟩ (by simp [ringReal])
  have h4 := h ⟨0, 800, 1000, 1⟩ (by simp [ringReal])
  have h5 := h ⟨400, 400, 1100, 1⟩ (by simp [ringReal])
  simp only [conic] at h0 h1 h2 h3 h4 h5
  funext i
  fin_cases i <;> simp <;> linarith

/-- a quadratic that is small at the observations has small coefficients -/
theorem ring_small {d : Fin 6 → ℝ} {N : ℝ} (h : ∀ o ∈ ringReal, |conic d (o.x - 0) (o.y - 0)| ≤ 20 * N) :
    |d 0| ≤ 1/8000 * N ∧ |d 1| ≤ 1/3400 * N ∧ |d 2| ≤ 1/1700 * N ∧ |d 3| ≤ 1/20 * N ∧ |d 4| ≤ 1/4 * N ∧ |d 5| ≤ 34 * N := by
  have h0 := abs_le.mp (h ⟨-400, 0, 900, 1⟩ (by simp [ringReal]))
  have h1 := abs_le.mp (h ⟨400, 0, 1100, 1⟩ (by simp [ringReal]))
  have h2 := abs_le.mp (h ⟨800, 0, 1200, 1⟩ (by simp [ringReal]))
  have h3 := abs_le.mp (h ⟨0, 400, 1000, 1⟩ (by simp [ringReal]))
  have h4 := abs_le.mp (h ⟨0, 800, 1000, 1⟩ (by simp [ringReal]))
  have h5 := abs_le.mp (h ⟨400, 400, 1100, 1⟩ (by simp [ringReal]))
  simp only [conic] at h0 h1 h2 h3 h4 h5
  refine ⟨?_, ?_, ?_, ?_, ?_, ?_⟩ <;> refine abs_le.mpr ⟨?_, ?_⟩ <;> linarith [h0.1, h0.2, h1.1, h1.2, h2.1, h2.2, h3.1, h3.2, h4.1, h4.2, h5.1, h5.2]

theorem ring_values {d : Fin 6 → ℝ} {N : ℝ} (hN : 0 ≤ N)
    (h : (ringReal.map fun o => (conic d (o.x - 0) (o.y - 0) / potentialStd idleReal.conductivity idleReal.thickness (o.z - idleReal.base) o.std) ^ 2).sum ≤ N ^ 2) :
    ∀ o ∈ ringReal, |conic d (o.x - 0) (o.y - 0)| ≤ 20 * N := by
  intro o ho
  have h1 := List.single_le_sum (l := ringReal.map fun o => (conic d (o.x - 0) (o.y - 0) / potentialStd idleReal.conductivity idleReal.thickness (o.z - idleReal.base) o.std) ^ 2) (by
    intro t ht
    obtain ⟨p, -, rfl⟩ := List.mem_map.mp ht
    exact sq_nonneg _) _ (List.mem_map.mpr ⟨o, ho, rfl⟩)
  have h2 := abs_le_of_sq_le_sq (h1.trans h) hN
  rw [ring_std ho] at h2
  rw [abs_div, abs_of_pos (by norm_num : (0:ℝ) < 20), div_le_iff₀ (by norm_num)] at h2
  linarith

theorem ring_determined : idleReal.Determined ringReal 0 0 100 := by
  intro d
  set N := √(ringReal.map fun o => (conic d (o.x - 0) (o.y - 0) / potentialStd idleReal.conductivity idleReal.thickness (o.z - idleReal.base) o.std) ^ 2).sum with hN
  have hN0 : 0 ≤ N := Real.sqrt_nonneg _
  have hnn : 0 ≤ (ringReal.map fun o => (conic d (o.x - 0) (o.y - 0) / potentialStd idleReal.conductivity idleReal.thickness (o.z - idleReal.base) o.std) ^ 2).sum :=
    List.sum_nonneg fun t ht => by
      obtain ⟨p, -, rfl⟩ := List.mem_map.mp ht
      exact sq_nonneg _
  obtain ⟨d0, d1, d2, d3, d4, d5⟩ := ring_small (ring_values hN0 (by rw [hN, Real.sq_sqrt hnn]))
  have ht : ∀ o ∈ ringReal, (conicTerms d (o.x - 0) (o.y - 0) / potentialStd idleReal.conductivity idleReal.thickness (o.z - idleReal.base) o.std) ^ 2 ≤ (37 * N) ^ 2 := by
    intro o ho
    rw [ring_std ho]
    obtain ⟨x0, x1, y0, y1, xy, -, -, -⟩ := ring_mem ho
    refine pow_le_pow_left₀ (div_nonneg (by unfold conicTerms; positivity) (by norm_num)) ?_ 2
    rw [div_le_iff₀ (by norm_num)]
    simp only [conicTerms, sub_zero, abs_mul, abs_pow, abs_of_nonneg y0]
    have ax : |o.x| ≤ 800 := abs_le.mpr ⟨by linarith, x1⟩
    have a0 : |d 0| * |o.x| ^ 2 ≤ 1/8000 * N * 640000 := mul_le_mul d0 (by nlinarith [abs_nonneg o.x]) (by positivity) (by positivity)
    have a1 : |d 1| * o.y ^ 2 ≤ 1/3400 * N * 640000 := mul_le_mul d1 (by nlinarith) (by positivity) (by positivity)
    have a2 : |d 2| * (|o.x| * o.y) ≤ 1/1700 * N * 160000 := mul_le_mul d2 xy (by positivity) (by positivity)
    have a3 : |d 3| * |o.x| ≤ 1/20 * N * 800 := mul_le_mul d3 ax (abs_nonneg _) (by positivity)
    have a4 : |d 4| * o.y ≤ 1/4 * N * 800 := mul_le_mul d4 y1 y0 (by positivity)
    linarith
  refine Real.sqrt_le_iff.mpr ⟨by positivity, ?_⟩
  have := List.sum_le_card_nsmul (ringReal.map fun o => (conicTerms d (o.x - 0) (o.y - 0) / potentialStd idleReal.conductivity idleReal.thickness (o.z - idleReal.base) o.std) ^ 2) ((37 * N) ^ 2) (by
    intro t ht'
    obtain ⟨p, hp', rfl⟩ := List.mem_map.mp ht'
    exact ht p hp')
  have l : ringReal.length = 6 := rfl
  rw [List.length_map, l, nsmul_eq_mul] at this
  refine this.trans ?_
  have := sq_nonneg N
  push_cast
  nlinarith

theorem idle_potential (c : Fin 6 → ℝ) (x y : ℝ) : ({ idleReal with xo := 0, yo := 0, coef := c } : Aquifer ℝ).potential x y = conic c (x - 0) (y - 0) := by
  rw [potential_eq]
  simp [idleReal]

theorem ring_gram (d : Fin 6 → ℝ) : d ⬝ᵥ (gram ((ringReal.map (idleReal.rowOf 0 0)).map Prod.fst) *ᵥ d) =
    (ringReal.map fun o => (conic d (o.x - 0) (o.y - 0) / potentialStd idleReal.conductivity idleReal.thickness (o.z - idleReal.base) o.std) ^ 2).sum := by
  rw [normal_quad, List.map_map, List.map_map]
  congr 1
  refine List.map_congr_left fun o _ => ?_
  simp only [Function.comp, row_value]

/-- the exact fit -/
theorem ring_fit : ∃ V, idleReal.fitRegionalFlow perfect ringReal 0 0 = ({ idleReal with xo := 0, yo := 0, coef := plane }, .ok (plane, V)) ∧
    misfit idleReal ringReal ({ idleReal with xo := 0, yo := 0, coef := plane } : Aquifer ℝ).potential = 0 ∧ gram ((ringReal.map (idleReal.rowOf 0 0)).map Prod.fst) * V = 1 := by
  obtain ⟨⟨c, V⟩, h⟩ := (C37_degenerate perfect perfect_correct perfect_converges idleReal idle_physical.1 idle_physical.3 ringReal 0 0 ring_usable).2 ring_general
  have h' : idleReal.fitRegionalFlow perfect ringReal 0 0 = (_, .ok (c, V)) := Prod.ext rfl h
  obtain ⟨e, hg, hex⟩ := fit_excess perfect_correct idle_physical.1 idle_physical.3 ring_usable h'
  rw [e] at h' hex
  have hz : misfit idleReal ringReal ({ idleReal with xo := 0, yo := 0, coef := plane } : Aquifer ℝ).potential = 0 := by
    unfold misfit
    refine List.sum_eq_zero fun t ht => ?_
    obtain ⟨o, ho, rfl⟩ := List.mem_map.mp ht
    rw [idle_potential, plane_conic, ring_expected ho, sub_zero, show 5 * o.x + 19800 - (19800 + 5 * o.x) = 0 by ring, zero_div]
    norm_num
  have h2 := hex plane
  rw [hz] at h2
  have h3 : 0 ≤ misfit idleReal ringReal ({ idleReal with xo := 0, yo := 0, coef := c } : Aquifer ℝ).potential :=
    List.sum_nonneg fun t ht => by
      obtain ⟨p, -, rfl⟩ := List.mem_map.mp ht
      exact sq_nonneg _
  have h4 : (plane - c) ⬝ᵥ (gram ((ringReal.map (idleReal.rowOf 0 0)).map Prod.fst) *ᵥ (plane - c)) ≤ 0 ^ 2 := by
    rw [zero_pow two_ne_zero]
    linarith
  rw [ring_gram] at h4
  obtain ⟨d0, d1, d2, d3, d4, d5⟩ := ring_small (ring_values le_rfl h4)
  have : c = plane := by
    have z : plane - c = 0 := by
      funext i
      fin_cases i
      · exact abs_nonpos_iff.mp (d0.trans (by norm_num))
      · exact abs_nonpos_iff.mp (d1.trans (by norm_num))
      · exact abs_nonpos_iff.mp (d2.trans (by norm_num))
      · exact abs_nonpos_iff.mp (d3.trans (by norm_num))
      · exact abs_nonpos_iff.mp (d4.trans (by norm_num))
      · exact abs_nonpos_iff.mp (d5.trans (by norm_num))
    exact (sub_eq_zero.mp z).symm
  subst this
  exact ⟨V, h', hz, hg⟩

/-- how well the gradient is known -/
theorem ring_slope {V : Matrix (Fin 6) (Fin 6) ℝ} (hg : gram ((ringReal.map (idleReal.rowOf 0 0)).map Prod.fst) * V = 1) {u v : ℝ} (hu : |u| ≤ 500) (hv : |v| ≤ 100) : gradientSpread V u v ≤ 1 := by
  have key : ∀ a b, (a = 1 ∧ b = 0 ∨ a = 0 ∧ b = 1) → slopeSpread V u v a b ≤ 1 := by
    intro a b hab
    rw [slopeSpread_eq]
    obtain ⟨d, hd1, hd2⟩ := inverse_attained hg (slopes u v a b) (η := 1) zero_le_one (δ := √(slopes u v a b ⬝ᵥ (V *ᵥ slopes u v a b))) (by rw [abs_of_nonneg (Real.sqrt_nonneg _), one_mul])
    rw [ring_gram] at hd2
    obtain ⟨d0, d1, d2, d3, d4, d5⟩ := ring_small (ring_values zero_le_one hd2)
    rw [← hd1]
    have e : slopes u v a b ⬝ᵥ d = 2 * a * u * d 0 + 2 * b * v * d 1 + (a * v + b * u) * d 2 + a * d 3 + b * d 4 := by
      change ∑ i, slopes u v a b i * d i = _
      rw [Fin.sum_univ_six]
      change 2 * a * u * d 0 + 2 * b * v * d 1 + (a * v + b * u) * d 2 + a * d 3 + b * d 4 + 0 * d 5 = _
      ring
    rw [e]
    have p : ∀ {s t B C : ℝ}, |s| ≤ B → |t| ≤ C → 0 ≤ B → s * t ≤ B * C := fun {s t B C} h1 h2 h3 =>
      (le_abs_self _).trans ((abs_mul s t).trans_le (mul_le_mul h1 h2 (abs_nonneg _) h3))
    have q0 := p hu d0 (by norm_num)
    have q1 := p hv d1 (by norm_num)
    have q2 := p hv d2 (by norm_num)
    have q3 := p hu d2 (by norm_num)
    have q4 := (le_abs_self _).trans d3
    have q5 := (le_abs_self _).trans d4
    rcases hab with ⟨rfl, rfl⟩ | ⟨rfl, rfl⟩ <;> linarith
  exact max_le (key 1 0 (.inl ⟨rfl, rfl⟩)) (key 0 1 (.inr ⟨rfl, rfl⟩))

/-- flows to the west -/
theorem idle_upstream (g : ℝ) (c : Fin 6 → ℝ) (hc : c = fun i => if i = 3 then 5 * g else if i = 5 then 19800 else 0) :
    ({ idleReal with xo := 0, yo := 0, coef := c } : Aquifer ℝ).Upstream true fun _ => (g, 0) := by
  intro x y b hoff hs
  obtain ⟨d1, d2⟩ := C29_partials _ x y hoff
  simp only [Saturated, if_true] at hs
  subst hs
  constructor
  · refine d1.congr_deriv ?_
    rw [discharge_eq, hc]
    simp [idleReal]
    left
    norm_num
  · refine d2.congr_deriv ?_
    rw [discharge_eq, hc]
    simp [idleReal]

theorem ring_upstream : ({ idleReal with xo := 0, yo := 0, coef := plane } : Aquifer ℝ).Upstream true fun _ => (1, 0) :=
  idle_upstream 1 plane (by funext i; simp [plane])

theorem ring_tube {D : ℝ} (hD : D ≤ 257) {q : ℝ × ℝ} (h : q ∈ Tube (fun t => (10 + 1 * t, 0)) D 4) : |q.1 - 0| ≤ 500 ∧ |q.2 - 0| ≤ 100 ∧ (q.1, q.2) ≠ (0, 0) ∧ |q.1| ≤ 300 ∧ |q.2| ≤ 10 := by
  obtain ⟨t, h0, h1, h⟩ := h
  rw [Prod.norm_def, max_le_iff, Real.norm_eq_abs, Real.norm_eq_abs] at h
  simp only [Prod.fst_sub, Prod.snd_sub, sub_zero, one_mul] at h
  have := abs_le.mp h.1
  rw [sub_zero, sub_zero]
  refine ⟨abs_le.mpr ⟨by linarith, by linarith⟩, h.2.trans (by norm_num), fun e => ?_, abs_le.mpr ⟨by linarith, by linarith⟩, h.2.trans (by norm_num)⟩
  have := (Prod.mk.inj e).1
  linarith

theorem idle_clear : ∀ o ∈ ringObs, idle.exact.LevelClear o.exact := by
  intro o ho
  have h : o.exact ∈ ringReal := by rw [← ring_exact]; exact List.mem_map.mpr ⟨o, ho, rfl⟩
  obtain ⟨h1, -, -, -, -, h2, h3, -⟩ := ring_mem h
  left
  rw [idle_exact]
  simp only [idleReal]
  linarith

theorem ring_terms : idleReal.residualTerms ringReal 0 0 plane ≤ 7000 := by
  unfold residualTerms
  have ht : ∀ o ∈ ringReal, ((conicTerms plane (o.x - 0) (o.y - 0) + expectedPotential idleReal.conductivity idleReal.thickness (o.z - idleReal.base) o.std + idleReal.wellTerms o.x o.y) /
      potentialStd idleReal.conductivity idleReal.thickness (o.z - idleReal.base) o.std) ^ 2 ≤ 2400 ^ 2 := by
    intro o ho
    obtain ⟨x0, x1, y0, y1, xy, -, -, -⟩ := ring_mem ho
    rw [ring_std ho, ring_expected ho]
    have e : conicTerms plane (o.x - 0) (o.y - 0) = 5 * |o.x| + 19800 := by
      have e0 : plane 0 = 0 := rfl
      have e1 : plane 1 = 0 := rfl
      have e2 : plane 2 = 0 := rfl
      have e3 : plane 3 = 5 := rfl
      have e4 : plane 4 = 0 := rfl
      have e5 : plane 5 = 19800 := rfl
      simp only [conicTerms, e0, e1, e2, e3, e4, e5, sub_zero, zero_mul, abs_zero, zero_add, add_zero]
      rw [abs_mul, abs_of_pos (by norm_num : (0:ℝ) < 5), abs_of_pos (by norm_num : (0:ℝ) < 19800)]
    rw [e]
    have w : idleReal.wellTerms o.x o.y = 0 := by simp [wellTerms, idleReal]
    rw [w]
    have ax : |o.x| ≤ 800 := abs_le.mpr ⟨by linarith, x1⟩
    refine pow_le_pow_left₀ (div_nonneg (by linarith [abs_nonneg o.x]) (by norm_num)) ?_ 2
    linarith
  have := List.sum_le_card_nsmul _ ((2400:ℝ) ^ 2) (by
    intro t ht'
    obtain ⟨p, hp', rfl⟩ := List.mem_map.mp ht'
    exact ht p hp')
  have l : ringReal.length = 6 := rfl
  rw [List.length_map, l, nsmul_eq_mul] at this
  refine Real.sqrt_le_iff.mpr ⟨by norm_num, this.trans ?_⟩
  norm_num

/-- the rows of the plane and its residuals -/
theorem idle_rows : letI := nearestLib; letI := nearestObs
    ∃ rows, idle.flConstructFit 0 0 ringObs = .ok rows ∧ planeExcess rows ≤ 1/10000000000 := by
  let _ := nearestLib
  let _ := nearestObs
  have z : (0 : Fl).val = 0 := Fl.zero_val
  have hK : idle.conductivity.val = 1 := congrArg Aquifer.conductivity idle_exact
  have hT : idle.thickness.val = 20 := congrArg Aquifer.thickness idle_exact
  have hb : idle.base.val = 0 := congrArg Aquifer.base idle_exact
  obtain ⟨rows, hr, hall⟩ := C111_rows nearestLib_log nearestObs_accurate idle (by rw [hK]; norm_num) (by rw [hT]; norm_num) (by simp [idle]) ringObs 0 0
    (by rw [idle_exact, ring_exact]; exact ring_usable) idle_clear
  refine ⟨rows, hr, ?_⟩
  have each : ∀ r ∈ rows, (∑ i, (r.1 i).val * (planeFl i).val - r.2.val) ^ 2 ≤ (1/50000000000) ^ 2 := by
    intro r hrm
    obtain ⟨o, ho, h1, h2⟩ := forall₂_partner hall hrm
    have hm : o.exact ∈ ringReal := by rw [← ring_exact]; exact List.mem_map.mpr ⟨o, ho, rfl⟩
    have hs := ring_std hm
    have he := ring_expected hm
    obtain ⟨x0, x1, y0, y1, xy, -, -, -⟩ := ring_mem hm
    change -400 ≤ o.x.val at x0
    change o.x.val ≤ 800 at x1
    rw [← idle_exact] at hs he
    change potentialStd idle.conductivity.val idle.thickness.val (o.z.val - idle.base.val) o.std.val = 20 at hs
    change expectedPotential idle.conductivity.val idle.thickness.val (o.z.val - idle.base.val) o.std.val = 19800 + 5 * o.x.val at he
    rw [hs, he] at h2
    rw [hs, z] at h1
    have hw : idle.exact.potentialWells o.x.val o.y.val = 0 := by rw [idle_exact, potentialWells_eq]; simp [idleReal]
    have ht : idle.exact.wellTerms o.x.val o.y.val = 0 := by rw [idle_exact]; simp [wellTerms, idleReal]
    have hn : idle.wells.length = 1 := rfl
    rw [hw, ht, hn] at h2
    have k3 := h1 3
    have k5 := h1 5
    change |(r.1 3).val - (o.x.val - 0) / 20| ≤ 16 * 2 ^ (-53 : ℤ) * |(o.x.val - 0) / 20| at k3
    change |(r.1 5).val - 1 / 20| ≤ 16 * 2 ^ (-53 : ℤ) * |(1:ℝ) / 20| at k5
    rw [sub_zero] at k3
    have ax : |o.x.val / 20| ≤ 40 := abs_le.mpr ⟨by linarith, by linarith⟩
    have e53 : (0:ℝ) ≤ 16 * 2 ^ (-53 : ℤ) := by positivity
    replace k3 := k3.trans (mul_le_mul_of_nonneg_left ax e53)
    rw [abs_of_pos (by norm_num : (0:ℝ) < 1 / 20)] at k5
    have e : ∑ i, (r.1 i).val * (planeFl i).val = (r.1 3).val * 5 + (r.1 5).val * 19800 := by
      have : ∀ i, (planeFl i).val = plane i := fun i => congrFun planeFl_val i
      simp only [this]
      rw [Fin.sum_univ_six]
      change _ * (0:ℝ) + _ * (0:ℝ) + _ * (0:ℝ) + _ * (5:ℝ) + _ * (0:ℝ) + _ * (19800:ℝ) = _
      ring
    rw [e]
    refine sq_le_sq' ?_ ?_
    all_goals
      norm_num [_root_.zpow_neg] at h2 k3 k5
      have := abs_le.mp h2
      have := abs_le.mp k3
      have := abs_le.mp k5
      linarith
  have := List.sum_le_card_nsmul (rows.map fun r => (∑ i, (r.1 i).val * (planeFl i).val - r.2.val) ^ 2) _ (by
    intro t ht'
    obtain ⟨p, hp', rfl⟩ := List.mem_map.mp ht'
    exact each p hp')
  have l : rows.length = 6 := hall.length_eq.symm
  rw [List.length_map, l, nsmul_eq_mul] at this
  refine Real.sqrt_le_iff.mpr ⟨by norm_num, this.trans ?_⟩
  norm_num

/-- the arguments of the run: one path, 256 days, umbra 2, spacing 8 -/
noncomputable def idleArgs : FlRunArgs where
  target := -1
  npaths := 1
  duration := Fl.of (256 : ℕ)
  base := 0
  cDist := .pair (Fl.of (2 ^ (-1 : ℤ))) (Fl.of (2 ^ (-1 : ℤ)) + Fl.of (1 : ℕ))
  pDist := .const (Fl.of (2 ^ (-2 : ℤ)))
  tDist := .triple (Fl.of (10 : ℕ)) (Fl.of (20 : ℕ)) (Fl.of (30 : ℕ))
  wells := [⟨0, 0, Fl.of (9 : ℕ), .pair (-Fl.of (1 : ℕ)) (Fl.of (1 : ℕ))⟩]
  obs := ringObs
  spacing := Fl.of (8 : ℕ)
  umbra := Fl.of (2 : ℕ)
  confined := true
  tol := Fl.of (1 : ℕ)
  maxstep := Fl.of (2 ^ (-4 : ℤ))

theorem round_nat {x y : ℝ} (n : ℕ) (h : n ≤ 2 ^ 53) (e : x = n) (e' : y = n) : round53 x = y := by
  rw [e, e']; exact of_nat h

theorem idle_mean : idleArgs.meanModel = idle := by
  have r1 := of_nat (n := 1) (by norm_num)
  have r2 := of_nat (n := 2) (by norm_num)
  have r3 := of_nat (n := 3) (by norm_num)
  have r10 := of_nat (n := 10) (by norm_num)
  have r20 := of_nat (n := 20) (by norm_num)
  have r30 := of_nat (n := 30) (by norm_num)
  have rh := of_pow (k := -1)
  have eh : (2:ℝ) ^ (-1 : ℤ) = 1/2 := by norm_num
  have c2 : ((2 : ℕ) : Fl).val = 2 := by change (Fl.of ((2:ℕ):ℝ)).val = 2; rw [r2]; norm_num
  have c3 : ((3 : ℕ) : Fl).val = 3 := by change (Fl.of ((3:ℕ):ℝ)).val = 3; rw [r3]; norm_num
  have vd : ∀ a b : Fl, (a / b).val = round53 (a.val / b.val) := fun _ _ => rfl
  have neg : ∀ a : Fl, (-a).val = -a.val := fun _ => rfl
  have e1 : (FlDist.pair (Fl.of (2 ^ (-1 : ℤ))) (Fl.of (2 ^ (-1 : ℤ)) + Fl.of (1 : ℕ))).mean = Fl.of (1 : ℕ) := by
    refine Fl.ext' ?_
    have h32 : round53 (1/2 + 1) = 3/2 := by
      have := round53_exact 3 (-1) (by norm_num)
      norm_num at this ⊢
      exact this
    unfold FlDist.mean
    have a1 : round53 (1/2 + 3/2) = 2 := round_nat 2 (by norm_num) (by norm_num) (by norm_num)
    have a2 : round53 (2/2) = 1 := round_nat 1 (by norm_num) (by norm_num) (by norm_num)
    rw [vd, Fl.val_add, Fl.val_add, rh, r1, c2, eh, Nat.cast_one, h32, a1, a2]
  have e2 : (FlDist.triple (Fl.of (10 : ℕ)) (Fl.of (20 : ℕ)) (Fl.of (30 : ℕ))).mean = Fl.of (20 : ℕ) := by
    refine Fl.ext' ?_
    unfold FlDist.mean
    have a1 : round53 ((10 : ℕ) + (20 : ℕ)) = 30 := round_nat 30 (by norm_num) (by norm_num) (by norm_num)
    have a2 : round53 (30 + (30 : ℕ)) = 60 := round_nat 60 (by norm_num) (by norm_num) (by norm_num)
    have a3 : round53 (60 / 3) = (20 : ℕ) := round_nat 20 (by norm_num) (by norm_num) rfl
    rw [vd, Fl.val_add, Fl.val_add, r10, r20, r30, c3, a1, a2, a3]
  have e3 : (FlDist.pair (-Fl.of (1 : ℕ)) (Fl.of (1 : ℕ))).mean = 0 := by
    refine Fl.ext' ?_
    unfold FlDist.mean
    rw [vd, Fl.val_add, neg, neg_add_cancel, round53_zero, zero_div, round53_zero, Fl.zero_val]
  unfold FlRunArgs.meanModel idleArgs idle
  simp only [List.map_cons, List.map_nil, e1, e2, e3]
  rfl

theorem idle_start : letI := nearestLib
    ∀ (j : ℕ) (θ : Fl), (flAngles 1)[j]? = some θ → flStart 0 0 (Fl.of (9 : ℕ)) θ = (Fl.of (10 : ℕ), 0) := by
  let _ := nearestLib
  have g : (Fl.of (9 : ℕ)).val = 9 := by rw [of_nat (by norm_num)]; norm_num
  have ten : (Fl.of (10 : ℕ)).val = 10 := by rw [of_nat (by norm_num)]; norm_num
  have z : (0 : Fl).val = 0 := Fl.zero_val
  intro j θ hj
  have hθ : θ.val = 0 := by
    have hj' : j < 1 := by
      have := (List.getElem?_eq_some_iff.mp hj).1
      rwa [flAngles_length] at this
    obtain rfl : j = 0 := by omega
    rw [angle_get 1 0 (by norm_num)] at hj
    rw [← Option.some.inj hj, Fl.val_add, Fl.val_mul, z, add_zero]
    have : ((0 : ℕ) : Fl).val = 0 := by
      change (Fl.of ((0:ℕ):ℝ)).val = 0
      rw [of_nat (by norm_num)]; norm_num
    rw [this, zero_mul, round53_zero, round53_zero]
  have hc : (LibM.cos θ).val = 1 := by
    change round53 (Real.cos θ.val) = 1
    rw [hθ, Real.cos_zero]
    exact round_nat 1 (by norm_num) (by norm_num) (by norm_num)
  have hs : (LibM.sin θ).val = 0 := by
    change round53 (Real.sin θ.val) = 0
    rw [hθ, Real.sin_zero, round53_zero]
  unfold flStart
  refine Prod.ext (Fl.ext' ?_) (Fl.ext' ?_)
  · dsimp only
    have a1 : round53 (9 + 1) = 10 := round_nat 10 (by norm_num) (by norm_num) (by norm_num)
    have a2 : round53 10 = 10 := round_nat 10 (by norm_num) (by norm_num) (by norm_num)
    rw [Fl.val_add, Fl.val_mul, Fl.val_add, one_fl, hc, g, z, a1, mul_one, a2, add_zero, a2, ten]
  · dsimp only
    rw [Fl.val_add, Fl.val_mul, hs, mul_zero, round53_zero, z, add_zero, round53_zero]

/-- C113: the levels are fitted with rounding, and the zone is traced with rounding through the fitted model. The pathline of the exact fit leaves `(10, 0)` to the east: the field has the total weight 1, the node at `(16, 0)`
the weight 1, and the node at `(16, 8)` the weight 0. -/
example : letI := nearestLib; letI := nearestObs
    ∃ f, flCreateDeterministic idleArgs planeSolver = some (.ok f) ∧ f.exact.total = 1 ∧ f.exact.weightAt 16 0 = 1 ∧ f.exact.weightAt 16 8 = 0 := by
  let _ := nearestLib
  let _ := nearestObs
  have b : (Fl.of (256 : ℕ)).val = 256 := by rw [of_nat (by norm_num)]; norm_num
  have c : (Fl.of (1 : ℕ)).val = 1 := by rw [of_nat (by norm_num)]; norm_num
  have g : (Fl.of (9 : ℕ)).val = 9 := by rw [of_nat (by norm_num)]; norm_num
  have e : (Fl.of (2 ^ (-4 : ℤ))).val = 1/16 := by rw [of_pow]; norm_num [_root_.zpow_neg]
  have u : (Fl.of (2 : ℕ)).val = 2 := by rw [of_nat (by norm_num)]; norm_num
  have d : (Fl.of (8 : ℕ)).val = 8 := by rw [of_nat (by norm_num)]; norm_num
  have ten : (Fl.of (10 : ℕ)).val = 10 := by rw [of_nat (by norm_num)]; norm_num
  have z : (0 : Fl).val = 0 := Fl.zero_val
  have e0 : fv (Fl.of (10 : ℕ), 0) = (10, 0) := by unfold fv; rw [ten, z]
  have hT : (256:ℝ) * (1 + ((1200000 : ℕ) + 1) * (2:ℝ) ^ (-52 : ℤ)) ≤ 257 := by norm_num [_root_.zpow_neg]
  have hT0 : 0 ≤ (256:ℝ) * (1 + ((1200000 : ℕ) + 1) * (2:ℝ) ^ (-52 : ℤ)) := by positivity
  have hexp : Real.exp (1/1000000 * (256 * (1 + ((1200000 : ℕ) + 1) * (2:ℝ) ^ (-52 : ℤ)))) ≤ 1.0003 := by
    refine (Real.exp_le_exp.mpr (by linarith : 1/1000000 * (256 * (1 + ((1200000 : ℕ) + 1) * (2:ℝ) ^ (-52 : ℤ))) ≤ 257/1000000)).trans ?_
    have h := Real.exp_bound' (x := 257/1000000) (by norm_num) (by norm_num) (n := 2) (by norm_num)
    refine h.trans ?_
    simp [Finset.sum_range_succ, Nat.factorial]
    norm_num
  obtain ⟨rows, hr, hexc⟩ := idle_rows
  obtain ⟨V, h, hz, hg⟩ := ring_fit
  have hfit : idle.flFitRegionalFlow planeSolver ringObs 0 0 = ({ idle with xo := 0, yo := 0, coef := planeFl }, .ok (planeFl, fun _ _ => 0)) := by
    simp only [flFitRegionalFlow, hr, planeSolver]
  have hd : ({ idle with xo := 0, yo := 0, coef := planeFl } : Aquifer Fl).exact = { idleReal with xo := 0, yo := 0, coef := plane } := by
    rw [← idle_exact, ← planeFl_val]
    unfold exact
    simp only [z]
  have hn : idle.wells.length = 1 := rfl
  set B := 8/7 * planeExcess rows + 2 ^ (-53 : ℤ) * (48 * 100 * √(misfit idle.exact (ringObs.map FlObs.exact) ({ idleReal with xo := 0, yo := 0, coef := plane } : Aquifer ℝ).potential) +
    (132 + 9 * idle.wells.length) * idle.exact.residualTerms (ringObs.map FlObs.exact) (0 : Fl).val (0 : Fl).val plane) with hB
  have hB1 : B ≤ 1/1000000000 := by
    rw [hB, idle_exact, ring_exact, hz, z, hn, Real.sqrt_zero]
    have := ring_terms
    norm_num [_root_.zpow_neg]
    linarith
  have hB0 : 0 ≤ B := by
    have h1 : 0 ≤ planeExcess rows := Real.sqrt_nonneg _
    have h2 : 0 ≤ idle.exact.residualTerms (ringObs.map FlObs.exact) (0 : Fl).val (0 : Fl).val plane := Real.sqrt_nonneg _
    positivity
  have follows : FittedFollows ({ idle with xo := 0, yo := 0, coef := planeFl } : Aquifer Fl) { idleReal with xo := 0, yo := 0, coef := plane } V B true (Fl.of (10 : ℕ), 0) (Fl.of (256 : ℕ)) (Fl.of (1 : ℕ))
      (Fl.of (2 ^ (-4 : ℤ))) 300 10 (1/4) fun t => (10 + 1 * t, 0) := by
    refine ⟨fun _ => (1, 0), 1/1000000, 1, 1/8, 4, 267, 1/1000000000, _, _, _, _, _, 1200000, {
      η_eq := rfl
      μ_eq := rfl
      mm_eq := rfl
      T_eq := rfl
      E_eq := rfl
      upstream := ring_upstream
      exact := ?_
      bounded := ?_
      within := ?_
      moderate := ⟨fun x _ y _ => by rw [sub_self, norm_zero]; positivity, fun x _ => by rw [Prod.norm_def]; simp⟩
      flow := ?_
      D_pos := by rw [b]; norm_num
      D_le := by rw [b]; norm_num
      tol_ge := by rw [c]; norm_num [_root_.zpow_neg]
      maxstep_ge := by rw [e]; norm_num [_root_.zpow_neg]
      tol_way := by rw [b, c]; norm_num
      maxstep_way := by rw [b, e]; norm_num
      near := by rw [e0, e, Prod.norm_def]; norm_num
      L_pos := by norm_num
      M_nonneg := by norm_num
      H_ge := by norm_num
      ν_nonneg := by norm_num
      ρ_nonneg := by norm_num
      H_le := by norm_num
      wide := ?_
      fast := ?_
      fine := by rw [e]; norm_num [_root_.zpow_neg]
      steps := by rw [b, c, e]; norm_num
      precision := ?_
      moves := ?_ }⟩
    · rw [e0]
      refine ⟨by simp, fun t _ _ => ?_⟩
      have := (((hasDerivAt_id t).const_mul 1).const_add 10).prodMk (hasDerivAt_const t (0:ℝ))
      simpa using this
    · intro t t0 tT
      rw [b] at tT
      refine (Prod.norm_def _).trans_le (max_le ?_ (by simp))
      rw [Real.norm_eq_abs, abs_of_nonneg (by linarith)]
      linarith
    · intro q hq
      rw [b] at hq
      exact (ring_tube hT hq).2.2.2
    · intro q hq
      rw [b] at hq
      obtain ⟨q1, q2, q3, -⟩ := ring_tube hT hq
      rw [hd]
      refine ⟨by simp only [OffWells, idleReal, List.mem_singleton]; rintro w rfl; exact q3, by simp only [condition, if_true]; norm_num [_root_.zpow_neg, idle], 20, 0, by simp [Saturated, idleReal], le_rfl, by norm_num, by simp, ?_⟩
      have hs := ring_slope hg q1 q2
      have hs' : B * gradientSpread V (q.1 - 0) (q.2 - 0) ≤ 1/1000000000 := by nlinarith
      have hdt : ({ idleReal with xo := 0, yo := 0, coef := plane } : Aquifer ℝ).dischargeTerms q.1 q.2 = 5 := by
        unfold dischargeTerms
        simp [idleReal, plane]
      rw [hdt]
      simp only [condition, if_true]
      norm_num [_root_.zpow_neg, idle, idleReal]
      norm_num at hs'
      linarith
    · rw [b, e]
      have h0 := Real.exp_pos (1/1000000 * (256 * (1 + ((1200000 : ℕ) + 1) * (2:ℝ) ^ (-52 : ℤ))))
      set E := Real.exp (1/1000000 * (256 * (1 + ((1200000 : ℕ) + 1) * (2:ℝ) ^ (-52 : ℤ))))
      norm_num [_root_.zpow_neg] at hexp ⊢
      linarith
    · intro q _
      rw [e, Prod.norm_def]
      norm_num
    · rw [b, e]
      have h0 := Real.exp_pos (1/1000000 * (256 * (1 + ((1200000 : ℕ) + 1) * (2:ℝ) ^ (-52 : ℤ))))
      set E := Real.exp (1/1000000 * (256 * (1 + ((1200000 : ℕ) + 1) * (2:ℝ) ^ (-52 : ℤ))))
      norm_num [_root_.zpow_neg] at hexp ⊢
      linarith
    · refine ⟨1, by norm_num, by rw [b]; norm_num, ?_⟩
      rw [Prod.norm_def]
      norm_num
  obtain ⟨f, h1, h2, h3⟩ := C113_deterministic (X := ⟨0, 3, 300⟩) (Y := ⟨0, 3, 10⟩) (S := 2) (η := 1/1000) (δ := 1/4) nearestLib_log nearestLib_root nearestObs_accurate planeSolver planeExcess
    (fun _ => Real.sqrt_nonneg _) planeSolver_within perfect perfect_correct idleArgs ⟨0, 0, Fl.of (9 : ℕ), .pair (-Fl.of (1 : ℕ)) (Fl.of (1 : ℕ))⟩ ⟨0, rfl, .inr rfl⟩ (by change 0 < (Fl.of (8 : ℕ)).val; rw [d]; norm_num)
    (by change Axis.Fits _ (0 : Fl).val (Fl.of (8 : ℕ)).val; rw [d, z]; exact ⟨⟨0, by norm_num⟩, ⟨1, by norm_num⟩, by norm_num, by norm_num, by norm_num, by norm_num⟩)
    (by change Axis.Fits _ (0 : Fl).val (Fl.of (8 : ℕ)).val; rw [d, z]; exact ⟨⟨0, by norm_num⟩, ⟨1, by norm_num⟩, by norm_num, by norm_num, by norm_num, by norm_num⟩)
    (by norm_num) (by change _ ≤ (Fl.of (2 : ℕ)).val; rw [u]; norm_num) (by change (Fl.of (2 : ℕ)).val ≤ _; rw [u]) (by change 2 * (Fl.of (2 ^ (-4 : ℤ))).val ≤ _; rw [e]; norm_num)
    (by change _ ≤ (Fl.of (2 : ℕ)).val * _; rw [u]; norm_num [_root_.zpow_neg]) idle idle_mean.symm (by rw [idle_exact]; exact idle_physical) (by simp [idle])
    (by change idle.exact.Usable (ringObs.map _); rw [idle_exact, ring_exact]; exact ring_usable) idle_clear 100 (by norm_num)
    (by change idle.exact.Determined (ringObs.map _) (0 : Fl).val (0 : Fl).val _; rw [idle_exact, ring_exact, z]; exact ring_determined) (by norm_num) rows hr _ _ _ hfit
    { idleReal with xo := 0, yo := 0, coef := plane } plane V (by change idle.exact.fitRegionalFlow _ (ringObs.map _) (0 : Fl).val (0 : Fl).val = _; rw [idle_exact, ring_exact, z]; exact h) B hB
    (fun _ t => (10 + 1 * t, 0)) (by
      intro j θ hθ
      change FittedFollows _ _ _ _ true (flStart 0 0 (Fl.of (9 : ℕ)) θ) _ _ _ _ _ _ _
      rw [idle_start j θ hθ]
      exact follows)
  change ∀ p q : ℤ, (|p| ≤ 1 ∧ |q| ≤ 1) ∨ (Fl.of (2 : ℕ)).val ≤ (Fl.of (8 : ℕ)).val → ∀ x y : ℝ, x = (0 : Fl).val + p * (Fl.of (8 : ℕ)).val → y = (0 : Fl).val + q * (Fl.of (8 : ℕ)).val →
    ((∃ j, j < 1 ∧ Passes (fun t => (10 + 1 * t, 0)) (Fl.of (256 : ℕ)).val ((Fl.of (2 : ℕ)).val - 1/1000 - 1/4) x y) → f.exact.weightAt x y = 1) ∧
    ((∀ j, j < 1 → ¬ Passes (fun t => (10 + 1 * t, 0)) (Fl.of (256 : ℕ)).val ((Fl.of (2 : ℕ)).val + 1/1000 + 1/4) x y) → f.exact.weightAt x y = 0) at h3
  rw [u, d, z, b] at h3
  refine ⟨f, h1, h2, (h3 2 0 (.inr (by norm_num)) 16 0 (by norm_num) (by norm_num)).1 ⟨0, by norm_num, 6, by norm_num, by norm_num, ?_⟩,
    (h3 2 1 (.inr (by norm_num)) 16 8 (by norm_num) (by norm_num)).2 ?_⟩
  · unfold euclid
    norm_num
  · rintro j - ⟨t, -, -, ht⟩
    unfold euclid at ht
    rw [Real.sqrt_lt' (by norm_num)] at ht
    dsimp only at ht
    nlinarith [sq_nonneg (16 - (10 + 1 * t))]

/-- The fitted flow, through which a trace follows its own pathline. -/
theorem idle_follows : letI := nearestLib
    RoundedFollows ({ idle with xo := 0, yo := 0, coef := planeFl } : Aquifer Fl) true (Fl.of (10 : ℕ), 0) (Fl.of (256 : ℕ)) (Fl.of (1 : ℕ)) (Fl.of (2 ^ (-4 : ℤ))) 300 10 (1/4) fun t => (10 + 1 * t, 0) := by
  let _ := nearestLib
  have b : (Fl.of (256 : ℕ)).val = 256 := by rw [of_nat (by norm_num)]; norm_num
  have c : (Fl.of (1 : ℕ)).val = 1 := by rw [of_nat (by norm_num)]; norm_num
  have g : (Fl.of (9 : ℕ)).val = 9 := by rw [of_nat (by norm_num)]; norm_num
  have e : (Fl.of (2 ^ (-4 : ℤ))).val = 1/16 := by rw [of_pow]; norm_num [_root_.zpow_neg]
  have u : (Fl.of (2 : ℕ)).val = 2 := by rw [of_nat (by norm_num)]; norm_num
  have d : (Fl.of (8 : ℕ)).val = 8 := by rw [of_nat (by norm_num)]; norm_num
  have ten : (Fl.of (10 : ℕ)).val = 10 := by rw [of_nat (by norm_num)]; norm_num
  have z : (0 : Fl).val = 0 := Fl.zero_val
  have e0 : fv (Fl.of (10 : ℕ), 0) = (10, 0) := by unfold fv; rw [ten, z]
  have hT : (256:ℝ) * (1 + ((1200000 : ℕ) + 1) * (2:ℝ) ^ (-52 : ℤ)) ≤ 257 := by norm_num [_root_.zpow_neg]
  have hT0 : 0 ≤ (256:ℝ) * (1 + ((1200000 : ℕ) + 1) * (2:ℝ) ^ (-52 : ℤ)) := by positivity
  have hexp : Real.exp (1/1000000 * (256 * (1 + ((1200000 : ℕ) + 1) * (2:ℝ) ^ (-52 : ℤ)))) ≤ 1.0003 := by
    refine (Real.exp_le_exp.mpr (by linarith : 1/1000000 * (256 * (1 + ((1200000 : ℕ) + 1) * (2:ℝ) ^ (-52 : ℤ))) ≤ 257/1000000)).trans ?_
    have h := Real.exp_bound' (x := 257/1000000) (by norm_num) (by norm_num) (n := 2) (by norm_num)
    refine h.trans ?_
    simp [Finset.sum_range_succ, Nat.factorial]
    norm_num
  have hd : ({ idle with xo := 0, yo := 0, coef := planeFl } : Aquifer Fl).exact = { idleReal with xo := 0, yo := 0, coef := plane } := by
    rw [← idle_exact, ← planeFl_val]
    unfold exact
    simp only [z]
  refine ⟨fun _ => (1, 0), 1/1000000, 1, 1/8, 4, 267, 1/1000000000, _, _, _, _, _, 1200000, {
    η_eq := rfl
    μ_eq := rfl
    mm_eq := rfl
    T_eq := rfl
    E_eq := rfl
    physical := by rw [hd]; exact ⟨idle_physical.1, idle_physical.2, idle_physical.3⟩
    upstream := by rw [hd]; exact ring_upstream
    exact := ?_
    bounded := ?_
    within := ?_
    moderate := ⟨fun x _ y _ => by rw [sub_self, norm_zero]; positivity, fun x _ => by rw [Prod.norm_def]; simp⟩
    flow := ?_
    D_pos := by rw [b]; norm_num
    D_le := by rw [b]; norm_num
    tol_ge := by rw [c]; norm_num [_root_.zpow_neg]
    maxstep_ge := by rw [e]; norm_num [_root_.zpow_neg]
    tol_way := by rw [b, c]; norm_num
    maxstep_way := by rw [b, e]; norm_num
    near := by rw [e0, e, Prod.norm_def]; norm_num
    L_pos := by norm_num
    M_nonneg := by norm_num
    H_ge := by norm_num
    ν_nonneg := by norm_num
    ρ_nonneg := by norm_num
    H_le := by norm_num
    wide := ?_
    fast := ?_
    fine := by rw [e]; norm_num [_root_.zpow_neg]
    steps := by rw [b, c, e]; norm_num
    precision := ?_
    moves := ?_ }⟩
  · rw [e0]
    refine ⟨by simp, fun t _ _ => ?_⟩
    have := (((hasDerivAt_id t).const_mul 1).const_add 10).prodMk (hasDerivAt_const t (0:ℝ))
    simpa using this
  · intro t t0 tT
    rw [b] at tT
    refine (Prod.norm_def _).trans_le (max_le ?_ (by simp))
    rw [Real.norm_eq_abs, abs_of_nonneg (by linarith)]
    linarith
  · intro q hq
    rw [b] at hq
    exact (ring_tube hT hq).2.2.2
  · intro q hq
    rw [b] at hq
    obtain ⟨q1, q2, q3, -⟩ := ring_tube hT hq
    rw [hd]
    refine ⟨by simp only [OffWells, idleReal, List.mem_singleton]; rintro w rfl; exact q3, by simp only [condition, if_true]; norm_num [_root_.zpow_neg, idle], 20, by simp [Saturated, idleReal], ?_⟩
    have hdt : ({ idleReal with xo := 0, yo := 0, coef := plane } : Aquifer ℝ).dischargeTerms q.1 q.2 = 5 := by
      unfold dischargeTerms
      simp [idleReal, plane]
    rw [hdt]
    simp only [condition, if_true]
    norm_num [_root_.zpow_neg, idle, idleReal]
  · rw [b, e]
    have h0 := Real.exp_pos (1/1000000 * (256 * (1 + ((1200000 : ℕ) + 1) * (2:ℝ) ^ (-52 : ℤ))))
    set E := Real.exp (1/1000000 * (256 * (1 + ((1200000 : ℕ) + 1) * (2:ℝ) ^ (-52 : ℤ))))
    norm_num [_root_.zpow_neg] at hexp ⊢
    linarith
  · intro q _
    rw [e, Prod.norm_def]
    norm_num
  · rw [b, e]
    have h0 := Real.exp_pos (1/1000000 * (256 * (1 + ((1200000 : ℕ) + 1) * (2:ℝ) ^ (-52 : ℤ))))
    set E := Real.exp (1/1000000 * (256 * (1 + ((1200000 : ℕ) + 1) * (2:ℝ) ^ (-52 : ℤ))))
    norm_num [_root_.zpow_neg] at hexp ⊢
    linarith
  · refine ⟨1, by norm_num, by rw [b]; norm_num, ?_⟩
    rw [Prod.norm_def]
    norm_num

/-- With all draws 1/2, the parameters are those of `idle`. -/
theorem idle_realized : letI := nearestLib; letI := nearestObs
    idleArgs.Realized planeSolver ⟨0, 0, Fl.of (9 : ℕ), .pair (-Fl.of (1 : ℕ)) (Fl.of (1 : ℕ))⟩ (fun _ => Fl.of (2 ^ (-1 : ℤ))) (fun ev _ => .ok ev) { idle with xo := 0, yo := 0, coef := planeFl } := by
  let _ := nearestLib
  let _ := nearestObs
  have r1 := of_nat (n := 1) (by norm_num)
  have r10 := of_nat (n := 10) (by norm_num)
  have r20 := of_nat (n := 20) (by norm_num)
  have r30 := of_nat (n := 30) (by norm_num)
  have rh := of_pow (k := -1)
  have eh : (2:ℝ) ^ (-1 : ℤ) = 1/2 := by norm_num
  have vd : ∀ a b : Fl, (a / b).val = round53 (a.val / b.val) := fun _ _ => rfl
  have vs : ∀ a b : Fl, (a - b).val = round53 (a.val - b.val) := fun _ _ => rfl
  have neg : ∀ a : Fl, (-a).val = -a.val := fun _ => rfl
  have h32 : round53 (1/2 + 1) = 3/2 := by
    have := round53_exact 3 (-1) (by norm_num)
    norm_num at this ⊢
    exact this
  have hh : round53 (1/2) = 1/2 := by
    have := round53_exact 1 (-1) (by norm_num)
    norm_num at this ⊢
    exact this
  obtain ⟨rows, hr, -⟩ := idle_rows
  refine ⟨rfl, rfl, ?_, ?_, rfl, ?_, ⟨rfl, rfl⟩, planeFl, fun _ _ => 0, ?_, rfl⟩
  · intro j s v hs hv
    have hj : j = 0 := by
      have := (List.getElem?_eq_some_iff.mp hs).1
      simpa [idleArgs] using this
    subst hj
    simp only [idleArgs, idle, List.getElem?_cons_zero, Option.some.injEq] at hs hv
    subst hs hv
    refine ⟨rfl, rfl, rfl, congrArg Except.ok (Fl.ext' ?_)⟩
    have a1 : round53 (1 - -1) = 2 := round_nat 2 (by norm_num) (by norm_num) (by norm_num)
    have a2 : round53 (2 * (1/2)) = 1 := round_nat 1 (by norm_num) (by norm_num) (by norm_num)
    unfold flUniform
    rw [Fl.val_add, Fl.val_mul, vs, neg, r1, rh, eh, Nat.cast_one, a1, a2, neg_add_cancel, round53_zero]
    exact Fl.zero_val.symm
  · refine congrArg Except.ok (Fl.ext' ?_)
    have a1 : round53 (3/2 - 1/2) = 1 := round_nat 1 (by norm_num) (by norm_num) (by norm_num)
    have a2 : round53 (1/2 + 1/2) = 1 := round_nat 1 (by norm_num) (by norm_num) (by norm_num)
    unfold flUniform
    rw [Fl.val_add, Fl.val_mul, vs, Fl.val_add, r1, rh, eh, Nat.cast_one, h32, a1, one_mul, hh, a2]
    change 1 = (Fl.of (1 : ℕ)).val
    rw [r1]; norm_num
  · change flTriangular (Fl.of (10 : ℕ)) (Fl.of (20 : ℕ)) (Fl.of (30 : ℕ)) (Fl.of (2 ^ (-1 : ℤ))) = .ok (Fl.of (20 : ℕ))
    have lt : ∀ a b : Fl, (a < b) = (a.val < b.val) := fun _ _ => rfl
    have le : ∀ a b : Fl, (a ≤ b) = (a.val ≤ b.val) := fun _ _ => rfl
    have a1 : round53 ((20 : ℕ) - (10 : ℕ)) = 10 := round_nat 10 (by norm_num) (by norm_num) (by norm_num)
    have a2 : round53 ((30 : ℕ) - (10 : ℕ)) = 20 := round_nat 20 (by norm_num) (by norm_num) (by norm_num)
    have a3 : round53 (10 / 20) = 1/2 := by rw [show (10:ℝ) / 20 = 1/2 by norm_num, hh]
    have a4 : round53 (10 * 20) = 200 := round_nat 200 (by norm_num) (by norm_num) (by norm_num)
    have a5 : round53 (1/2 * 200) = 100 := round_nat 100 (by norm_num) (by norm_num) (by norm_num)
    have a6 : Real.sqrt 100 = 10 := by rw [show (100:ℝ) = 10 ^ 2 by norm_num, Real.sqrt_sq (by norm_num)]
    have a7 : round53 10 = 10 := round_nat 10 (by norm_num) (by norm_num) (by norm_num)
    have a8 : round53 ((10 : ℕ) + 10) = (20 : ℕ) := round_nat 20 (by norm_num) (by norm_num) rfl
    unfold flTriangular
    rw [if_neg (by rw [lt, r10, r20]; norm_num), if_neg (by rw [lt, r20, r30]; norm_num), if_neg (fun h => by
      have := congrArg Fl.val h
      rw [r10, r30] at this
      norm_num at this)]
    dsimp only
    rw [if_pos (by rw [le, vd, vs, vs, rh, eh, r10, r20, r30, a1, a2, a3])]
    refine congrArg Except.ok (Fl.ext' ?_)
    have sq : ∀ x : Fl, (flSqrt x).val = round53 (Real.sqrt x.val) := fun _ => rfl
    rw [Fl.val_add, sq, Fl.val_mul, Fl.val_mul, vs, vs, rh, eh, r10, r20, r30, a1, a2, a4, a5, a6, a7, a8]
  · have hr' : ({ idle with xo := 0, yo := 0, coef := planeFl } : Aquifer Fl).flConstructFit 0 0 ringObs = .ok rows := by
      rw [flConstructFit_congr (m := { idle with xo := 0, yo := 0, coef := planeFl }) (n := idle) rfl rfl rfl rfl]
      exact hr
    change (({ idle with xo := 0, yo := 0, coef := planeFl } : Aquifer Fl).flFitRegionalFlow planeSolver ringObs 0 0).2 = _
    rw [flFit_snd, hr']
    rfl

/-- C113: three realizations, all draws 1/2 and the coefficients drawn the expected ones: total weight 3, and all of it at `(16, 0)`. -/
example : letI := nearestLib; letI := nearestObs
    ∃ f, flCreateStochastic idleArgs 3 planeSolver (fun _ _ => Fl.of (2 ^ (-1 : ℤ))) (fun _ ev _ => .ok ev) = some (.ok f) ∧ f.exact.total = 3 ∧ f.exact.weightAt 16 0 = 3 := by
  classical
  let _ := nearestLib
  let _ := nearestObs
  have b : (Fl.of (256 : ℕ)).val = 256 := by rw [of_nat (by norm_num)]; norm_num
  have e : (Fl.of (2 ^ (-4 : ℤ))).val = 1/16 := by rw [of_pow]; norm_num [_root_.zpow_neg]
  have u : (Fl.of (2 : ℕ)).val = 2 := by rw [of_nat (by norm_num)]; norm_num
  have d : (Fl.of (8 : ℕ)).val = 8 := by rw [of_nat (by norm_num)]; norm_num
  have z : (0 : Fl).val = 0 := Fl.zero_val
  have hmem : ∀ (i : ℕ) (m : Aquifer Fl), (List.replicate 3 ({ idle with xo := 0, yo := 0, coef := planeFl } : Aquifer Fl))[i]? = some m → m = { idle with xo := 0, yo := 0, coef := planeFl } :=
    fun i m hm => List.eq_of_mem_replicate (List.mem_of_getElem? hm)
  obtain ⟨f, h1, h2, h3⟩ := C113_stochastic (X := ⟨0, 3, 300⟩) (Y := ⟨0, 3, 10⟩) (S := 2) (η := 1/1000) (δ := 1/4) nearestLib_log nearestLib_root idleArgs 3 planeSolver (fun _ _ => Fl.of (2 ^ (-1 : ℤ)))
    (fun _ ev _ => .ok ev) ⟨0, 0, Fl.of (9 : ℕ), .pair (-Fl.of (1 : ℕ)) (Fl.of (1 : ℕ))⟩ ⟨0, rfl, .inr rfl⟩ (by change 0 < (Fl.of (8 : ℕ)).val; rw [d]; norm_num)
    (by change Axis.Fits _ (0 : Fl).val (Fl.of (8 : ℕ)).val; rw [d, z]; exact ⟨⟨0, by norm_num⟩, ⟨1, by norm_num⟩, by norm_num, by norm_num, by norm_num, by norm_num⟩)
    (by change Axis.Fits _ (0 : Fl).val (Fl.of (8 : ℕ)).val; rw [d, z]; exact ⟨⟨0, by norm_num⟩, ⟨1, by norm_num⟩, by norm_num, by norm_num, by norm_num, by norm_num⟩)
    (by norm_num) (by change _ ≤ (Fl.of (2 : ℕ)).val; rw [u]; norm_num) (by change (Fl.of (2 : ℕ)).val ≤ _; rw [u]) (by change 2 * (Fl.of (2 ^ (-4 : ℤ))).val ≤ _; rw [e]; norm_num)
    (by change _ ≤ (Fl.of (2 : ℕ)).val * _; rw [u]; norm_num [_root_.zpow_neg]) (List.replicate 3 { idle with xo := 0, yo := 0, coef := planeFl }) (by simp) (by simp)
    (fun i m hm => by rw [hmem i m hm]; exact idle_realized) (fun _ _ t => (10 + 1 * t, 0)) (fun i m hm j θ hθ => by
      rw [hmem i m hm]
      change RoundedFollows _ true (flStart 0 0 (Fl.of (9 : ℕ)) θ) _ _ _ _ _ _ _
      rw [idle_start j θ hθ]
      exact idle_follows)
  have k := h3 2 0 (.inr (by change (Fl.of (2 : ℕ)).val ≤ (Fl.of (8 : ℕ)).val; rw [u, d]; norm_num)) 16 0 (by change _ = (0 : Fl).val + _ * (Fl.of (8 : ℕ)).val; rw [z, d]; norm_num)
    (by change _ = (0 : Fl).val + _ * (Fl.of (8 : ℕ)).val; rw [z, d]; norm_num)
  obtain ⟨w1, w2⟩ := k
  refine ⟨f, h1, by rw [h2, show Int.toNat 3 = 3 from rfl]; norm_num, le_antisymm (w2.trans ?_) (le_trans ?_ w1)⟩
  · refine (Nat.cast_le.mpr List.countP_le_length).trans ?_
    simp
  · rw [List.countP_eq_length.mpr]
    · simp
    · intro i _
      simp only [decide_eq_true_eq]
      refine ⟨0, by change 0 < 1; norm_num, 6, by norm_num, by change 6 ≤ (Fl.of (256 : ℕ)).val; rw [b]; norm_num, ?_⟩
      change euclid _ _ < (Fl.of (2 : ℕ)).val - 1/1000 - 1/4
      rw [u]
      unfold euclid
      norm_num

end Oneka
