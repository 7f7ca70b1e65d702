import Verif.Spec.Rounding
import Verif.Lemmas.Dist

/-! # Rounding errors of `distancesquared` -/

namespace Oneka

theorem eps_pos : 0 < eps := zpow_pos (by norm_num) _

theorem eps_small : eps ≤ 1 / 1000000 := by unfold eps; norm_num [zpow_neg]

/-- `x'` differs from `x` by at most `c` roundings of size `s`. -/
def Off (c s x' x : ℝ) : Prop := |x' - x| ≤ c * eps * s ∧ |x| ≤ s

theorem off_round (x : ℝ) {s : ℝ} (h : |x| ≤ s) : Off 1 s (round53 x) x :=
  ⟨(round53_accurate x).trans (by rw [one_mul]; exact mul_le_mul_of_nonneg_left h eps_pos.le), h⟩

theorem Off.round {c s x' x : ℝ} (h : Off c s x' x) (hc : 0 ≤ c) (hc' : c ≤ 1000) : Off (c + 2) s (round53 x') x := by
  obtain ⟨h1, h2⟩ := h
  refine ⟨?_, h2⟩
  have s0 : 0 ≤ s := (abs_nonneg _).trans h2
  have e := eps_pos; have e' := eps_small
  have ha : |round53 x' - x'| ≤ eps * |x'| := round53_accurate x'
  have hb : |x'| ≤ s + c * eps * s := by
    calc |x'| = |x + (x' - x)| := by congr 1; ring
      _ ≤ |x| + |x' - x| := abs_add_le _ _
      _ ≤ _ := add_le_add h2 h1
  have hce : c * eps ≤ 1 := by nlinarith
  have hb' : |x'| ≤ 2 * s := by nlinarith [mul_le_mul_of_nonneg_right hce s0]
  calc |round53 x' - x| = |(round53 x' - x') + (x' - x)| := by congr 1; ring
    _ ≤ |round53 x' - x'| + |x' - x| := abs_add_le _ _
    _ ≤ eps * (2 * s) + c * eps * s := add_le_add (ha.trans (mul_le_mul_of_nonneg_left hb' e.le)) h1
    _ = _ := by ring

theorem Off.mul {c d s t x' x y' y : ℝ} (h : Off c s x' x) (g : Off d t y' y) (hc : 0 ≤ c) (hd : 0 ≤ d) (hcd : c * d ≤ 1000) :
    Off (c + d + 1) (s * t) (x' * y') (x * y) := by
  obtain ⟨h1, h2⟩ := h
  obtain ⟨g1, g2⟩ := g
  have s0 : 0 ≤ s := (abs_nonneg _).trans h2
  have t0 : 0 ≤ t := (abs_nonneg _).trans g2
  have e := eps_pos; have e' := eps_small
  constructor
  · have e1 : x' * y' - x * y = (x' - x) * y + x * (y' - y) + (x' - x) * (y' - y) := by ring
    have b1 : |(x' - x) * y| ≤ (c * eps * s) * t := by rw [abs_mul]; exact mul_le_mul h1 g2 (abs_nonneg _) (by positivity)
    have b2 : |x * (y' - y)| ≤ s * (d * eps * t) := by rw [abs_mul]; exact mul_le_mul h2 g1 (abs_nonneg _) s0
    have b3 : |(x' - x) * (y' - y)| ≤ (c * eps * s) * (d * eps * t) := by
      rw [abs_mul]; exact mul_le_mul h1 g1 (abs_nonneg _) (by positivity)
    have st : 0 ≤ s * t := mul_nonneg s0 t0
    have b4 : (c * eps * s) * (d * eps * t) ≤ eps * (s * t) := by
      have : c * d * eps ≤ 1 := by nlinarith
      calc (c * eps * s) * (d * eps * t) = (c * d * eps) * (eps * (s * t)) := by ring
        _ ≤ 1 * (eps * (s * t)) := mul_le_mul_of_nonneg_right this (by positivity)
        _ = _ := one_mul _
    rw [e1]
    calc _ ≤ |(x' - x) * y| + |x * (y' - y)| + |(x' - x) * (y' - y)| := abs_add_three _ _ _
      _ ≤ (c * eps * s) * t + s * (d * eps * t) + eps * (s * t) := add_le_add (add_le_add b1 b2) (b3.trans b4)
      _ = _ := by ring
  · rw [abs_mul]; exact mul_le_mul h2 g2 (abs_nonneg _) s0

theorem Off.diff {c s x' x y' y : ℝ} (h : Off c s x' x) (g : Off c s y' y) (hs : |x - y| ≤ s) : Off (2 * c) s (x' - y') (x - y) := by
  refine ⟨?_, hs⟩
  have : x' - y' - (x - y) = (x' - x) - (y' - y) := by ring
  rw [this]
  calc _ ≤ |x' - x| + |y' - y| := abs_sub _ _
    _ ≤ c * eps * s + c * eps * s := add_le_add h.1 g.1
    _ = _ := by ring

theorem Off.sum {c s x' x y' y : ℝ} (h : Off c s x' x) (g : Off c s y' y) (hs : |x + y| ≤ s) : Off (2 * c) s (x' + y') (x + y) := by
  refine ⟨?_, hs⟩
  have : x' + y' - (x + y) = (x' - x) + (y' - y) := by ring
  rw [this]
  calc _ ≤ |x' - x| + |y' - y| := abs_add_le _ _
    _ ≤ c * eps * s + c * eps * s := add_le_add h.1 g.1
    _ = _ := by ring

/-- The intermediate results of `distancesquared` (oneka/probabilityfield.py:408-420), computed with rounding. -/
theorem fl_parts (u v z w L D : ℝ) (hL : 0 < L) (hD : 0 ≤ D) (eL : L ^ 2 = u * u + v * v) (eD : D ^ 2 = z * z + w * w)
    (u' v' z' w' P' T' N' : ℝ) (hu : u' = round53 u) (hv : v' = round53 v) (hz : z' = round53 z) (hw : w' = round53 w)
    (hP : P' = round53 (round53 (u' * w') - round53 (v' * z'))) (hT : T' = round53 (round53 (u' * z') + round53 (v' * w')))
    (hN : N' = round53 (round53 (u' * u') + round53 (v' * v'))) :
    Off 12 (L * D) P' (u * w - v * z) ∧ Off 12 (L * D) T' (u * z + v * w) ∧ |N' - L ^ 2| ≤ 7 * eps * L ^ 2 := by
  subst hu hv hz hw hP hT hN
  have e := eps_pos; have e' := eps_small
  have aL : ∀ x y : ℝ, L ^ 2 = x * x + y * y → |x| ≤ L := fun x y h => abs_le_of_sq_le_sq (by nlinarith [mul_self_nonneg y]) hL.le
  have aD : ∀ x y : ℝ, D ^ 2 = x * x + y * y → |x| ≤ D := fun x y h => abs_le_of_sq_le_sq (by nlinarith [mul_self_nonneg y]) hD
  have ou := off_round u (aL u v eL)
  have ov := off_round v (aL v u (by rw [eL]; ring))
  have oz := off_round z (aD z w eD)
  have ow := off_round w (aD w z (by rw [eD]; ring))
  have pr : ∀ {s t x' x y' y : ℝ}, Off 1 s x' x → Off 1 t y' y → Off 5 (s * t) (round53 (x' * y')) (x * y) := by
    intro s t x' x y' y h g
    have := (h.mul g (by norm_num) (by norm_num) (by norm_num)).round (by norm_num) (by norm_num)
    norm_num at this; exact this
  have LD : (L * D) ^ 2 = (u * u + v * v) * (z * z + w * w) := by rw [mul_pow, eL, eD]
  have LD0 : 0 ≤ L * D := mul_nonneg hL.le hD
  have bP : |u * w - v * z| ≤ L * D := abs_le_of_sq_le_sq (by rw [LD]; nlinarith [sq_nonneg (u * z + v * w)]) LD0
  have bT : |u * z + v * w| ≤ L * D := abs_le_of_sq_le_sq (by rw [LD]; nlinarith [sq_nonneg (u * w - v * z)]) LD0
  refine ⟨?_, ?_, ?_⟩
  · have := ((pr ou ow).diff (pr ov oz) bP).round (by norm_num) (by norm_num)
    norm_num at this; exact this
  · have := ((pr ou oz).sum (pr ov ow) bT).round (by norm_num) (by norm_num)
    norm_num at this; exact this
  · have su := (pr (off_round u le_rfl) (off_round u le_rfl)).1
    have sv := (pr (off_round v le_rfl) (off_round v le_rfl)).1
    rw [abs_mul_abs_self] at su sv
    have o : Off 5 (L ^ 2) (round53 (round53 u * round53 u) + round53 (round53 v * round53 v)) (L ^ 2) := by
      refine ⟨?_, le_of_eq (abs_of_nonneg (sq_nonneg L))⟩
      have hh : ∀ p q : ℝ, p + q - L ^ 2 = (p - u * u) + (q - v * v) := by intro p q; rw [eL]; ring
      rw [hh]
      calc _ ≤ _ := abs_add_le _ _
        _ ≤ _ := add_le_add su sv
        _ = _ := by rw [eL]; ring
    have := (o.round (by norm_num) (by norm_num)).1
    norm_num at this; exact this

/-- Dividing by the computed squared length. -/
theorem fl_quot (x x' N' L D : ℝ) (hL : 0 < L) (hx : |x| ≤ L * D) (h : Off 12 (L * D) x' x) (hN : |N' - L ^ 2| ≤ 7 * eps * L ^ 2) :
    |round53 (round53 (x' * x') / N') - x ^ 2 / L ^ 2| ≤ 37 * eps * D ^ 2 ∧ x ^ 2 / L ^ 2 ≤ D ^ 2 := by
  have e := eps_pos; have e' := eps_small
  have L2 : 0 < L ^ 2 := by positivity
  have hx2 : x ^ 2 ≤ L ^ 2 * D ^ 2 := by
    rw [← mul_pow, ← sq_abs x]; exact pow_le_pow_left₀ (abs_nonneg _) hx 2
  have hle : x ^ 2 / L ^ 2 ≤ D ^ 2 := by rw [div_le_iff₀ L2]; linarith [mul_comm (L ^ 2) (D ^ 2)]
  refine ⟨?_, hle⟩
  have o := (h.mul h (by norm_num) (by norm_num) (by norm_num)).round (by norm_num) (by norm_num)
  norm_num at o
  set y := round53 (x' * x') with hy
  have o1 : |y - x ^ 2| ≤ 27 * eps * (L ^ 2 * D ^ 2) := by
    have := o.1
    rw [show x ^ 2 = x * x by ring]
    refine this.trans (le_of_eq ?_); ring
  obtain ⟨n1, n2⟩ := abs_le.mp hN
  have Np : L ^ 2 * (34/35) ≤ N' := by nlinarith
  have N0 : 0 < N' := by nlinarith
  have q : Off 35 (D ^ 2) (y / N') (x ^ 2 / L ^ 2) := by
    refine ⟨?_, by rw [abs_of_nonneg (by positivity)]; exact hle⟩
    have e1 : y / N' - x ^ 2 / L ^ 2 = ((y - x ^ 2) * L ^ 2 - x ^ 2 * (N' - L ^ 2)) / (N' * L ^ 2) := by
      field_simp; ring
    rw [e1, abs_div, abs_of_pos (mul_pos N0 L2), div_le_iff₀ (mul_pos N0 L2)]
    calc _ ≤ |(y - x ^ 2) * L ^ 2| + |x ^ 2 * (N' - L ^ 2)| := abs_sub _ _
      _ = |y - x ^ 2| * L ^ 2 + x ^ 2 * |N' - L ^ 2| := by
          rw [abs_mul, abs_mul, abs_of_pos L2, abs_of_nonneg (sq_nonneg x)]
      _ ≤ 27 * eps * (L ^ 2 * D ^ 2) * L ^ 2 + (L ^ 2 * D ^ 2) * (7 * eps * L ^ 2) :=
          add_le_add (mul_le_mul_of_nonneg_right o1 L2.le) (mul_le_mul hx2 hN (abs_nonneg _) (by positivity))
      _ = 35 * eps * D ^ 2 * (L ^ 2 * (34/35) * L ^ 2) := by ring
      _ ≤ _ := mul_le_mul_of_nonneg_left (mul_le_mul_of_nonneg_right Np L2.le) (by positivity)
  have := (q.round (by norm_num) (by norm_num)).1
  norm_num at this; exact this

/-- The squared distance, from the intermediate results (oneka/probabilityfield.py:422-427). -/
noncomputable def branch (α β T N : ℝ) : ℝ :=
  if T < 0 then α + β else if N < β then α + β - 2 * T + N else α

/-- The same with rounding. -/
noncomputable def branchR (α β T N : ℝ) : ℝ :=
  if T < 0 then round53 (α + β) else if N < β then round53 (round53 (round53 (α + β) - round53 (2 * T)) + N) else α

/-- the three values that can be returned -/
theorem fl_values (T L D α' β' T' N' : ℝ)
    (h1 : |α' + β' - D ^ 2| ≤ 74 * eps * D ^ 2) (hT : Off 12 (L * D) T' T) (hN : |N' - L ^ 2| ≤ 7 * eps * L ^ 2) :
    |round53 (α' + β') - D ^ 2| ≤ 76 * (eps * D ^ 2) ∧
    |round53 (round53 (round53 (α' + β') - round53 (2 * T')) + N') - (D ^ 2 - 2 * T + L ^ 2)| ≤ 106 * (eps * (L ^ 2 + D ^ 2)) := by
  have e := eps_pos
  have D2 : 0 ≤ D ^ 2 := by positivity
  have L2 : 0 ≤ L ^ 2 := by positivity
  have hLD : 2 * (L * D) ≤ L ^ 2 + D ^ 2 := by nlinarith [sq_nonneg (L - D)]
  obtain ⟨t1, t2⟩ := abs_le.mp hT.2
  have s1 : Off 74 (D ^ 2) (α' + β') (D ^ 2) := ⟨h1, (abs_of_nonneg D2).le⟩
  have s1r := s1.round (by norm_num) (by norm_num)
  norm_num at s1r
  have s2 : Off 12 (2 * (L * D)) (2 * T') (2 * T) := by
    constructor
    · rw [← mul_sub, abs_mul, abs_two]; linarith [hT.1]
    · rw [abs_mul, abs_two]; linarith [hT.2]
  have s2r := s2.round (by norm_num) (by norm_num)
  norm_num at s2r
  obtain ⟨q1, q2⟩ := abs_le.mp s2r.1
  obtain ⟨p1, p2⟩ := abs_le.mp s1r.1
  obtain ⟨N1, N2⟩ := abs_le.mp hN
  have k1 : eps * (2 * (L * D)) ≤ eps * (L ^ 2 + D ^ 2) := mul_le_mul_of_nonneg_left hLD e.le
  have k2 : eps * D ^ 2 ≤ eps * (L ^ 2 + D ^ 2) := mul_le_mul_of_nonneg_left (by linarith) e.le
  have k3 : eps * L ^ 2 ≤ eps * (L ^ 2 + D ^ 2) := mul_le_mul_of_nonneg_left (by linarith) e.le
  have s3 : Off 45 (2 * (L ^ 2 + D ^ 2)) (round53 (α' + β') - round53 (2 * T')) (D ^ 2 - 2 * T) := by
    constructor
    · rw [abs_le]; constructor <;> linarith
    · rw [abs_le]; constructor <;> linarith
  have s3r := s3.round (by norm_num) (by norm_num)
  norm_num at s3r
  obtain ⟨u1, u2⟩ := abs_le.mp s3r.1
  have s4 : Off 51 (2 * (L ^ 2 + D ^ 2)) (round53 (round53 (α' + β') - round53 (2 * T')) + N') (D ^ 2 - 2 * T + L ^ 2) := by
    constructor
    · rw [abs_le]; constructor <;> linarith
    · rw [abs_le]; constructor <;> linarith
  have s4r := s4.round (by norm_num) (by norm_num)
  norm_num at s4r
  exact ⟨by linarith [s1r.1], by linarith [s4r.1]⟩

/-- A small projection has a small square. -/
theorem fl_small (T L D : ℝ) (hL : 0 < L) (h : |T| ≤ 12 * eps * (L * D)) : T ^ 2 / L ^ 2 ≤ eps * D ^ 2 := by
  have e := eps_pos; have e' := eps_small
  have L2 : 0 < L ^ 2 := by positivity
  rw [div_le_iff₀ L2]
  have : T ^ 2 ≤ (12 * eps * (L * D)) ^ 2 := by rw [← sq_abs T]; exact pow_le_pow_left₀ (abs_nonneg _) h 2
  have h144 : 144 * eps ≤ 1 := by linarith
  calc T ^ 2 ≤ (144 * eps) * (eps * D ^ 2 * L ^ 2) := by
        rw [show (144 * eps) * (eps * D ^ 2 * L ^ 2) = (12 * eps * (L * D)) ^ 2 by ring]; exact this
    _ ≤ 1 * (eps * D ^ 2 * L ^ 2) := mul_le_mul_of_nonneg_right h144 (by positivity)
    _ = _ := by ring

/-- The gap between two of the formulae is at most the difference that selects between them. -/
theorem fl_gap (T L : ℝ) (hL : 0 < L) :
    0 ≤ L ^ 2 - 2 * T + T ^ 2 / L ^ 2 ∧ (0 ≤ T → L ^ 2 - 2 * T + T ^ 2 / L ^ 2 ≤ |L ^ 2 - T ^ 2 / L ^ 2|) := by
  have L2 : 0 < L ^ 2 := by positivity
  have e1 : L ^ 2 - 2 * T + T ^ 2 / L ^ 2 = (L ^ 2 - T) ^ 2 / L ^ 2 := by field_simp; ring
  refine ⟨by rw [e1]; positivity, fun h => ?_⟩
  have e2 : L ^ 2 - T ^ 2 / L ^ 2 = (L ^ 2 - T) * (L ^ 2 + T) / L ^ 2 := by field_simp; ring
  rw [e1, e2, abs_div, abs_of_pos L2, abs_mul, abs_of_pos (by linarith : 0 < L ^ 2 + T), ← sq_abs, sq]
  refine div_le_div_of_nonneg_right (mul_le_mul_of_nonneg_left ?_ (abs_nonneg _)) L2.le
  rw [abs_le]; constructor <;> linarith

theorem fl_branch (P T L D α' β' T' N' : ℝ) (hL : 0 < L) (hPT : P ^ 2 + T ^ 2 = L ^ 2 * D ^ 2)
    (hα : |α' - P ^ 2 / L ^ 2| ≤ 37 * eps * D ^ 2) (hβ : |β' - T ^ 2 / L ^ 2| ≤ 37 * eps * D ^ 2) (hT : Off 12 (L * D) T' T)
    (hN : |N' - L ^ 2| ≤ 7 * eps * L ^ 2) :
    |branchR α' β' T' N' - branch (P ^ 2 / L ^ 2) (T ^ 2 / L ^ 2) T (L ^ 2)| ≤ 200 * (eps * (L ^ 2 + D ^ 2)) := by
  have e := eps_pos; have e' := eps_small
  have L2 : 0 < L ^ 2 := by positivity
  have D2 : 0 ≤ D ^ 2 := by positivity
  have hab : P ^ 2 / L ^ 2 + T ^ 2 / L ^ 2 = D ^ 2 := by rw [← add_div, hPT]; field_simp
  have small := fl_small T L D hL
  obtain ⟨gap0, gap⟩ := fl_gap T L hL
  have a0 : 0 ≤ P ^ 2 / L ^ 2 := by positivity
  have b0 : 0 ≤ T ^ 2 / L ^ 2 := by positivity
  obtain ⟨v1, v2⟩ := fl_values T L D α' β' T' N' (by
    rw [← hab, show α' + β' - (P ^ 2 / L ^ 2 + T ^ 2 / L ^ 2) = (α' - P ^ 2 / L ^ 2) + (β' - T ^ 2 / L ^ 2) by ring]
    rw [← hab] at hα hβ
    exact (abs_add_le _ _).trans (by linarith)) hT hN
  generalize P ^ 2 / L ^ 2 = a at *
  generalize T ^ 2 / L ^ 2 = b at *
  obtain ⟨α1, α2⟩ := abs_le.mp hα
  obtain ⟨β1, β2⟩ := abs_le.mp hβ
  obtain ⟨T1, T2⟩ := abs_le.mp hT.1
  obtain ⟨N1, N2⟩ := abs_le.mp hN
  obtain ⟨r1, r1'⟩ := abs_le.mp v1
  obtain ⟨r4, r4'⟩ := abs_le.mp v2
  have kLD : eps * (L * D) ≤ eps * (L ^ 2 + D ^ 2) / 2 := by
    have : 2 * (L * D) ≤ L ^ 2 + D ^ 2 := by nlinarith [sq_nonneg (L - D)]
    nlinarith
  have eD : 0 ≤ eps * D ^ 2 := by positivity
  have eL : 0 ≤ eps * L ^ 2 := by positivity
  have eL7 : 7 * (eps * L ^ 2) ≤ L ^ 2 / 100 := by
    have := mul_le_mul_of_nonneg_right e' L2.le
    linarith
  clear v1 v2 hα hβ hN hPT
  unfold branchR branch
  generalize round53 (round53 (round53 (α' + β') - round53 (2 * T')) + N') = V at *
  generalize round53 (α' + β') = W at *
  by_cases c1 : T' < 0
  · rw [if_pos c1]
    by_cases d1 : T < 0
    · rw [if_pos d1, hab, abs_le]; constructor <;> linarith
    · rw [if_neg d1]
      push Not at d1
      have hTs : |T| ≤ 12 * eps * (L * D) := by rw [abs_of_nonneg d1]; linarith
      have hb' := small hTs
      rw [abs_of_nonneg d1] at hTs
      split_ifs with d2
      · rw [hab, abs_le]; constructor <;> linarith
      · rw [abs_le]; constructor <;> linarith
  · rw [if_neg c1]
    push Not at c1
    by_cases c2 : N' < β'
    · rw [if_pos c2]
      by_cases d1 : T < 0
      · rw [if_pos d1, hab]
        have hTs : |T| ≤ 12 * eps * (L * D) := by rw [abs_of_neg d1]; linarith
        have hb' := small hTs
        rw [abs_of_neg d1] at hTs
        have hL' : L ^ 2 ≤ 39 * (eps * D ^ 2) := by linarith
        rw [abs_le]; constructor <;> linarith
      · rw [if_neg d1]
        push Not at d1
        split_ifs with d2
        · rw [hab, abs_le]; constructor <;> linarith
        · push Not at d2
          have g := gap d1
          rw [abs_of_nonneg (by linarith)] at g
          rw [abs_le]; constructor <;> linarith
    · rw [if_neg c2]
      push Not at c2
      by_cases d1 : T < 0
      · rw [if_pos d1]
        have hTs : |T| ≤ 12 * eps * (L * D) := by rw [abs_of_neg d1]; linarith
        have hb' := small hTs
        rw [abs_le]; constructor <;> linarith
      · rw [if_neg d1]
        push Not at d1
        split_ifs with d2
        · have g := gap d1
          rw [abs_of_neg (by linarith)] at g
          rw [abs_le]; constructor <;> linarith
        · rw [abs_le]; constructor <;> linarith

@[simp] theorem Fl.val_zero : (0 : Fl).val = 0 := round53_zero
@[simp] theorem Fl.val_add (a b : Fl) : (a + b).val = round53 (a.val + b.val) := rfl
@[simp] theorem Fl.val_sub (a b : Fl) : (a - b).val = round53 (a.val - b.val) := rfl
@[simp] theorem Fl.val_mul (a b : Fl) : (a * b).val = round53 (a.val * b.val) := rfl
@[simp] theorem Fl.val_div (a b : Fl) : (a / b).val = round53 (a.val / b.val) := rfl
@[simp] theorem Fl.val_int (n : ℤ) : (n : Fl).val = round53 n := rfl
@[simp] theorem Fl.val_two : (2 : Fl).val = 2 := by
  show round53 ((2 : ℕ) : ℝ) = 2
  have := round53_exact 2 0 (by norm_num)
  simpa using this
theorem Fl.lt_iff (a b : Fl) : a < b ↔ a.val < b.val := Iff.rfl
theorem Fl.le_iff (a b : Fl) : a ≤ b ↔ a.val ≤ b.val := Iff.rfl

/-- The squared distance computed with rounding is within 200 roundings, of the size of the squared distances involved, of the true one. -/
theorem fl_distancesquared (ax ay bx «by» cx cy : Fl) (h : (ax.val, ay.val) ≠ (bx.val, by.val)) :
    ∃ (d' : Fl) (d : ℝ), distancesquared true ax ay bx «by» cx cy = .ok (some d') ∧
      IsLeast (segDists ax.val ay.val bx.val by.val cx.val cy.val) d ∧
      |d'.val - d| ≤ 200 * (eps * (((bx.val - ax.val) ^ 2 + (by.val - ay.val) ^ 2) + ((cx.val - ax.val) ^ 2 + (cy.val - ay.val) ^ 2))) := by
  obtain ⟨d, e, hl⟩ := distancesquared_isLeast true ax.val ay.val bx.val by.val cx.val cy.val h
  have hpos := length2_pos ax.val ay.val bx.val by.val h
  have e0 := eps_pos; have e0' := eps_small
  obtain ⟨L, hL, eL⟩ : ∃ L : ℝ, 0 < L ∧ L ^ 2 = (bx.val - ax.val) * (bx.val - ax.val) + (by.val - ay.val) * (by.val - ay.val) :=
    ⟨√_, Real.sqrt_pos.mpr hpos, Real.sq_sqrt hpos.le⟩
  obtain ⟨D, hD, eD⟩ : ∃ D : ℝ, 0 ≤ D ∧ D ^ 2 = (cx.val - ax.val) * (cx.val - ax.val) + (cy.val - ay.val) * (cy.val - ay.val) :=
    ⟨√_, Real.sqrt_nonneg _, Real.sq_sqrt (add_nonneg (mul_self_nonneg _) (mul_self_nonneg _))⟩
  obtain ⟨hP, hT, hN⟩ := fl_parts _ _ _ _ L D hL hD eL eD _ _ _ _ _ _ _ rfl rfl rfl rfl rfl rfl rfl
  have hPT : ((bx.val - ax.val) * (cy.val - ay.val) - (by.val - ay.val) * (cx.val - ax.val)) ^ 2 +
      ((bx.val - ax.val) * (cx.val - ax.val) + (by.val - ay.val) * (cy.val - ay.val)) ^ 2 = L ^ 2 * D ^ 2 := by
    rw [eL, eD]; ring
  have hα := (fl_quot _ _ _ L D hL hP.2 hP hN).1
  have hβ := (fl_quot _ _ _ L D hL hT.2 hT hN).1
  have fin := fl_branch _ _ L D _ _ _ _ hL hPT hα hβ hT hN
  have N0 := (abs_le.mp hN).1
  have L2 : 0 < L ^ 2 := by positivity
  have N1 : 0 < round53 (round53 (round53 (bx.val - ax.val) * round53 (bx.val - ax.val)) + round53 (round53 (by.val - ay.val) * round53 (by.val - ay.val))) := by
    nlinarith
  unfold distancesquared at e ⊢
  simp only [if_neg hpos.ne'] at e
  have N2 : ((bx - ax) * (bx - ax) + («by» - ay) * («by» - ay) : Fl) ≠ 0 := by
    intro hz
    have := congrArg Fl.val hz
    simp only [Fl.val_add, Fl.val_mul, Fl.val_sub, Fl.val_zero] at this
    exact N1.ne' this
  simp only [if_neg N2]
  have ed : d = branch (((bx.val - ax.val) * (cy.val - ay.val) - (by.val - ay.val) * (cx.val - ax.val)) ^ 2 / L ^ 2)
      (((bx.val - ax.val) * (cx.val - ax.val) + (by.val - ay.val) * (cy.val - ay.val)) ^ 2 / L ^ 2)
      ((bx.val - ax.val) * (cx.val - ax.val) + (by.val - ay.val) * (cy.val - ay.val)) (L ^ 2) := by
    unfold branch
    rw [eL, sq, sq]
    split_ifs at e ⊢ <;> exact (Option.some.inj (Except.ok.inj e)).symm
  have eLD : ((bx.val - ax.val) ^ 2 + (by.val - ay.val) ^ 2) + ((cx.val - ax.val) ^ 2 + (cy.val - ay.val) ^ 2) = L ^ 2 + D ^ 2 := by
    rw [eL, eD]; ring
  rw [eLD]
  rw [← ed] at fin
  unfold branchR at fin
  simp only [Fl.lt_iff, Fl.val_add, Fl.val_mul, Fl.val_sub, Fl.val_zero, Fl.val_div]
  split_ifs at fin ⊢ with c1 c2
  · exact ⟨_, _, rfl, hl, fin⟩
  · refine ⟨_, _, rfl, hl, ?_⟩
    simp only [Fl.val_add, Fl.val_mul, Fl.val_sub, Fl.val_zero, Fl.val_div, Fl.val_two]
    exact fin
  · exact ⟨_, _, rfl, hl, fin⟩

/-- The decision of `insert` for one node (oneka/probabilityfield.py:309) is right up to `η`. -/
theorem fl_near (ax ay bx «by» cx cy u : Fl) (h : (ax.val, ay.val) ≠ (bx.val, by.val)) (S η : ℝ)
    (hS : (bx.val - ax.val) ^ 2 + (by.val - ay.val) ^ 2 ≤ S ^ 2) (hη : 0 ≤ η) (hu : η ≤ u.val) (huS : u.val ≤ S)
    (hb : 2000 * (eps * S ^ 2) ≤ u.val * η) :
    ∃ d', distancesquared true ax ay bx «by» cx cy = .ok (some d') ∧
      (d' < u * u → NearSegment ax.val ay.val bx.val by.val (u.val + η) cx.val cy.val) ∧
      (NearSegment ax.val ay.val bx.val by.val (u.val + -η) cx.val cy.val → d' < u * u) := by
  obtain ⟨d', d, e, hl, hd⟩ := fl_distancesquared ax ay bx «by» cx cy h
  refine ⟨d', e, ?_⟩
  rw [← near_iff_of_isLeast hl, ← near_iff_of_isLeast hl, Fl.lt_iff, Fl.val_mul]
  have e0 := eps_pos; have e1 := eps_small
  have hu0 : 0 ≤ u.val := hη.trans hu
  obtain ⟨t, t0, t1, et⟩ := hl.1
  have d0 : 0 ≤ d := by rw [et]; positivity
  have L0 : 0 ≤ (bx.val - ax.val) ^ 2 + (by.val - ay.val) ^ 2 := by positivity
  have hD : (cx.val - ax.val) ^ 2 + (cy.val - ay.val) ^ 2 ≤ 2 * d + 2 * ((bx.val - ax.val) ^ 2 + (by.val - ay.val) ^ 2) := by
    have tt : t ^ 2 ≤ 1 := by nlinarith
    have := mul_le_mul_of_nonneg_right tt L0
    nlinarith [sq_nonneg (cx.val - (ax.val + t * (bx.val - ax.val)) - t * (bx.val - ax.val)),
      sq_nonneg (cy.val - (ay.val + t * (by.val - ay.val)) - t * (by.val - ay.val))]
  have hd' : |d'.val - d| ≤ 600 * (eps * S ^ 2) + 400 * (eps * d) := by
    refine hd.trans ?_
    have : eps * (((bx.val - ax.val) ^ 2 + (by.val - ay.val) ^ 2) + ((cx.val - ax.val) ^ 2 + (cy.val - ay.val) ^ 2)) ≤ eps * (3 * S ^ 2 + 2 * d) :=
      mul_le_mul_of_nonneg_left (by linarith) e0.le
    linarith
  obtain ⟨h1, h2⟩ := abs_le.mp hd'
  have hr : |round53 (u.val * u.val) - u.val * u.val| ≤ eps * (u.val * u.val) := by
    have := round53_accurate (u.val * u.val)
    rwa [abs_of_nonneg (mul_self_nonneg u.val)] at this
  obtain ⟨r1, r2⟩ := abs_le.mp hr
  have uS : eps * (u.val * u.val) ≤ eps * S ^ 2 := mul_le_mul_of_nonneg_left (by nlinarith) e0.le
  have S0 : 0 ≤ eps * S ^ 2 := by positivity
  clear hl hd hD et hd' hr
  constructor
  · intro hlt
    by_contra hc
    push Not at hc
    have q : (u.val + η) * (u.val + η) = u.val * u.val + 2 * (u.val * η) + η * η := by ring
    have q2 : 0 ≤ η * η := mul_self_nonneg η
    have k1 : d * (1 - 400 * eps) < u.val * u.val + eps * (u.val * u.val) + 600 * (eps * S ^ 2) := by linarith
    have k2 : (u.val * u.val + 2 * (u.val * η)) * (1 - 400 * eps) ≤ d * (1 - 400 * eps) :=
      mul_le_mul_of_nonneg_right (by linarith) (by linarith)
    have k3 : (u.val * η) * (800 * eps) ≤ (u.val * η) * 1 :=
      mul_le_mul_of_nonneg_left (by linarith) (mul_nonneg hu0 hη)
    nlinarith
  · intro hlt
    have q : (u.val + -η) * (u.val + -η) ≤ u.val * u.val - u.val * η := by nlinarith
    have k : eps * d ≤ eps * (u.val * u.val) := mul_le_mul_of_nonneg_left (by nlinarith [mul_nonneg hu0 hη]) e0.le
    linarith

/-- A degenerate segment. -/
theorem fl_degenerate (ax ay cx cy : Fl) : distancesquared true ax ay ax ay cx cy = .ok none := by
  have : ((ax - ax) * (ax - ax) + (ay - ay) * (ay - ay) : Fl) = 0 := by
    apply Fl.ext'
    simp [round53_zero]
  unfold distancesquared
  simp only [this, if_true]

end Oneka
