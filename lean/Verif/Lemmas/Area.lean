import Verif.Spec.Area
import Verif.Lemmas.Zones
import Verif.Lemmas.ZonesCall
import Verif.Lemmas.CaptureExact
import Mathlib.MeasureTheory.Measure.Prod
import Mathlib.Algebra.Order.Floor.Ring

/-!
# Lemmas for Props/Area.lean
-/

namespace Oneka

open MeasureTheory

/-- the cell around a node -/
def cellAt (s : ℝ) (p : ℝ × ℝ) : Set (ℝ × ℝ) := Set.Ico (p.1 - s / 2) (p.1 + s / 2) ×ˢ Set.Ico (p.2 - s / 2) (p.2 + s / 2)

theorem cellAt_volume {s : ℝ} (hs : 0 < s) (p : ℝ × ℝ) : volume (cellAt s p) = ENNReal.ofReal (s ^ 2) := by
  unfold cellAt
  rw [Measure.volume_eq_prod, Measure.prod_prod, Real.volume_Ico, Real.volume_Ico, ← ENNReal.ofReal_mul (by linarith)]
  congr 1
  ring

theorem cellAt_measurable (s : ℝ) (p : ℝ × ℝ) : MeasurableSet (cellAt s p) := measurableSet_Ico.prod measurableSet_Ico

theorem cellAt_lattice {xo s x y z : ℝ} (hs : 0 < s) {i j : ℤ} (hx : x = xo + i * s) (hy : y = xo + j * s) (h1 : x - s / 2 ≤ z) (h2 : z < x + s / 2) (h3 : y - s / 2 ≤ z) (h4 : z < y + s / 2) : x = y := by
  have e1 : ((i:ℝ) - j) * s < 1 * s := by rw [hx] at h1; rw [hy] at h4; linarith
  have e2 : ((j:ℝ) - i) * s < 1 * s := by rw [hx] at h2; rw [hy] at h3; linarith
  have f1 : (i:ℝ) - j < 1 := lt_of_mul_lt_mul_right e1 hs.le
  have f2 : (j:ℝ) - i < 1 := lt_of_mul_lt_mul_right e2 hs.le
  have g1 : i - j < 1 := by exact_mod_cast f1
  have g2 : j - i < 1 := by exact_mod_cast f2
  obtain rfl : i = j := by omega
  rw [hx, hy]

theorem cells_volume {xo yo s : ℝ} (hs : 0 < s) (S : Finset (ℝ × ℝ)) (hS : ∀ p ∈ S, OnLattice xo yo s s p.1 p.2) : volume (⋃ p ∈ S, cellAt s p) = ENNReal.ofReal (S.card * s ^ 2) := by
  rw [measure_biUnion_finset]
  · simp only [cellAt_volume hs, Finset.sum_const, nsmul_eq_mul]
    rw [ENNReal.ofReal_mul (by positivity), ENNReal.ofReal_natCast]
  · intro p hp q hq hpq
    refine Set.disjoint_left.mpr fun z hz hz' => hpq ?_
    obtain ⟨i, j, a1, a2⟩ := hS p hp
    obtain ⟨i', j', b1, b2⟩ := hS q hq
    obtain ⟨⟨c1, c2⟩, c3, c4⟩ := hz
    obtain ⟨⟨d1, d2⟩, d3, d4⟩ := hz'
    exact Prod.ext (cellAt_lattice hs a1 b1 c1 c2 d1 d2) (cellAt_lattice hs a2 b2 c3 c4 d3 d4)
  · exact fun p _ => cellAt_measurable s p

theorem nearest_coordinate (xo : ℝ) {s : ℝ} (hs : 0 < s) (z : ℝ) : ∃ i : ℤ, xo + i * s - s / 2 ≤ z ∧ z < xo + i * s + s / 2 := by
  refine ⟨⌊(z - xo) / s + 1 / 2⌋, ?_, ?_⟩
  · have h := mul_le_mul_of_nonneg_right (Int.floor_le ((z - xo) / s + 1 / 2)) hs.le
    have e : ((z - xo) / s + 1 / 2) * s = z - xo + s / 2 := by field_simp
    linarith
  · have h := mul_lt_mul_of_pos_right (Int.lt_floor_add_one ((z - xo) / s + 1 / 2)) hs
    have e : ((z - xo) / s + 1 / 2) * s = z - xo + s / 2 := by field_simp
    linarith

/-- the nodes in a set, and its area -/
theorem cells_bounds {xo yo s : ℝ} (hs : 0 < s) (Z : Set (ℝ × ℝ)) (S : Finset (ℝ × ℝ)) (hS : ∀ p, p ∈ S ↔ OnLattice xo yo s s p.1 p.2 ∧ p ∈ Z) {Z1 Z2 : Set (ℝ × ℝ)}
    (h1 : ∀ p ∈ Z1, ∀ q : ℝ × ℝ, |q.1 - p.1| ≤ s / 2 → |q.2 - p.2| ≤ s / 2 → q ∈ Z) (h2 : ∀ p ∈ Z, ∀ q : ℝ × ℝ, |q.1 - p.1| ≤ s / 2 → |q.2 - p.2| ≤ s / 2 → q ∈ Z2) :
    volume Z1 ≤ ENNReal.ofReal (S.card * s ^ 2) ∧ ENNReal.ofReal (S.card * s ^ 2) ≤ volume Z2 := by
  rw [← cells_volume hs S fun p hp => ((hS p).mp hp).1]
  refine ⟨measure_mono fun z hz => ?_, measure_mono ?_⟩
  · obtain ⟨i, i1, i2⟩ := nearest_coordinate xo hs z.1
    obtain ⟨j, j1, j2⟩ := nearest_coordinate yo hs z.2
    refine Set.mem_biUnion (x := (xo + i * s, yo + j * s)) ((hS _).mpr ⟨⟨i, j, rfl, rfl⟩, h1 z hz _ ?_ ?_⟩) ⟨⟨i1, i2⟩, j1, j2⟩
    · exact abs_le.mpr ⟨by linarith, by linarith⟩
    · exact abs_le.mpr ⟨by linarith, by linarith⟩
  · intro z hz
    obtain ⟨p, hp, ⟨c1, c2⟩, c3, c4⟩ := Set.mem_iUnion₂.mp hz
    exact h2 p ((hS p).mp hp).2 z (abs_le.mpr ⟨by linarith, by linarith⟩) (abs_le.mpr ⟨by linarith, by linarith⟩)

theorem cells_upper {xo yo s : ℝ} (hs : 0 < s) {Z Z2 : Set (ℝ × ℝ)} {N : Set (ℝ × ℝ)} (hN : ∀ p ∈ N, OnLattice xo yo s s p.1 p.2 ∧ p ∈ Z)
    (h2 : ∀ p ∈ Z, ∀ q : ℝ × ℝ, |q.1 - p.1| ≤ s / 2 → |q.2 - p.2| ≤ s / 2 → q ∈ Z2) : ENNReal.ofReal (N.ncard * s ^ 2) ≤ volume Z2 := by
  by_cases hf : N.Finite
  · rw [Set.ncard_eq_toFinset_card _ hf, ← cells_volume (xo := xo) (yo := yo) hs hf.toFinset fun p hp => (hN p (hf.mem_toFinset.mp hp)).1]
    refine measure_mono fun z hz => ?_
    obtain ⟨p, hp, ⟨c1, c2⟩, c3, c4⟩ := Set.mem_iUnion₂.mp hz
    exact h2 p (hN p (hf.mem_toFinset.mp hp)).2 z (abs_le.mpr ⟨by linarith, by linarith⟩) (abs_le.mpr ⟨by linarith, by linarith⟩)
  · rw [Set.Infinite.ncard hf]
    simp

/-- half the diagonal of a cell -/
theorem half_diagonal {s : ℝ} (hs : 0 < s) {p q : ℝ × ℝ} (h1 : |q.1 - p.1| ≤ s / 2) (h2 : |q.2 - p.2| ≤ s / 2) : euclid p q ≤ 71 / 100 * s := by
  unfold euclid
  rw [Real.sqrt_le_left (by positivity)]
  have e1 := sq_le_sq' (by linarith [neg_abs_le (q.1 - p.1)]) (le_trans (le_abs_self _) h1)
  have e2 := sq_le_sq' (by linarith [neg_abs_le (q.2 - p.2)]) (le_trans (le_abs_self _) h2)
  nlinarith

theorem nearTrack_shift {vs : List (ℝ × ℝ)} {v h : ℝ} (hv : 0 ≤ v) {p q : ℝ × ℝ} (hpq : euclid p q ≤ h) (hn : NearTrack vs v p.1 p.2) : NearTrack vs (v + h) q.1 q.2 := by
  obtain ⟨a, b, hab, hne, t, t0, t1, hd⟩ := hn
  refine ⟨a, b, hab, hne, t, t0, t1, ?_⟩
  have hh : 0 ≤ h := (Real.sqrt_nonneg _).trans hpq
  have e1 : euclid (a.1 + t * (b.1 - a.1), a.2 + t * (b.2 - a.2)) p < v := by
    unfold euclid
    rw [Real.sqrt_lt' (lt_of_le_of_ne hv (by rintro rfl; simp only [ne_eq, OfNat.ofNat_ne_zero, not_false_eq_true, zero_pow] at hd; linarith [sq_nonneg (p.1 - (a.1 + t * (b.1 - a.1))), sq_nonneg (p.2 - (a.2 + t * (b.2 - a.2)))]))]
    exact hd
  have e2 := lt_of_le_of_lt (euclid_triangle (a.1 + t * (b.1 - a.1), a.2 + t * (b.2 - a.2)) p q) (add_lt_add_of_lt_of_le e1 hpq)
  unfold euclid at e2
  exact (Real.sqrt_lt' (lt_of_le_of_lt (Real.sqrt_nonneg _) e2)).mp e2

theorem captures_shift {L : RealizationLog} {v h : ℝ} (hv : 0 ≤ v) {p q : ℝ × ℝ} (hpq : euclid p q ≤ h) (hn : L.Captures v p.1 p.2) : L.Captures (v + h) q.1 q.2 := by
  obtain ⟨tr, htr, hn⟩ := hn
  exact ⟨tr, htr, nearTrack_shift hv hpq hn⟩

theorem captures_more {L : RealizationLog} {u v : ℝ} (hv : 0 ≤ v) (h : v ≤ u) {X Y : ℝ} (hn : L.Captures v X Y) : L.Captures u X Y := by
  have e : euclid (X, Y) (X, Y) ≤ u - v := by
    have : euclid (X, Y) (X, Y) = 0 := by simp [euclid]
    linarith
  have := captures_shift hv e hn
  rwa [add_sub_cancel] at this

theorem bounded_list {α : Type} (l : List α) (g : α → ℝ) : ∃ B, 0 ≤ B ∧ ∀ x ∈ l, g x ≤ B := by
  induction l with
  | nil => exact ⟨0, le_rfl, by simp⟩
  | cons a l ih =>
    obtain ⟨B, h0, hB⟩ := ih
    refine ⟨max (g a) B, le_max_of_le_right h0, fun x hx => ?_⟩
    rcases List.mem_cons.mp hx with rfl | hx
    · exact le_max_left _ _
    · exact (hB x hx).trans (le_max_right _ _)

theorem captures_bounded (L : RealizationLog) (u : ℝ) : ∃ B, ∀ X Y, L.Captures u X Y → |X| ≤ B ∧ |Y| ≤ B := by
  obtain ⟨B, B0, hB⟩ := bounded_list (L.traces.flatMap fun tr => tr.path) fun p : ℝ × ℝ => max |p.1| |p.2|
  refine ⟨B + |u|, ?_⟩
  rintro X Y ⟨tr, htr, a, b, hab, -, t, t0, t1, hd⟩
  have hmem : ∀ p ∈ [a, b], max |p.1| |p.2| ≤ B := fun p hp => hB p (List.mem_flatMap.mpr ⟨tr, htr, hab.subset hp⟩)
  have ha := hmem a (by simp)
  have hb := hmem b (by simp)
  have seg : ∀ x y : ℝ, |x| ≤ B → |y| ≤ B → |x + t * (y - x)| ≤ B := by
    intro x y hx hy
    rw [abs_le] at hx hy ⊢
    constructor <;> nlinarith
  have one : ∀ z w : ℝ, (z - w) ^ 2 < u ^ 2 → |w| ≤ B → |z| ≤ B + |u| := by
    intro z w h1 h2
    have := sq_lt_sq.mp h1
    have h3 := abs_add_le (z - w) w
    rw [sub_add_cancel] at h3
    linarith
  exact ⟨one X _ (lt_of_le_of_lt (le_add_of_nonneg_right (sq_nonneg _)) hd) (seg _ _ ((le_max_left _ _).trans ha) ((le_max_left _ _).trans hb)),
    one Y _ (lt_of_le_of_lt (le_add_of_nonneg_left (sq_nonneg _)) hd) (seg _ _ ((le_max_right _ _).trans ha) ((le_max_right _ _).trans hb))⟩

theorem lattice_finite {xo yo s : ℝ} (hs : 0 < s) (B : ℝ) : {p : ℝ × ℝ | OnLattice xo yo s s p.1 p.2 ∧ |p.1| ≤ B ∧ |p.2| ≤ B}.Finite := by
  have one : ∀ xo : ℝ, ∃ N : ℤ, ∀ i : ℤ, |xo + i * s| ≤ B → -N ≤ i ∧ i ≤ N := by
    intro xo
    refine ⟨⌈(B + |xo|) / s⌉, fun i hi => ?_⟩
    have h1 : |(i:ℝ)| * s ≤ B + |xo| := by
      rw [← abs_of_pos hs, ← abs_mul]
      have := abs_sub (xo + i * s) xo
      rw [add_sub_cancel_left] at this
      linarith
    have h2 : |(i:ℝ)| ≤ (B + |xo|) / s := by rwa [le_div_iff₀ hs]
    have h3 := h2.trans (Int.le_ceil _)
    rw [abs_le] at h3
    exact ⟨by exact_mod_cast h3.1, by exact_mod_cast h3.2⟩
  obtain ⟨N, hN⟩ := one xo
  obtain ⟨M, hM⟩ := one yo
  refine (((Set.finite_Icc (-N) N).prod (Set.finite_Icc (-M) M)).image fun ij : ℤ × ℤ => (xo + ij.1 * s, yo + ij.2 * s)).subset ?_
  rintro ⟨X, Y⟩ ⟨⟨i, j, hX, hY⟩, h1, h2⟩
  simp only at hX hY h1 h2
  subst hX hY
  exact ⟨(i, j), ⟨hN i h1, hM j h2⟩, rfl⟩

theorem zone_finite (L : RealizationLog) {xo yo s : ℝ} (hs : 0 < s) (u : ℝ) : (L.zone xo yo s u).Finite := by
  obtain ⟨B, hB⟩ := captures_bounded L u
  exact (lattice_finite hs B).subset fun p hp => ⟨hp.1, hB _ _ hp.2⟩

end Oneka
