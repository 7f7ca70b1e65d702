import Verif.Lemmas.Utilities
import Verif.Lemmas.View
import Mathlib.Data.List.Sort
import Mathlib.Data.List.GetD
import Verif.Spec.Report

/-!
# Lemmas for Props/Utilities.lean
-/

namespace Oneka

theorem kept_unique {obs kept : List Obs} {wells : List (ℝ × ℝ)} {buffer : ℝ} (h : IsKept obs wells buffer kept) :
    kept = removeNear buffer wells obs := by
  classical
  obtain ⟨-, f, rfl, hf⟩ := h
  rw [removeNear_eq]
  congr 1
  funext o
  rw [Bool.eq_iff_iff, hf o]
  simp

theorem kept_exists (obs : List Obs) (wells : List (ℝ × ℝ)) (buffer : ℝ) : IsKept obs wells buffer (removeNear buffer wells obs) := by
  classical
  rw [removeNear_eq]
  exact ⟨List.filter_sublist, _, rfl, by simp⟩

theorem sums_match {rs : List Obs} {gs : List (List Obs)} (h : List.Forall₂ Represents rs gs) :
    (rs.map fun o => 1 / o.std ^ 2).sum = (gs.flatten.map fun o => 1 / o.std ^ 2).sum ∧
    (rs.map fun o => o.z / o.std ^ 2).sum = (gs.flatten.map fun o => o.z / o.std ^ 2).sum := by
  induction h with
  | nil => simp
  | cons hr _ ih =>
    obtain ⟨h1, h2⟩ := represents_sums hr
    simp only [List.map_cons, List.sum_cons, List.flatten_cons, List.map_append, List.sum_append]
    rw [h1, h2, ih.1, ih.2]
    exact ⟨rfl, rfl⟩

theorem zip_bound (g : List Obs) (hg : ∀ o ∈ g, o.std ≠ 0) (c : ℝ) : ∀ ws : List ℝ, ws.length = g.length →
    2 * c * ws.sum - c ^ 2 * (g.map fun o => 1 / o.std ^ 2).sum ≤ (List.zipWith (fun w o => w ^ 2 * o.std ^ 2) ws g).sum := by
  induction g with
  | nil => intro ws hl; simp [List.length_eq_zero_iff.mp hl]
  | cons o g ih =>
    intro ws hl
    match ws with
    | [] => simp at hl
    | w :: ws =>
      have := ih (fun p hp => hg p (List.mem_cons_of_mem _ hp)) ws (by simpa using hl)
      simp only [List.sum_cons, List.map_cons, List.zipWith_cons_cons]
      have h0 := hg o (by simp)
      have key : 2 * c * w - c ^ 2 * (1 / o.std ^ 2) ≤ w ^ 2 * o.std ^ 2 := by
        have e : w ^ 2 * o.std ^ 2 - (2 * c * w - c ^ 2 * (1 / o.std ^ 2)) = (w * o.std - c / o.std) ^ 2 := by
          field_simp; ring
        nlinarith [sq_nonneg (w * o.std - c / o.std)]
      linarith

theorem zip_map_sum (g : List Obs) (f : Obs → ℝ) (F : ℝ → Obs → ℝ) :
    (List.zipWith F (g.map f) g).sum = (g.map fun o => F (f o) o).sum := by
  induction g with
  | nil => rfl
  | cons o g ih => simp [ih]

theorem npMean_bounds {x : List ℝ} (hx : x ≠ []) {a b : ℝ} (ha : ∀ v ∈ x, a ≤ v) (hb : ∀ v ∈ x, v ≤ b) : a ≤ npMean x ∧ npMean x ≤ b := by
  have hl : (0:ℝ) < x.length := by exact_mod_cast List.length_pos_iff.mpr hx
  unfold npMean
  rw [le_div_iff₀ hl, div_le_iff₀ hl]
  have h1 := List.card_nsmul_le_sum x a ha
  have h2 := List.sum_le_card_nsmul x b hb
  simp only [nsmul_eq_mul] at h1 h2
  constructor <;> linarith

/-- Sums of a polynomial in the values. -/
theorem sum_quadratic (x : List ℝ) (a b c : ℝ) :
    (x.map fun v => a * v ^ 2 + b * v + c).sum = a * (x.map fun v => v ^ 2).sum + b * x.sum + c * x.length := by
  induction x with
  | nil => simp
  | cons v x ih => simp only [List.map_cons, List.sum_cons, List.length_cons, ih]; push_cast; ring

theorem median_split {x : List ℝ} (hx : x ≠ []) :
    x.length ≤ 2 * x.countP (fun v => v ≤ npMedian x) ∧ x.length ≤ 2 * x.countP (fun v => npMedian x ≤ v) := by
  set s := x.mergeSort (fun a b => decide (a ≤ b)) with hs
  have hp : s.Perm x := List.mergeSort_perm x _
  have hlen : s.length = x.length := hp.length_eq
  have hn : 0 < x.length := List.length_pos_iff.mpr hx
  have hsort : s.Pairwise (· ≤ ·) := by
    have := List.pairwise_mergeSort (le := fun a b : ℝ => decide (a ≤ b)) (by
      intro a b c h1 h2; simp only [decide_eq_true_eq] at *; exact h1.trans h2) (by
      intro a b; simp only [Bool.or_eq_true, decide_eq_true_eq]; exact le_total a b) x
    exact this.imp (by simp)
  have hmono : ∀ (i j : ℕ) (_ : i ≤ j) (hj : j < s.length), s[i]'(by omega) ≤ s[j] := by
    intro i j hij hj
    rcases hij.eq_or_lt with rfl | hlt
    · exact le_rfl
    · exact List.pairwise_iff_getElem.mp hsort i j (by omega) hj hlt
  have i1 : (x.length - 1) / 2 < s.length := by omega
  have i2 : x.length / 2 < s.length := by omega
  have hmed : npMedian x = (s[(x.length - 1) / 2] + s[x.length / 2]) / 2 := by
    unfold npMedian
    simp only [← hs]
    rw [List.getD_eq_getElem _ _ i1, List.getD_eq_getElem _ _ i2]
  have hle : s[(x.length - 1) / 2] ≤ s[x.length / 2] := hmono _ _ (by omega) i2
  have m1 : s[(x.length - 1) / 2] ≤ npMedian x := by rw [hmed]; linarith
  have m2 : npMedian x ≤ s[x.length / 2] := by rw [hmed]; linarith
  constructor
  · rw [← hp.countP_eq]
    have h1 : ((x.length - 1) / 2 + 1) ≤ s.countP (fun v => v ≤ npMedian x) := by
      calc (x.length - 1) / 2 + 1 = (s.take ((x.length - 1) / 2 + 1)).length := by rw [List.length_take]; omega
        _ = (s.take ((x.length - 1) / 2 + 1)).countP (fun v => v ≤ npMedian x) := by
            rw [eq_comm, List.countP_eq_length]
            intro v hv
            obtain ⟨i, hi, rfl⟩ := List.mem_iff_getElem.mp hv
            rw [List.length_take] at hi
            simp only [List.getElem_take, decide_eq_true_eq]
            exact (hmono i _ (by omega) i1).trans m1
        _ ≤ _ := (List.take_sublist _ _).countP_le
    omega
  · rw [← hp.countP_eq]
    have h1 : (x.length - x.length / 2) ≤ s.countP (fun v => npMedian x ≤ v) := by
      calc x.length - x.length / 2 = (s.drop (x.length / 2)).length := by rw [List.length_drop]; omega
        _ = (s.drop (x.length / 2)).countP (fun v => npMedian x ≤ v) := by
            rw [eq_comm, List.countP_eq_length]
            intro v hv
            obtain ⟨i, hi, rfl⟩ := List.mem_iff_getElem.mp hv
            rw [List.length_drop] at hi
            simp only [List.getElem_drop, decide_eq_true_eq]
            exact m2.trans (hmono _ _ (by omega) (by omega))
        _ ≤ _ := (List.drop_sublist _ _).countP_le
    omega

theorem columnStats_ok (x : List (Option ℝ)) (h : x.filterMap id ≠ []) :
    ∃ s, columnStats x = .ok s ∧ ColumnOK (x.filterMap id) s := by
  set y := x.filterMap id with hy
  obtain ⟨lo, e1, m1, b1⟩ := pyMin_spec y h
  obtain ⟨hi, e2, m2, b2⟩ := pyMax_spec y h
  refine ⟨⟨y.length, lo, npMedian y, hi, npMean y, npStd y⟩, ?_, ?_⟩
  · unfold columnStats
    simp only [← hy, e1, e2]
  · have hn : (0:ℝ) < y.length := by exact_mod_cast List.length_pos_iff.mpr h
    have hav := npMean_bounds h b1 b2
    obtain ⟨md1, md2⟩ := median_split h
    have hsum : npMean y * y.length = y.sum := by unfold npMean; field_simp
    have hvar : 0 ≤ npMean (y.map fun v => (v - npMean y) ^ 2) := by
      unfold npMean
      refine div_nonneg (List.sum_nonneg ?_) (by positivity)
      intro a ha
      obtain ⟨v, -, rfl⟩ := List.mem_map.mp ha
      positivity
    have hstd2 : npStd y ^ 2 = npMean (y.map fun v => (v - npMean y) ^ 2) := Real.sq_sqrt hvar
    have hstdsum : npStd y ^ 2 * y.length = (y.map fun v => (v - npMean y) ^ 2).sum := by
      rw [hstd2]; conv_lhs => unfold npMean
      rw [List.length_map, div_mul_cancel₀ _ hn.ne']; rfl
    have hpos : 0 < y.length := List.length_pos_iff.mpr h
    refine ⟨rfl, m1, b1, m2, b2, md1, md2, ⟨?_, ?_⟩, hsum, hav, hstdsum, Real.sqrt_nonneg _, ?_⟩
    · have : 0 < y.countP (fun v => v ≤ npMedian y) := by omega
      rw [List.countP_pos_iff] at this
      obtain ⟨v, hv, hle⟩ := this
      exact (b1 v hv).trans (by simpa using hle)
    · have : 0 < y.countP (fun v => npMedian y ≤ v) := by omega
      rw [List.countP_pos_iff] at this
      obtain ⟨v, hv, hle⟩ := this
      exact (show npMedian y ≤ v by simpa using hle).trans (b2 v hv)
    · -- Popoviciu
      set μ := npMean y
      have q1 := sum_quadratic y 1 (-2 * μ) (μ ^ 2)
      have e : (y.map fun v => (v - μ) ^ 2) = (y.map fun v => 1 * v ^ 2 + -2 * μ * v + μ ^ 2) :=
        List.map_congr_left fun v _ => by ring
      have q2 := sum_quadratic y (-1) (lo + hi) (-(lo * hi))
      have e' : 0 ≤ (y.map fun v => -1 * v ^ 2 + (lo + hi) * v + -(lo * hi)).sum := by
        apply List.sum_nonneg
        intro a ha
        obtain ⟨v, hv, rfl⟩ := List.mem_map.mp ha
        nlinarith [mul_nonneg (sub_nonneg.mpr (b1 v hv)) (sub_nonneg.mpr (b2 v hv))]
      rw [e, q1] at hstdsum
      rw [q2] at e'
      set Q := (y.map fun v => v ^ 2).sum
      have hbound : npStd y ^ 2 * y.length ≤ ((hi - μ) * (μ - lo)) * y.length := by
        rw [hstdsum]
        rw [← hsum] at e' ⊢
        nlinarith
      have h1 : npStd y ^ 2 ≤ (hi - μ) * (μ - lo) := le_of_mul_le_mul_right hbound hn
      have h2 : (2 * npStd y) ^ 2 ≤ (hi - lo) ^ 2 := by nlinarith [sq_nonneg (hi + lo - 2 * μ)]
      have h3 : 0 ≤ hi - lo := sub_nonneg.mpr (b1 hi m2)
      exact abs_le_of_sq_le_sq' h2 h3 |>.2

theorem getColumn_ok (j : ℕ) (values : List (List (Option ℝ))) (h : ∀ v ∈ values, j < v.length) :
    getColumn j values = .ok (values.map fun v => v.getD j none) := by
  induction values with
  | nil => rfl
  | cons v vs ih =>
    have hj := h v (by simp)
    unfold getColumn
    rw [List.getElem?_eq_getElem hj]
    simp only
    rw [ih (fun w hw => h w (List.mem_cons_of_mem _ hw))]
    rw [List.map_cons, List.getD_eq_getElem _ _ hj]

theorem statsLoop_ok (values : List (List (Option ℝ))) : ∀ n j : ℕ, (∀ v ∈ values, j + n ≤ v.length) →
    (∀ k, j ≤ k → k < j + n → (values.map fun v => v.getD k none).filterMap id ≠ []) →
    ∃ ss, statsLoop values n j = .ok ss ∧ ss.length = n ∧ ∀ (k : ℕ) (s : ColumnStats), ss[k]? = some s →
      ColumnOK ((values.map fun v => v.getD (j + k) none).filterMap id) s := by
  intro n
  induction n with
  | zero => intro j _ _; exact ⟨[], rfl, rfl, by simp⟩
  | succ n ih =>
    intro j hl hc
    obtain ⟨s, hs, ok⟩ := columnStats_ok _ (hc j le_rfl (by omega))
    obtain ⟨ss, h1, h2, h3⟩ := ih (j+1) (fun v hv => by have := hl v hv; omega) (fun k a b => hc k (by omega) (by omega))
    refine ⟨s :: ss, ?_, by simp [h2], ?_⟩
    · unfold statsLoop
      rw [getColumn_ok j values (fun v hv => by have := hl v hv; omega)]
      simp only [hs, h1]
    · intro k s' hk
      cases k with
      | zero =>
        obtain rfl : s = s' := by simpa using hk
        exact ok
      | succ k =>
        have := h3 k s' (by simpa using hk)
        rwa [show j + 1 + k = j + (k + 1) by ring] at this

theorem represents_best {r : Obs} {g : List Obs} (h : Represents r g) (hg : ∀ o ∈ g, 0 < o.std) : BestAverage r g := by
  suffices (∃ a ∈ g, a.z ≤ r.z) ∧ (∃ b ∈ g, r.z ≤ b.z) ∧ 0 < r.std ∧ (∀ o ∈ g, r.std ≤ o.std) ∧
      (∃ ws : List ℝ, ws.length = g.length ∧ ws.sum = 1 ∧ r.z = (List.zipWith (fun w o => w * o.z) ws g).sum ∧
        r.std ^ 2 = (List.zipWith (fun w o => w ^ 2 * o.std ^ 2) ws g).sum) ∧
      (∀ ws : List ℝ, ws.length = g.length → ws.sum = 1 → r.std ^ 2 ≤ (List.zipWith (fun w o => w ^ 2 * o.std ^ 2) ws g).sum) from
    ⟨this.1, this.2.1, this.2.2.1, this.2.2.2.1, this.2.2.2.2.1, this.2.2.2.2.2⟩
  have hne : g ≠ [] := by
    obtain ⟨o, ho, -⟩ := h.place
    rintro rfl; simp at ho
  have hg0 : ∀ o ∈ g, o.std ≠ 0 := fun o ho => (hg o ho).ne'
  obtain ⟨s1, s2⟩ := represents_sums h
  have hD := precision_pos hne hg0
  have hr : 0 < r.std := by
    match g with
    | [] => exact absurd rfl hne
    | [o] => rw [h.single o rfl]; exact hg o (by simp)
    | o :: p :: g => exact (h.several (by simp)).1
  set D := (g.map fun o => 1 / o.std ^ 2).sum with hDdef
  have e1 : r.std ^ 2 = 1 / D := by rw [← s1, one_div_one_div]
  have e2 : r.z = (g.map fun o => o.z / o.std ^ 2).sum / D := by
    rw [← s2, ← s1]; field_simp
  have sum_le : ∀ c : ℝ, (∀ o ∈ g, c ≤ o.z) → c * D ≤ (g.map fun o => o.z / o.std ^ 2).sum := by
    intro c hc
    rw [hDdef, ← List.sum_map_mul_left]
    apply List.sum_le_sum
    intro o ho
    have := hg o ho
    rw [mul_one_div]
    exact div_le_div_of_nonneg_right (hc o ho) (by positivity)
  have sum_ge : ∀ c : ℝ, (∀ o ∈ g, o.z ≤ c) → (g.map fun o => o.z / o.std ^ 2).sum ≤ c * D := by
    intro c hc
    rw [hDdef, ← List.sum_map_mul_left]
    apply List.sum_le_sum
    intro o ho
    have := hg o ho
    rw [mul_one_div]
    exact div_le_div_of_nonneg_right (hc o ho) (by positivity)
  refine ⟨?_, ?_, hr, ?_, ?_, ?_⟩
  · obtain ⟨m, -, hm, hmin⟩ := pyMin_spec (g.map Obs.z) (by simpa using hne)
    obtain ⟨a, ha, rfl⟩ := List.mem_map.mp hm
    refine ⟨a, ha, ?_⟩
    rw [e2, le_div_iff₀ hD]
    exact sum_le _ (fun o ho => hmin _ (List.mem_map_of_mem ho))
  · obtain ⟨m, -, hm, hmax⟩ := pyMax_spec (g.map Obs.z) (by simpa using hne)
    obtain ⟨b, hb, rfl⟩ := List.mem_map.mp hm
    refine ⟨b, hb, ?_⟩
    rw [e2, div_le_iff₀ hD]
    exact sum_ge _ (fun o ho => hmax _ (List.mem_map_of_mem ho))
  · intro o ho
    have hle : 1 / o.std ^ 2 ≤ D := List.single_le_sum (by
      intro a ha
      obtain ⟨p, hp, rfl⟩ := List.mem_map.mp ha
      have := hg p hp
      positivity) _ (List.mem_map_of_mem ho)
    have hop := hg o ho
    have : r.std ^ 2 ≤ o.std ^ 2 := by
      rw [e1, div_le_iff₀ hD]
      rw [div_le_iff₀ (by positivity)] at hle
      linarith
    exact (pow_le_pow_iff_left₀ hr.le hop.le two_ne_zero).mp this
  · refine ⟨g.map fun o => 1 / o.std ^ 2 / D, by simp, ?_, ?_, ?_⟩
    · have : (g.map fun o => 1 / o.std ^ 2 / D) = (g.map fun o => D⁻¹ * (1 / o.std ^ 2)) :=
        List.map_congr_left fun o _ => by rw [div_eq_inv_mul]
      rw [this, List.sum_map_mul_left, ← hDdef]
      field_simp
    · rw [zip_map_sum, e2, div_eq_inv_mul, ← List.sum_map_mul_left]
      congr 1
      refine List.map_congr_left fun o ho => ?_
      have := hg o ho
      field_simp
    · rw [zip_map_sum, e1]
      have : (g.map fun o => (1 / o.std ^ 2 / D) ^ 2 * o.std ^ 2) = (g.map fun o => (D⁻¹) ^ 2 * (1 / o.std ^ 2)) :=
        List.map_congr_left fun o ho => by
          have := hg o ho
          field_simp
      rw [this, List.sum_map_mul_left, ← hDdef]
      field_simp
  · intro ws hl hs
    have := zip_bound g hg0 (1 / D) ws hl
    rw [hs, ← hDdef] at this
    rw [e1]
    have e : 2 * (1 / D) * 1 - (1 / D) ^ 2 * D = 1 / D := by field_simp; ring
    linarith

end Oneka
