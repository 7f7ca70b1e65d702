import Verif.Lemmas.AquiferX
import Verif.Props.Aquifer
import Verif.Props.Capture
import Verif.Spec.Aquifer

/-!
# Lemmas for Props/Wells.lean
-/

namespace Oneka

open Aquifer

/-- one well's term of the potential -/
noncomputable def wellTerm (x y : ℝ) (w : Well ℝ) : XR :=
  w.toX.qw * PyMath.log ((XR.fin x - w.toX.xw) * (XR.fin x - w.toX.xw) + (XR.fin y - w.toX.yw) * (XR.fin y - w.toX.yw))
    * PyMath.q fourPiInv

theorem potentialWells_terms (m : Aquifer ℝ) (x y : ℝ) :
    m.toX.potentialWells (.fin x) (.fin y) = (m.wells.map (wellTerm x y)).foldl (· + ·) (.fin 0) := by
  unfold potentialWells toX
  simp only [List.foldl_map]
  have : (PyMath.q 0 : XR) = .fin 0 := by simp
  rw [this]
  rfl

theorem wellTerm_off {x y : ℝ} {w : Well ℝ} (h : (x, y) ≠ (w.xw, w.yw)) : (wellTerm x y w).IsFin := by
  have := offWells_cons (w := w) (ws := []) (x := x) (y := y) (by simpa using h)
  unfold wellTerm
  simp only [Well.toX, XR.fin_sub, XR.fin_mul, XR.fin_add, XR.log_pos this, XR.q_fin]
  trivial

theorem wellTerm_at {w : Well ℝ} : wellTerm w.xw w.yw w = XR.infOf (-w.qw) := by
  have c : (0:ℝ) < (fourPiInv : ℝ) := by unfold fourPiInv; norm_num
  unfold wellTerm
  simp only [Well.toX, XR.fin_sub, XR.fin_mul, XR.fin_add, sub_self, mul_zero, add_zero, XR.log_zero, XR.q_fin]
  show XR.mul (XR.mul (.fin w.qw) .ninf) (.fin fourPiInv) = _
  simp only [XR.mul, XR.infOf]
  rcases lt_trichotomy w.qw 0 with h | h | h
  · simp [h, h.le.not_gt, XR.infOf, c, c.le.not_gt]
  · simp [h]
  · simp [h, h.le.not_gt, XR.infOf, c, c.le.not_gt]

/-- `+inf` and NaN are absorbing as a pair -/
theorem sum_high (l : List XR) (a : XR) (h : (a = .pinf ∨ a = .nan) ∨ ∃ t ∈ l, t = .pinf ∨ t = .nan) :
    l.foldl (· + ·) a = .pinf ∨ l.foldl (· + ·) a = .nan := by
  induction l generalizing a with
  | nil => exact h.resolve_right (by simp)
  | cons t l ih =>
    rw [List.foldl_cons]
    apply ih
    rcases h with h | ⟨t', ht', h⟩
    · left
      rcases h with rfl | rfl <;> cases t <;> first | exact Or.inl rfl | exact Or.inr rfl
    · rcases List.mem_cons.mp ht' with rfl | ht'
      · left
        rcases h with rfl | rfl <;> cases a <;> first | exact Or.inl rfl | exact Or.inr rfl
      · exact Or.inr ⟨t', ht', h⟩

theorem sum_low (l : List XR) (a : XR) (hl : ∀ t ∈ l, t.IsFin ∨ t = .ninf)
    (h : a = .ninf ∨ (a.IsFin ∧ ∃ t ∈ l, t = .ninf)) : l.foldl (· + ·) a = .ninf := by
  induction l generalizing a with
  | nil => exact h.resolve_right (by simp)
  | cons t l ih =>
    rw [List.foldl_cons]
    apply ih _ (fun t ht => hl t (List.mem_cons_of_mem _ ht))
    have ht := hl t (by simp)
    rcases h with rfl | ⟨ha, t', ht', rfl⟩
    · left
      cases t <;> first | rfl | (rcases ht with h | h <;> first | exact h.elim | simp at h)
    · rcases List.mem_cons.mp ht' with rfl | ht'
      · left
        cases a <;> first | rfl | exact ha.elim
      · rcases ht with ht | rfl
        · right
          refine ⟨?_, .ninf, ht', rfl⟩
          cases a <;> cases t <;> first | trivial | exact ha.elim | exact ht.elim
        · left
          cases a <;> first | rfl | exact ha.elim

/-- the conic part of the potential is finite -/
theorem potential_terms (m : Aquifer ℝ) (x y : ℝ) :
    ∃ a : ℝ, m.toX.potential (.fin x) (.fin y) = .fin a + m.toX.potentialWells (.fin x) (.fin y) := ⟨_, rfl⟩

theorem potential_at_pumping (m : Aquifer ℝ) {x y : ℝ} (hat : ¬ m.OffWells x y)
    (hq : ∀ w ∈ m.wells, (x, y) = (w.xw, w.yw) → 0 < w.qw) : m.toX.potential (.fin x) (.fin y) = .ninf := by
  obtain ⟨a, ha⟩ := potential_terms m x y
  rw [ha, potentialWells_terms, sum_low]
  · rfl
  · intro t ht
    obtain ⟨w, hw, rfl⟩ := List.mem_map.mp ht
    by_cases h : (x, y) = (w.xw, w.yw)
    · right
      obtain ⟨rfl, rfl⟩ := Prod.mk.inj h
      have := hq w hw rfl
      simp [wellTerm_at, XR.infOf, this, this.le.not_gt]
    · exact Or.inl (wellTerm_off h)
  · right
    refine ⟨trivial, ?_⟩
    unfold OffWells at hat
    push Not at hat
    obtain ⟨w, hw, h⟩ := hat
    refine ⟨_, List.mem_map.mpr ⟨w, hw, rfl⟩, ?_⟩
    have := hq w hw h
    obtain ⟨rfl, rfl⟩ := Prod.mk.inj h
    simp [wellTerm_at, XR.infOf, this, this.le.not_gt]

theorem potential_at_other (m : Aquifer ℝ) {x y : ℝ} (hq : ∃ w ∈ m.wells, (x, y) = (w.xw, w.yw) ∧ w.qw ≤ 0) :
    m.toX.potential (.fin x) (.fin y) = .pinf ∨ m.toX.potential (.fin x) (.fin y) = .nan := by
  obtain ⟨a, ha⟩ := potential_terms m x y
  rw [ha, potentialWells_terms]
  obtain ⟨w, hw, h, hq⟩ := hq
  have := sum_high (m.wells.map (wellTerm x y)) (.fin 0) (Or.inr ⟨_, List.mem_map.mpr ⟨w, hw, rfl⟩, by
    obtain ⟨rfl, rfl⟩ := Prod.mk.inj h
    rw [wellTerm_at]
    rcases hq.lt_or_eq with h | h
    · left; simp [XR.infOf, h]
    · right; simp [XR.infOf, h]⟩)
  rcases this with h | h <;> rw [h]
  · exact Or.inl rfl
  · exact Or.inr rfl

theorem wells_bound (δ : ℝ) (hδ : 0 < δ) (x y : ℝ) (c : ℝ) (hc : 0 ≤ c) : ∀ ws : List (Well ℝ),
    (∀ w ∈ ws, δ ≤ Real.sqrt ((x - w.xw) ^ 2 + (y - w.yw) ^ 2)) →
    |(ws.map fun w => -(w.qw * c * ((x - w.xw) / w.r2 x y))).sum| ≤ (ws.map fun w => |w.qw| * c / δ).sum ∧
    |(ws.map fun w => -(w.qw * c * ((y - w.yw) / w.r2 x y))).sum| ≤ (ws.map fun w => |w.qw| * c / δ).sum := by
  intro ws
  induction ws with
  | nil => intro _; simp
  | cons w ws ih =>
    intro h
    obtain ⟨i1, i2⟩ := ih (fun w hw => h w (List.mem_cons_of_mem _ hw))
    have hw := h w (by simp)
    have hr : 0 ≤ (x - w.xw) ^ 2 + (y - w.yw) ^ 2 := by positivity
    set s := Real.sqrt ((x - w.xw) ^ 2 + (y - w.yw) ^ 2) with hs
    have hs2 : s ^ 2 = (x - w.xw) ^ 2 + (y - w.yw) ^ 2 := Real.sq_sqrt hr
    have hspos : 0 < s := hδ.trans_le hw
    have hb : ∀ a : ℝ, |a| ≤ s → |-(w.qw * c * (a / w.r2 x y))| ≤ |w.qw| * c / δ := by
      intro a ha
      unfold Well.r2
      rw [← hs2, abs_neg, abs_mul, abs_mul, abs_div, abs_of_nonneg hc, abs_of_nonneg (sq_nonneg s), mul_div_assoc]
      rw [mul_assoc]
      refine mul_le_mul_of_nonneg_left ?_ (abs_nonneg _)
      rw [div_eq_mul_inv c]
      refine mul_le_mul_of_nonneg_left ?_ hc
      rw [div_le_iff₀ (by positivity), inv_mul_eq_div, le_div_iff₀ hδ]
      nlinarith [abs_nonneg a]
    have b1 : |x - w.xw| ≤ s := Real.abs_le_sqrt (by nlinarith [sq_nonneg (y - w.yw)])
    have b2 : |y - w.yw| ≤ s := Real.abs_le_sqrt (by nlinarith [sq_nonneg (x - w.xw)])
    simp only [List.map_cons, List.sum_cons]
    exact ⟨(abs_add_le _ _).trans (add_le_add (hb _ b1) i1), (abs_add_le _ _).trans (add_le_add (hb _ b2) i2)⟩

/-- away from the wells the discharge grows at most linearly -/
theorem discharge_growth (m : Aquifer ℝ) (δ : ℝ) (hδ : 0 < δ) : ∃ M L : ℝ, 0 ≤ M ∧ 0 ≤ L ∧ ∀ x y : ℝ,
    (∀ w ∈ m.wells, δ ≤ Real.sqrt ((x - w.xw) ^ 2 + (y - w.yw) ^ 2)) →
    |(m.discharge x y).1| ≤ M + L * max |x| |y| ∧ |(m.discharge x y).2| ≤ M + L * max |x| |y| := by
  have hc : (0:ℝ) ≤ (twoPiInv : ℝ) := by unfold twoPiInv; norm_num
  have hW : 0 ≤ (m.wells.map fun w => |w.qw| * (twoPiInv : ℝ) / δ).sum := List.sum_nonneg (by
    intro a ha
    obtain ⟨w, -, rfl⟩ := List.mem_map.mp ha
    positivity)
  set W := (m.wells.map fun w => |w.qw| * (twoPiInv : ℝ) / δ).sum
  set A := 2 * |m.coef 0| + 2 * |m.coef 1| + |m.coef 2|
  have hA : 0 ≤ A := by positivity
  refine ⟨W + (A * (|m.xo| + |m.yo|) + |m.coef 3| + |m.coef 4|), A, by positivity, hA, fun x y h => ?_⟩
  obtain ⟨w1, w2⟩ := wells_bound δ hδ x y (twoPiInv : ℝ) hc m.wells h
  have bx : |x - m.xo| ≤ max |x| |y| + (|m.xo| + |m.yo|) := by
    have := abs_sub x m.xo
    have := le_max_left |x| |y|
    have := abs_nonneg m.yo
    linarith
  have by' : |y - m.yo| ≤ max |x| |y| + (|m.xo| + |m.yo|) := by
    have := abs_sub y m.yo
    have := le_max_right |x| |y|
    have := abs_nonneg m.xo
    linarith
  set N := max |x| |y| + (|m.xo| + |m.yo|)
  have lin : ∀ a b c u v : ℝ, |u| ≤ N → |v| ≤ N → 2 * |a| + |b| ≤ A → |c| ≤ |m.coef 3| + |m.coef 4| →
      |-(2 * a * u + b * v + c)| ≤ A * N + (|m.coef 3| + |m.coef 4|) := by
    intro a b c u v hu hv hab hc
    rw [abs_neg]
    have h1 : |2 * a * u + b * v + c| ≤ |2 * a * u + b * v| + |c| := abs_add_le _ _
    have h2 : |2 * a * u + b * v| ≤ |2 * a * u| + |b * v| := abs_add_le _ _
    have h3 : |2 * a * u| = 2 * |a| * |u| := by rw [abs_mul, abs_mul, abs_of_pos (by norm_num : (0:ℝ) < 2)]
    have h4 : |b * v| = |b| * |v| := abs_mul _ _
    have h5 : 2 * |a| * |u| ≤ 2 * |a| * N := mul_le_mul_of_nonneg_left hu (by positivity)
    have h6 : |b| * |v| ≤ |b| * N := mul_le_mul_of_nonneg_left hv (abs_nonneg _)
    have h7 : (2 * |a| + |b|) * N ≤ A * N := mul_le_mul_of_nonneg_right hab ((abs_nonneg u).trans hu)
    linarith
  have l1 := lin (m.coef 0) (m.coef 2) (m.coef 3) _ _ bx by' (by
    have := abs_nonneg (m.coef 1); simp only [A]; linarith) (by have := abs_nonneg (m.coef 4); linarith)
  have l2 := lin (m.coef 1) (m.coef 2) (m.coef 4) _ _ by' bx (by
    have := abs_nonneg (m.coef 0); simp only [A]; linarith) (by have := abs_nonneg (m.coef 3); linarith)
  have eN : A * N = A * max |x| |y| + A * (|m.xo| + |m.yo|) := by simp only [N]; ring
  rw [discharge_eq]
  refine ⟨(abs_add_le _ _).trans ?_, (abs_add_le _ _).trans ?_⟩ <;> linarith

/-- so does the velocity -/
theorem backVelocity_growth (m : Aquifer ℝ) (hm : m.Physical) (confined : Bool) (δ : ℝ) (hδ : 0 < δ) :
    ∃ M L : ℝ, 0 ≤ M ∧ 0 ≤ L ∧ ∀ x y : ℝ, m.Clear confined δ x y → ∀ v, m.backVelocity confined (x, y) = .ok v →
      max |v.1| |v.2| ≤ M + L * max |x| |y| := by
  obtain ⟨M, L, hM, hL, hb⟩ := discharge_growth m δ hδ
  have hn := hm.porosity
  have hT := hm.thickness
  have hd0 : 0 < m.porosity * min δ m.thickness := by positivity
  refine ⟨M / (m.porosity * min δ m.thickness), L / (m.porosity * min δ m.thickness), by positivity, by positivity,
    fun x y hc v hv => ?_⟩
  obtain ⟨b1, b2⟩ := hb x y hc.1
  have main : ∀ d, m.porosity * min δ m.thickness ≤ d → ∀ q, |q| ≤ M + L * max |x| |y| →
      |-(q / d)| ≤ M / (m.porosity * min δ m.thickness) + L / (m.porosity * min δ m.thickness) * max |x| |y| := by
    intro d hd q hq
    rw [abs_neg, abs_div, abs_of_pos (hd0.trans_le hd), div_mul_eq_mul_div, ← add_div]
    exact div_le_div₀ ((abs_nonneg _).trans hq) hq hd0 hd
  unfold Aquifer.backVelocity at hv
  cases hcf : confined with
  | true =>
    rw [hcf] at hv
    simp only [if_true] at hv
    obtain rfl := Except.ok.inj hv
    have hle : m.porosity * min δ m.thickness ≤ m.thickness * m.porosity := by
      rw [mul_comm]; exact mul_le_mul_of_nonneg_right (min_le_right _ _) hn.le
    exact max_le (main _ hle _ b1) (main _ hle _ b2)
  | false =>
    rw [hcf] at hv
    simp only [Bool.false_eq_true, if_false] at hv
    rw [velocity_eq m hm] at hv
    by_cases hp : m.potential x y ≤ 0
    · simp [hp] at hv
    · rw [if_neg hp] at hv
      simp only at hv
      obtain rfl := Except.ok.inj hv
      have hh := hc.2 hcf (headOf m.conductivity m.thickness (m.potential x y)) (by rw [head_eq, if_neg hp])
      have hle : m.porosity * min δ m.thickness ≤
          m.porosity * min (headOf m.conductivity m.thickness (m.potential x y)) m.thickness :=
        mul_le_mul_of_nonneg_left (min_le_min_right _ hh) hn.le
      exact max_le (main _ hle _ b1) (main _ hle _ b2)

end Oneka
