import Verif.Spec.Zones
import Verif.Lemmas.Sensitivity
import Mathlib.Algebra.BigOperators.Finprod

/-!
# The capture zones of single realizations
-/

namespace Oneka

open Classical in
/-- counting pairs of realizations and nodes in two ways -/
theorem count_pairs {α β : Type} (T : Finset α) (Ls : List β) (C : β → α → Prop) :
    ((Ls.map fun L => (((T.filter (C L)).card : ℕ) : ℝ)).sum) = ∑ p ∈ T, ((Ls.countP fun L => C L p : ℕ) : ℝ) := by
  induction Ls with
  | nil => simp
  | cons L Ls ih =>
    rw [List.map_cons, List.sum_cons, ih, Finset.card_filter]
    push_cast
    rw [← Finset.sum_add_distrib]
    refine Finset.sum_congr rfl fun p _ => ?_
    rw [List.countP_cons]
    by_cases h : C L p <;> simp [h]
    ring

section
variable {f : PField ℝ} {Ls : List RealizationLog} {xo yo s u : ℝ}

open Classical in
/-- The field counts the realizations in `Ls` that capture a node. -/
structure CountsZones (f : PField ℝ) (Ls : List RealizationLog) (xo yo s u : ℝ) : Prop where
  finite : ∀ P : ℝ → Prop, (f.nodesWhere P).Finite
  pos : 0 < Ls.length
  total : f.total = Ls.length
  lattice : ∀ X Y, f.IsNode X Y → OnLattice xo yo s s X Y
  weight : ∀ X Y, OnLattice xo yo s s X Y → f.weightAt X Y = (Ls.countP fun L => L.Captures u X Y : ℕ)

/-- all nodes -/
noncomputable def CountsZones.nodes (h : CountsZones f Ls xo yo s u) : Finset (ℝ × ℝ) := (h.finite fun _ => True).toFinset

theorem CountsZones.mem (h : CountsZones f Ls xo yo s u) (p : ℝ × ℝ) : p ∈ h.nodes ↔ f.IsNode p.1 p.2 := by
  simp [CountsZones.nodes, PField.nodesWhere]

open Classical in
theorem CountsZones.zone (h : CountsZones f Ls xo yo s u) {L : RealizationLog} (hL : L ∈ Ls) : L.zone xo yo s u = ↑(h.nodes.filter fun p => L.Captures u p.1 p.2) := by
  ext p
  simp only [RealizationLog.zone, Set.mem_setOf_eq, Finset.coe_filter, h.mem]
  constructor
  · rintro ⟨h1, h2⟩
    refine ⟨?_, h2⟩
    by_contra hn
    have e := h.weight p.1 p.2 h1
    rw [weight_off hn] at e
    have : 0 < Ls.countP fun L => L.Captures u p.1 p.2 := List.countP_pos_iff.mpr ⟨L, hL, by simpa using h2⟩
    have e' : (0:ℝ) < ((Ls.countP fun L => L.Captures u p.1 p.2 : ℕ) : ℝ) := by exact_mod_cast this
    linarith
  · rintro ⟨h1, h2⟩
    exact ⟨h.lattice _ _ h1, h2⟩

open Classical in
theorem CountsZones.where_eq (h : CountsZones f Ls xo yo s u) (P : ℝ → Prop) : f.nodesWhere P = ↑(h.nodes.filter fun p => P (f.probAt p.1 p.2)) := by
  ext p
  simp [PField.nodesWhere, h.mem]

open Classical in
theorem CountsZones.area (h : CountsZones f Ls xo yo s u) (P : ℝ → Prop) : f.areaWhere s P = (∑ p ∈ h.nodes, if P (f.probAt p.1 p.2) then (1:ℝ) else 0) * s ^ 2 := by
  unfold PField.areaWhere
  rw [h.where_eq, Set.ncard_coe_finset, Finset.card_filter]
  push_cast
  rfl

theorem CountsZones.length_pos (h : CountsZones f Ls xo yo s u) : (0:ℝ) < Ls.length := by exact_mod_cast h.pos

open Classical in
theorem CountsZones.prob (h : CountsZones f Ls xo yo s u) {p : ℝ × ℝ} (hp : p ∈ h.nodes) :
    f.probAt p.1 p.2 = (Ls.countP fun L => L.Captures u p.1 p.2 : ℕ) / Ls.length := by
  unfold PField.probAt
  rw [h.total, h.weight _ _ (h.lattice _ _ ((h.mem p).mp hp))]

theorem CountsZones.prob_nonneg (h : CountsZones f Ls xo yo s u) {p : ℝ × ℝ} (hp : p ∈ h.nodes) : 0 ≤ f.probAt p.1 p.2 := by
  classical
  rw [h.prob hp]; positivity

theorem CountsZones.prob_le (h : CountsZones f Ls xo yo s u) {p : ℝ × ℝ} (hp : p ∈ h.nodes) : f.probAt p.1 p.2 ≤ 1 := by
  classical
  rw [h.prob hp, div_le_one h.length_pos]
  exact_mod_cast List.countP_le_length

open Classical in
theorem CountsZones.zoneArea (h : CountsZones f Ls xo yo s u) {L : RealizationLog} (hL : L ∈ Ls) :
    L.zoneArea xo yo s u = (∑ p ∈ h.nodes, if L.Captures u p.1 p.2 then (1:ℝ) else 0) * s ^ 2 := by
  unfold RealizationLog.zoneArea
  rw [h.zone hL, Set.ncard_coe_finset, Finset.card_filter]
  push_cast
  rfl

theorem CountsZones.sum (h : CountsZones f Ls xo yo s u) : (Ls.map fun L => L.zoneArea xo yo s u).sum = Ls.length * ∑ p ∈ h.nodes, f.probAt p.1 p.2 * s ^ 2 := by
  classical
  have e : (Ls.map fun L => L.zoneArea xo yo s u) = Ls.map fun L => (((h.nodes.filter fun p => L.Captures u p.1 p.2).card : ℕ) : ℝ) * s ^ 2 := by
    refine List.map_congr_left fun L hL => ?_
    unfold RealizationLog.zoneArea
    rw [h.zone hL, Set.ncard_coe_finset]
  rw [e, List.sum_map_mul_right, count_pairs h.nodes Ls fun L p => L.Captures u p.1 p.2, ← Finset.sum_mul, ← mul_assoc, Finset.mul_sum]
  congr 1
  refine Finset.sum_congr rfl fun p hp => ?_
  rw [h.prob hp, mul_div_cancel₀ _ h.length_pos.ne']

theorem CountsZones.mean (h : CountsZones f Ls xo yo s u) : meanZoneArea Ls xo yo s u = ∑ p ∈ h.nodes, f.probAt p.1 p.2 * s ^ 2 := by
  unfold meanZoneArea
  rw [h.sum, mul_div_cancel_left₀ _ h.length_pos.ne']

theorem CountsZones.mean_finsum (h : CountsZones f Ls xo yo s u) :
    meanZoneArea Ls xo yo s u = s ^ 2 * ∑ᶠ p ∈ f.nodesWhere (fun _ => True), f.probAt p.1 p.2 := by
  rw [h.mean, finsum_mem_eq_finite_toFinset_sum _ (h.finite fun _ => True), ← Finset.sum_mul, mul_comm]
  rfl

theorem CountsZones.markov (h : CountsZones f Ls xo yo s u) (θ : ℝ) : θ * f.areaWhere s (fun w => θ < w) ≤ meanZoneArea Ls xo yo s u := by
  classical
  rw [h.mean, h.area, ← mul_assoc, Finset.mul_sum, ← Finset.sum_mul]
  refine mul_le_mul_of_nonneg_right (Finset.sum_le_sum fun p hp => ?_) (sq_nonneg s)
  split_ifs with hθ
  · linarith
  · rw [mul_zero]; exact h.prob_nonneg hp

theorem CountsZones.below (h : CountsZones f Ls xo yo s u) {θ : ℝ} (h0 : 0 ≤ θ) :
    meanZoneArea Ls xo yo s u ≤ θ * f.areaWhere s (fun w => 0 < w) + (1 - θ) * f.areaWhere s (fun w => θ < w) := by
  classical
  rw [h.mean, h.area, h.area, ← mul_assoc, ← mul_assoc, ← add_mul, Finset.mul_sum, Finset.mul_sum, ← Finset.sum_add_distrib, ← Finset.sum_mul]
  refine mul_le_mul_of_nonneg_right (Finset.sum_le_sum fun p hp => ?_) (sq_nonneg s)
  have h1 := h.prob_le hp
  have h2 := h.prob_nonneg hp
  split_ifs with c1 c2 c2 <;> linarith

theorem CountsZones.each (h : CountsZones f Ls xo yo s u) {L : RealizationLog} (hL : L ∈ Ls) :
    f.areaWhere s (fun w => 1 ≤ w) ≤ L.zoneArea xo yo s u ∧ L.zoneArea xo yo s u ≤ f.areaWhere s (fun w => 0 < w) := by
  classical
  rw [h.zoneArea hL, h.area, h.area]
  constructor
  · refine mul_le_mul_of_nonneg_right (Finset.sum_le_sum fun p hp => ?_) (sq_nonneg s)
    by_cases c : 1 ≤ f.probAt p.1 p.2
    · have e := h.prob hp
      have e1 : f.probAt p.1 p.2 = 1 := le_antisymm (h.prob_le hp) c
      rw [e1, eq_div_iff h.length_pos.ne', one_mul] at e
      have e2 : Ls.length = Ls.countP fun L => L.Captures u p.1 p.2 := by exact_mod_cast e
      have := (List.countP_eq_length.mp e2.symm) L hL
      rw [if_pos c, if_pos (by simpa using this)]
    · rw [if_neg c]
      split_ifs <;> norm_num
  · refine mul_le_mul_of_nonneg_right (Finset.sum_le_sum fun p hp => ?_) (sq_nonneg s)
    by_cases c : L.Captures u p.1 p.2
    · have : 0 < Ls.countP fun L => L.Captures u p.1 p.2 := List.countP_pos_iff.mpr ⟨L, hL, by simpa using c⟩
      have h0 : 0 < f.probAt p.1 p.2 := by
        rw [h.prob hp]
        exact div_pos (by exact_mod_cast this) h.length_pos
      rw [if_pos c, if_pos h0]
    · rw [if_neg c]
      split_ifs <;> norm_num

theorem CountsZones.union (h : CountsZones f Ls xo yo s u) : f.areaWhere s (fun w => 0 < w) ≤ (Ls.map fun L => L.zoneArea xo yo s u).sum := by
  classical
  rw [h.sum, h.area, ← Finset.sum_mul, ← mul_assoc, Finset.mul_sum]
  refine mul_le_mul_of_nonneg_right (Finset.sum_le_sum fun p hp => ?_) (sq_nonneg s)
  rw [h.prob hp, mul_div_cancel₀ _ h.length_pos.ne']
  split_ifs with c
  · have : 0 < Ls.countP fun L => L.Captures u p.1 p.2 := by
      by_contra h0
      rw [show (Ls.countP fun L => L.Captures u p.1 p.2) = 0 by omega] at c
      simp at c
    exact_mod_cast this
  · positivity

end

end Oneka
