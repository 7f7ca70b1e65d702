import Verif.Props.Oneka
import Verif.Spec.Report

/-!
# Lemmas for Props/Report.lean
-/

namespace Oneka

theorem obsTable_column (obs : List Obs) {j : ℕ} (hj : j < 4) : ((obsTable obs).map (fun v => v.getD j none) |>.filterMap id) = obsColumn obs j := by
  unfold obsTable
  interval_cases j <;> simp [obsColumn, List.filterMap_map, Function.comp_def]

theorem summary_of {obs : List Obs} (h : obs ≠ []) {cols : List ColumnStats} (hc : summaryStatistics (obsTable obs) = .ok cols) : SummaryOf obs cols := by
  obtain ⟨cols', h1, h2, h3⟩ := summary_ok h
  obtain rfl : cols' = cols := by rw [h1] at hc; simpa using hc
  refine ⟨h2, fun j s hj => ?_⟩
  have : j < 4 := by
    by_contra hh
    rw [List.getElem?_eq_none (by omega)] at hj
    simp at hj
  rw [← obsTable_column obs this]
  exact h3 j s hj

/-- A point of the impact plot: its area lies between the area of the nodes of higher probability and the area of the nodes that are at least as probable. -/
theorem impact_point {f : PField ℝ} (hf : f.Reachable) (ht : 0 < f.total) {spacing : ℝ} (hs : 0 < spacing) {im : Impact}
    (him : createImpactPlot spacing f = .ok im) {v y : ℝ} (h : (v, y) ∈ im.drawn) :
    ∃ A : ℝ, y = ⌊A / 4046.86⌋ ∧
    (f.nodesWhere (fun w => w = v)).Nonempty ∧ f.areaWhere spacing (fun w => v < w) < A ∧ A ≤ f.areaWhere spacing (fun w => v ≤ w) := by
  classical
  obtain ⟨⟨part, hinf, hpart⟩, -⟩ := C66_drawn f hf ht spacing im him
  rw [hpart] at h
  obtain ⟨⟨v0, A⟩, hm, hvA⟩ := List.mem_map.mp h
  obtain ⟨hv0, hy⟩ := Prod.mk.inj hvA
  obtain rfl : v = v0 := hv0.symm
  refine ⟨A, hy.symm, ?_⟩
  obtain ⟨im', e, hsort, hc, hl, ha, hrank⟩ := C53_impact f hf ht spacing
  obtain rfl : im' = im := by rw [e] at him; exact Except.ok.inj him
  obtain ⟨k, hk, hkv⟩ := List.mem_iff_getElem.mp (hinf.subset hm)
  have hkl : k < im'.pr.length := by
    rw [List.length_zip] at hk
    omega
  have hka : k < im'.area.length := by omega
  rw [List.getElem_zip] at hkv
  obtain ⟨hv, hA⟩ := Prod.mk.inj hkv
  have hA' := ha k A (by rw [List.getElem?_eq_getElem hka, hA])
  have hs2 : 0 < spacing ^ 2 := by positivity
  refine ⟨?_, ?_, ?_⟩
  · obtain ⟨hfin, hcount⟩ := hc (fun w => w = v)
    rw [← Set.ncard_pos hfin, ← hcount, List.countP_pos_iff]
    exact ⟨v, by rw [← hv]; exact List.getElem_mem _, by simp⟩
  · have := (hrank v k v (by rw [List.getElem?_eq_getElem hkl, hv])).not.mp (lt_irrefl v)
    rw [hA']
    unfold PField.areaWhere
    have h2 : ((f.nodesWhere fun w => v < w).ncard : ℝ) ≤ k := by exact_mod_cast (not_lt.mp this)
    nlinarith
  · obtain ⟨hfin, hcount⟩ := hc (fun w => v ≤ w)
    rw [hA']
    unfold PField.areaWhere
    have h2 : k + 1 ≤ (f.nodesWhere fun w => v ≤ w).ncard := by
      rw [← hcount]
      have h3 : (im'.pr.take (k + 1)).countP (fun w => decide (v ≤ w)) = (im'.pr.take (k + 1)).length := by
        rw [List.countP_eq_length]
        intro w hw
        obtain ⟨i, hi, rfl⟩ := List.mem_iff_getElem.mp hw
        rw [List.length_take] at hi
        rw [List.getElem_take]
        have : im'.pr[k] ≤ im'.pr[i] := by
          rcases Nat.lt_or_ge i k with hik | hik
          · exact List.pairwise_iff_getElem.mp hsort i k (by omega) hkl hik
          · obtain rfl : i = k := by omega
            exact le_rfl
        rw [← hv]
        simpa using this
      rw [List.length_take, min_eq_left (by omega)] at h3
      rw [← h3]
      exact (List.take_sublist _ _).countP_le
    have h3 : (k : ℝ) + 1 ≤ ((f.nodesWhere fun w => v ≤ w).ncard : ℝ) := by exact_mod_cast h2
    nlinarith

theorem logged_fullLog (a : PyArgs) (s : Bool) (ws os : List PyVal) : logged ((fullLog a s ws os).map .log) = a.report s ws os := by
  have key : ∀ l : List PyVal, List.filterMap ((fun e : Effect => match e with | .log (.value s v) => some (s, v) | _ => none) ∘ (Effect.log ∘ LogLine.value "    ")) l =
      l.map fun w => ("    ", w) := by
    intro l
    rw [← List.filterMap_eq_map]
    rfl
  simp only [logged, fullLog, PyArgs.report, banner, List.map_append, List.filterMap_append, List.map_map, List.filterMap_map, key]
  simp

end Oneka
