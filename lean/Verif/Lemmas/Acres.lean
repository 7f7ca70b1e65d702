import Verif.Lemmas.PropsReport

/-!
# Lemmas for Props/Acres.lean
-/

namespace Oneka

/-- A point of the impact plot by its place in the curve; no point after the first node of probability 0 is drawn. -/
theorem drawn_place {f : PField ℝ} (hf : f.Reachable) (ht : 0 < f.total) {spacing : ℝ} {im : Impact} (him : createImpactPlot spacing f = .ok im)
    {i : ℕ} {p : ℝ × ℝ} (h : im.drawn[i]? = some p) :
    ∃ lo k : ℕ, (∀ (i' : ℕ) (p' : ℝ × ℝ), im.drawn[i']? = some p' → im.pr[lo + i']? = some p'.1 ∧ p'.2 = ⌊((lo + i' : ℕ) + 1 : ℝ) * spacing ^ 2 / 4046.86⌋) ∧
      k = lo + i ∧ ((f.nodesWhere fun w => w = 0).Nonempty → k ≤ (f.nodesWhere fun w => 0 < w).ncard) := by
  classical
  obtain ⟨im', e, hs, hc, hl, ha, hrank⟩ := C53_impact f hf ht spacing
  obtain rfl : im' = im := by rw [e] at him; exact Except.ok.inj him
  have hdr : im'.drawn = (((im'.pr.zip im'.area).take (min im'.pr.length (argmax (im'.pr.map fun v => decide (v = 0)) + 1))).drop
      (argmax (im'.pr.map fun v => decide (v < 1)) - 1)).map inAcres := by
    unfold createImpactPlot at him
    split at him
    · simp at him
    · simp only at him
      split at him
      · simp at him
      · rw [← Except.ok.inj him]
  have place : ∀ (i' : ℕ) (p' : ℝ × ℝ), im'.drawn[i']? = some p' → argmax (im'.pr.map fun v => decide (v < 1)) - 1 + i' <
      argmax (im'.pr.map fun v => decide (v = 0)) + 1 ∧ im'.pr[argmax (im'.pr.map fun v => decide (v < 1)) - 1 + i']? = some p'.1 ∧
      p'.2 = ⌊((argmax (im'.pr.map fun v => decide (v < 1)) - 1 + i' : ℕ) + 1 : ℝ) * spacing ^ 2 / 4046.86⌋ := by
    intro i' p' h'
    rw [hdr, List.getElem?_map, Option.map_eq_some_iff] at h'
    obtain ⟨⟨v, A⟩, h1, rfl⟩ := h'
    rw [List.getElem?_drop, List.getElem?_take] at h1
    split at h1
    · rename_i hlt
      obtain ⟨h2, h3⟩ := (List.getElem?_zip_eq_some (z := (v, A))).mp h1
      refine ⟨by omega, h2, ?_⟩
      simp only [inAcres, acre]
      rw [← ha _ A h3]
    · simp at h1
  refine ⟨_, _, fun i' p' h' => (place i' p' h').2, rfl, fun hz => ?_⟩
  have h1 := (place i p h).1
  have hzm : (0 : ℝ) ∈ im'.pr := by
    have hfin := hc (fun w => w = 0)
    have : 0 < im'.pr.countP fun v => decide (v = 0) := by rw [hfin.2]; exact (Set.ncard_pos hfin.1).mpr hz
    obtain ⟨v, hv, hv0⟩ := List.countP_pos_iff.mp this
    have : v = 0 := by simpa using hv0
    rwa [← this]
  obtain ⟨a1, a2⟩ := argmax_first (im'.pr.map fun v => decide (v = 0)) (List.mem_map.mpr ⟨0, hzm, by simp⟩)
  -- all nodes before the first zero are positive, if the first zero is not the first node
  rcases Nat.eq_zero_or_pos (argmax (im'.pr.map fun v => decide (v = 0))) with h0 | h0
  · omega
  · set j := argmax (im'.pr.map fun v => decide (v = 0))
    rw [List.getElem?_map, Option.map_eq_some_iff] at a1
    obtain ⟨w, hw, hw0⟩ := a1
    have hw0' : w = 0 := by simpa using hw0
    have hjl := (List.getElem?_eq_some_iff.mp hw).1
    have hj1 : im'.pr[j - 1]? = some (im'.pr[j - 1]'(by omega)) := List.getElem?_eq_getElem (by omega)
    have hpos : 0 < im'.pr[j - 1]'(by omega) := by
      have hge : im'.pr[j] ≤ im'.pr[j - 1]'(by omega) := List.pairwise_iff_getElem.mp hs (j - 1) j (by omega) hjl (by omega)
      rw [(List.getElem?_eq_some_iff.mp hw).2, hw0'] at hge
      refine lt_of_le_of_ne hge fun heq => ?_
      have := a2 (j - 1) (by omega)
      rw [List.getElem?_map, hj1] at this
      simp [← heq] at this
    have := (hrank 0 (j - 1) _ hj1).mp hpos
    omega

/-- If some node has probability 0, some point is drawn. -/
theorem drawn_nonempty {f : PField ℝ} (hf : f.Reachable) (ht : 0 < f.total) {spacing : ℝ} {im : Impact} (him : createImpactPlot spacing f = .ok im)
    (hz : (f.nodesWhere fun w => w = 0).Nonempty) : im.drawn ≠ [] := by
  classical
  obtain ⟨im', e, hs, hc, hl, ha, hrank⟩ := C53_impact f hf ht spacing
  obtain rfl : im' = im := by rw [e] at him; exact Except.ok.inj him
  have hdr : im'.drawn = (((im'.pr.zip im'.area).take (min im'.pr.length (argmax (im'.pr.map fun v => decide (v = 0)) + 1))).drop
      (argmax (im'.pr.map fun v => decide (v < 1)) - 1)).map inAcres := by
    unfold createImpactPlot at him
    split at him
    · simp at him
    · simp only at him
      split at him
      · simp at him
      · rw [← Except.ok.inj him]
  have hzm : (0 : ℝ) ∈ im'.pr := by
    have hfin := hc (fun w => w = 0)
    have : 0 < im'.pr.countP fun v => decide (v = 0) := by rw [hfin.2]; exact (Set.ncard_pos hfin.1).mpr hz
    obtain ⟨v, hv, hv0⟩ := List.countP_pos_iff.mp this
    have : v = 0 := by simpa using hv0
    rwa [← this]
  obtain ⟨a1, a2⟩ := argmax_first (im'.pr.map fun v => decide (v = 0)) (List.mem_map.mpr ⟨0, hzm, by simp⟩)
  obtain ⟨b1, b2⟩ := argmax_first (im'.pr.map fun v => decide (v < 1)) (List.mem_map.mpr ⟨0, hzm, by simp⟩)
  rw [List.getElem?_map, Option.map_eq_some_iff] at a1
  obtain ⟨w, hw, hw0⟩ := a1
  have hw0' : w = 0 := by simpa using hw0
  have hjl := (List.getElem?_eq_some_iff.mp hw).1
  have hij : argmax (im'.pr.map fun v => decide (v < 1)) ≤ argmax (im'.pr.map fun v => decide (v = 0)) := by
    by_contra hcon
    have := b2 _ (not_le.mp hcon)
    rw [List.getElem?_map, hw, hw0'] at this
    simp at this
  intro hnil
  rw [hdr] at hnil
  have := congrArg List.length hnil
  simp only [List.length_map, List.length_drop, List.length_take, List.length_zip, List.length_nil, hl] at this
  omega

end Oneka
