import Verif.Lemmas.Acres

/-!
# C104: the acres on the impact plot
-/

namespace Oneka

/-- **C104, part.** The ordinate of every point of the impact plot is a whole number of acres, at most the area of the nodes with at least that probability, and less than one acre
below the area of the nodes with a higher probability. From left to right on the plot the ordinates never increase. Missing: the ordinate is a positive number, so that the point shows on the logarithmic axis; see
`C104_fails_below_one_acre`. Example: below. -/
theorem C104_ordinates_partial (f : PField ℝ) (hf : f.Reachable) (ht : 0 < f.total) (spacing : ℝ) (hs : 0 < spacing) (im : Impact)
    (him : createImpactPlot spacing f = .ok im) :
    (∀ p ∈ im.drawn, ∃ y : ℕ, p.2 = y ∧ (y : ℝ) ≤ f.areaWhere spacing (fun w => p.1 ≤ w) / 4046.86 ∧
      f.areaWhere spacing (fun w => p.1 < w) / 4046.86 < y + 1) ∧
    im.drawn.Pairwise fun p q => q.1 ≤ p.1 ∧ p.2 ≤ q.2 := by
  constructor
  · rintro ⟨v, y⟩ hp
    obtain ⟨A, rfl, -, h1, h2⟩ := impact_point hf ht hs him hp
    have hA : 0 ≤ A := by
      refine le_trans ?_ h1.le
      unfold PField.areaWhere
      positivity
    have hA' : 0 ≤ A / 4046.86 := by positivity
    refine ⟨⌊A / 4046.86⌋₊, ?_, ?_, ?_⟩
    · rw [← Int.natCast_floor_eq_floor hA']; norm_cast
    · refine (Nat.floor_le hA').trans ?_
      simp only
      gcongr
    · refine lt_trans ?_ (Nat.lt_floor_add_one _)
      simp only
      gcongr
  · obtain ⟨im', e, hsort, -, -, -, -⟩ := C53_impact f hf ht spacing
    obtain rfl : im' = im := by rw [e] at him; exact Except.ok.inj him
    rw [List.pairwise_iff_getElem]
    intro i j hi hj hij
    obtain ⟨lo, k, h1, -, -⟩ := drawn_place hf ht him (List.getElem?_eq_getElem hi)
    obtain ⟨a1, a2⟩ := h1 i _ (List.getElem?_eq_getElem hi)
    obtain ⟨b1, b2⟩ := h1 j _ (List.getElem?_eq_getElem hj)
    obtain ⟨c1, c2⟩ := List.getElem?_eq_some_iff.mp a1
    obtain ⟨d1, d2⟩ := List.getElem?_eq_some_iff.mp b1
    constructor
    · rw [← c2, ← d2]
      exact List.pairwise_iff_getElem.mp hsort _ _ c1 d1 (by omega)
    · rw [a2, b2]
      have : ((lo + i : ℕ) : ℝ) ≤ ((lo + j : ℕ) : ℝ) := by exact_mod_cast (by omega : lo + i ≤ lo + j)
      exact_mod_cast Int.floor_le_floor (by gcongr)

/-- **C104 is false.** Wherever the nodes that are at least as probable cover less than one acre, the ordinate is 0, which a logarithmic axis cannot show: the part of the capture
zone with the highest probabilities is missing from the plot. With a spacing below 63.6 m these are all probabilities reached at one node only. Example: below. -/
theorem C104_fails_below_one_acre (f : PField ℝ) (hf : f.Reachable) (ht : 0 < f.total) (spacing : ℝ) (hs : 0 < spacing) (im : Impact)
    (him : createImpactPlot spacing f = .ok im) :
    ∀ p ∈ im.drawn, f.areaWhere spacing (fun w => p.1 ≤ w) < 4046.86 → p.2 = 0 := by
  intro p hp hlt
  obtain ⟨y, h1, h2, -⟩ := (C104_ordinates_partial f hf ht spacing hs im him).1 p hp
  have : (y : ℝ) < 1 := lt_of_le_of_lt h2 ((div_lt_one (by norm_num)).mpr hlt)
  have : y < 1 := by exact_mod_cast this
  rw [h1, show y = 0 by omega]
  norm_num

/-- **C104 is false** for all points of a small capture zone: if some node was never captured, and the nodes that were, with one cell more, cover less than an acre, then every point of
the plot has ordinate 0: the plot is empty. Example: below. -/
theorem C104_fails_small_zone (f : PField ℝ) (hf : f.Reachable) (ht : 0 < f.total) (spacing : ℝ) (im : Impact)
    (him : createImpactPlot spacing f = .ok im) (hz : (f.nodesWhere fun w => w = 0).Nonempty)
    (hsmall : f.areaWhere spacing (fun w => 0 < w) + spacing ^ 2 < 4046.86) : ∀ p ∈ im.drawn, p.2 = 0 := by
  intro p hp
  obtain ⟨i, hi⟩ := List.getElem?_of_mem hp
  obtain ⟨lo, k, h1, h2, h3⟩ := drawn_place hf ht him hi
  have hk : ((lo + i : ℕ) : ℝ) ≤ ((f.nodesWhere fun w => 0 < w).ncard : ℝ) := by exact_mod_cast h2 ▸ h3 hz
  rw [(h1 i p hi).2]
  have : ⌊(((lo + i : ℕ) : ℝ) + 1) * spacing ^ 2 / 4046.86⌋ = 0 := by
    rw [Int.floor_eq_zero_iff, Set.mem_Ico]
    refine ⟨by positivity, (div_lt_one (by norm_num)).mpr (lt_of_le_of_lt ?_ hsmall)⟩
    unfold PField.areaWhere
    nlinarith [sq_nonneg spacing]
  rw [this]; norm_num

/-- **C104 is false** of whole calls as well: when `oneka` returns a field of several realizations some node of which was never captured, and the captured nodes and one cell more cover
less than an acre, all points of its impact plot have ordinate 0. -/
theorem C104_fails_in_calls (a : PyArgs) (n : Inputs) (env : CallEnv) (v : PyVal) (hd : a.Denotes n) (h1 : 1 < n.nrealizations)
    (h : (oneka a env).ending = .returns v) (fs : Files) :
    ∃ (d : Dict) (f : PField ℝ) (pl : ProbabilityPlot) (pts : List (ℝ × ℝ)),
      loadOneka ((oneka a env).events.foldl Effect.apply fs) env.now.archiveName = .ok d ∧ d.get "pfield" = some (.field (.field f)) ∧
      figures (oneka a env).events = [.probability pl, .impact pts] ∧
      ((f.nodesWhere fun w => w = 0).Nonempty → f.areaWhere n.run.spacing (fun w => 0 < w) + n.run.spacing ^ 2 < 4046.86 → ∀ p ∈ pts, p.2 = 0) := by
  rcases returned_cases hd h with ⟨-, obs, cols, r, f, pl, im, lines, H⟩ | ⟨h2, -⟩
  swap
  · omega
  obtain ⟨d, hd1, hd2⟩ := archived_field h H.archived fs
  exact ⟨d, f, pl, im.drawn, hd1, hd2, H.figures_eq, fun hz hs => C104_fails_small_zone f H.reachable H.total _ im H.impact hz hs⟩

/-- A field with a node of probability 1 and a node of probability 0, and a spacing at which all of the captured nodes cover less than an acre. -/
example : ∃ (f : PField ℝ) (spacing : ℝ) (im : Impact), f.Reachable ∧ 0 < f.total ∧ 0 < spacing ∧ createImpactPlot spacing f = .ok im ∧ im.drawn ≠ [] ∧
    (f.nodesWhere fun w => w = 0).Nonempty ∧ (f.nodesWhere fun w => 0 < w).Nonempty ∧ f.areaWhere spacing (fun w => 0 < w) + spacing ^ 2 < 4046.86 := by
  obtain ⟨f, hf, ht, -, ⟨p, hp, -⟩, ⟨q, hq, -⟩⟩ := plot_example
  have ht' : 0 < f.total := by rw [ht]; exact one_pos
  set N := (f.nodesWhere fun w => 0 < w).ncard with hN
  obtain ⟨im, e, -⟩ := C53_impact f hf ht' (1 / ((N : ℝ) + 1))
  have hz : (f.nodesWhere fun w => w = 0).Nonempty := ⟨q, hq⟩
  refine ⟨f, 1 / ((N : ℝ) + 1), im, hf, ht', by positivity, e, drawn_nonempty hf ht' e hz, hz, ⟨p, hp.1, ?_⟩, ?_⟩
  · show 0 < f.probAt p.1 p.2
    rw [show f.probAt p.1 p.2 = 1 from hp.2]; exact one_pos
  · unfold PField.areaWhere
    rw [← hN]
    have h1 : (N : ℝ) * (1 / ((N : ℝ) + 1)) ^ 2 + (1 / ((N : ℝ) + 1)) ^ 2 = 1 / ((N : ℝ) + 1) := by field_simp
    rw [h1]
    refine lt_of_le_of_lt ((div_le_one (by positivity)).mpr ?_) (by norm_num : (1 : ℝ) < 4046.86)
    linarith [(Nat.cast_nonneg N : (0 : ℝ) ≤ N)]

end Oneka
