import Verif.Lemmas.PropsUtilities

/-!
# C47–C52: filtering observations, summary statistics
-/

namespace Oneka

/-! ## C47 -/

/-- C47: the retained observations represent, in order, the groups of duplicates into which the observations farther than `buffer` from all wells
are divided; so each of those contributes to exactly one of them (`gs.flatten = kept`), the others to none, and no retained observation is within `buffer` of a well. Example: at the end of C51. -/
theorem C47_filter (obs out : List Obs) (wells : List (ℝ × ℝ)) (buffer : ℝ) (h : filterObs obs wells buffer = .ok out) :
    ∃ kept gs, IsKept obs wells buffer kept ∧ Grouping kept gs ∧ gs.flatten = kept ∧ List.Forall₂ Represents out gs ∧
      ∀ o ∈ out, ∀ w ∈ wells, buffer < o.dist w.1 w.2 := by
  obtain ⟨gs, hgs⟩ := grouping_exists (removeNear buffer wells obs)
  have hk := kept_exists obs wells buffer
  have hrep : List.Forall₂ Represents out gs := by
    by_cases hz : ∃ g ∈ gs, 1 < g.length ∧ ∃ o ∈ g, o.std = 0
    · have := (grouping_spec hgs).2 hz
      unfold filterObs at h
      rw [this] at h
      simp at h
    · obtain ⟨rs, e, hf⟩ := (grouping_spec hgs).1 (by
        intro g hg hl o ho h0
        exact hz ⟨g, hg, hl, o, ho, h0⟩)
      unfold filterObs at h
      rw [e] at h
      obtain rfl := Except.ok.inj h
      exact hf
  have hfl := grouping_flatten hgs
  refine ⟨_, gs, hk, hgs, hfl, hrep, ?_⟩
  intro o ho w hw
  obtain ⟨g, hg, hog⟩ : ∃ g ∈ gs, Represents o g := by
    obtain ⟨i, hi, rfl⟩ := List.mem_iff_getElem.mp ho
    have hl := hrep.length_eq
    exact ⟨gs[i], List.getElem_mem _, hrep.get hi (by omega)⟩
  obtain ⟨p, hp, px, py⟩ := hog.place
  have hpk : p ∈ removeNear buffer wells obs := by
    rw [← hfl]
    exact List.mem_flatten.mpr ⟨g, hg, List.mem_of_mem_head? hp⟩
  obtain ⟨-, f, e, hf⟩ := hk
  rw [e, List.mem_filter] at hpk
  have := (hf p).mp hpk.2 w hw
  unfold Obs.dist at this ⊢
  rw [px, py]
  exact this

/-! ## C48 -/

/-- C48: total precision and total precision-weighted head of the retained observations are those of the observations that were not
removed. Example: at the end of C51. -/
theorem C48_information (obs out kept : List Obs) (wells : List (ℝ × ℝ)) (buffer : ℝ) (h : filterObs obs wells buffer = .ok out)
    (hk : IsKept obs wells buffer kept) :
    (out.map fun o => 1 / o.std ^ 2).sum = (kept.map fun o => 1 / o.std ^ 2).sum ∧
    (out.map fun o => o.z / o.std ^ 2).sum = (kept.map fun o => o.z / o.std ^ 2).sum := by
  obtain ⟨kept', gs, hk', -, hfl, hrep, -⟩ := C47_filter obs out wells buffer h
  rw [kept_unique hk, ← kept_unique hk', ← hfl]
  exact sums_match hrep

/-! ## C49 -/

/-- C49: with positive standard deviations, every retained observation is at the place of the first member of its group of duplicates, and is the best average of the group:
a weighted average of heads that lies between them, with the standard deviation that this average of independent observations has, which is not larger than any member's and not larger
than with any other weights. Example: at the end of C51. -/
theorem C49_minimum_variance (obs out : List Obs) (wells : List (ℝ × ℝ)) (buffer : ℝ) (h : filterObs obs wells buffer = .ok out) (hpos : ∀ o ∈ obs, 0 < o.std) :
    ∃ kept gs, IsKept obs wells buffer kept ∧ Grouping kept gs ∧ gs.flatten = kept ∧
      List.Forall₂ (fun r g => (∃ o, g.head? = some o ∧ r.x = o.x ∧ r.y = o.y) ∧ BestAverage r g) out gs := by
  obtain ⟨kept, gs, hk, hg, hfl, hrep, -⟩ := C47_filter obs out wells buffer h
  refine ⟨kept, gs, hk, hg, hfl, ?_⟩
  have hp : ∀ g ∈ gs, ∀ o ∈ g, 0 < o.std := fun g hg o ho => hpos o (hk.1.subset (hfl ▸ List.mem_flatten.mpr ⟨g, hg, ho⟩))
  clear hg hfl hk h
  induction hrep with
  | nil => exact .nil
  | cons hr _ ih =>
    exact .cons ⟨hr.place, represents_best hr (hp _ (by simp))⟩ (ih fun g hg => hp g (List.mem_cons_of_mem _ hg))


/-! ## C50 -/

/-- C50, the part that holds: applying `filter_obs` again changes nothing, and *consecutive* retained observations are at least 1 apart. Missing: retained
observations that are not consecutive, for which the claim is false (next theorem). -/
theorem C50_idempotent_partial (obs out : List Obs) (wells : List (ℝ × ℝ)) (buffer : ℝ) (h : filterObs obs wells buffer = .ok out) :
    filterObs out wells buffer = .ok out ∧ out.IsChain (fun a b => 1 ≤ a.dist b.x b.y) := by
  classical
  obtain ⟨kept, gs, hk, hgs, hfl, hrep, hfar⟩ := C47_filter obs out wells buffer h
  have hc := retained_chain hgs hrep
  refine ⟨?_, hc⟩
  unfold filterObs
  have : removeNear buffer wells out = out := by
    rw [removeNear_eq, List.filter_eq_self]
    intro o ho
    simpa using hfar o ho
  rw [this]
  exact mergeRuns_chain out hc

/-- C50 fails for duplicates that are not next to each other: two observations `a`, `c` of the same place with another one `b` between them in the list are
both retained, whatever their heads and standard deviations. -/
theorem C50_fails_for_separated_duplicates (a b c : Obs) (wells : List (ℝ × ℝ)) (buffer : ℝ) (hac : (a.x, a.y) = (c.x, c.y))
    (hab : 1 ≤ a.dist b.x b.y) (hfar : ∀ o ∈ [a, b, c], ∀ w ∈ wells, buffer < o.dist w.1 w.2) :
    filterObs [a, b, c] wells buffer = .ok [a, b, c] := by
  classical
  obtain ⟨hx, hy⟩ := Prod.mk.inj hac
  unfold filterObs
  have : removeNear buffer wells [a, b, c] = [a, b, c] := by
    rw [removeNear_eq, List.filter_eq_self]
    intro o ho
    simpa using hfar o ho
  rw [this]
  refine mergeRuns_chain _ (.cons_cons hab (.cons_cons ?_ (.singleton _)))
  unfold Obs.dist at hab ⊢
  rw [← hx, ← hy]
  rwa [show (b.x - a.x) ^ 2 + (b.y - a.y) ^ 2 = (a.x - b.x) ^ 2 + (a.y - b.y) ^ 2 by ring]

example : (((0:ℝ), (0:ℝ)) = (0, 0)) ∧ 1 ≤ (⟨0, 0, 30, 1⟩ : Obs).dist 5 0 := by
  refine ⟨rfl, ?_⟩
  unfold Obs.dist
  rw [Real.le_sqrt' one_pos]; norm_num

/-! ## C51 -/

/-- C51: `filter_obs` raises iff some group of several duplicates contains an observation with zero standard deviation; the error is ZeroDivisionError. -/
theorem C51_error (obs kept : List Obs) (wells : List (ℝ × ℝ)) (buffer : ℝ) (gs : List (List Obs)) (hk : IsKept obs wells buffer kept)
    (hg : Grouping kept gs) (e : PyErr) :
    filterObs obs wells buffer = .error e ↔ e = .zeroDivisionError ∧ ∃ g ∈ gs, 1 < g.length ∧ ∃ o ∈ g, o.std = 0 := by
  rw [kept_unique hk] at hg
  unfold filterObs
  constructor
  · intro h
    by_cases hz : ∃ g ∈ gs, 1 < g.length ∧ ∃ o ∈ g, o.std = 0
    · rw [(grouping_spec hg).2 hz] at h
      exact ⟨(Except.error.inj h).symm, hz⟩
    · obtain ⟨rs, e', -⟩ := (grouping_spec hg).1 (by
        intro g hg hl o ho h0
        exact hz ⟨g, hg, hl, o, ho, h0⟩)
      rw [e'] at h
      simp at h
  · rintro ⟨rfl, hz⟩
    exact (grouping_spec hg).2 hz

/-- C51: `kept` and `gs` always exist, and are unique. -/
theorem C51_groups (obs : List Obs) (wells : List (ℝ × ℝ)) (buffer : ℝ) :
    ∃ kept gs, (IsKept obs wells buffer kept ∧ Grouping kept gs) ∧
      ∀ kept' gs', IsKept obs wells buffer kept' → Grouping kept' gs' → kept' = kept ∧ gs' = gs := by
  obtain ⟨gs, hgs⟩ := grouping_exists (removeNear buffer wells obs)
  refine ⟨_, gs, ⟨kept_exists obs wells buffer, hgs⟩, ?_⟩
  intro kept' gs' hk hg
  obtain rfl := kept_unique hk
  exact ⟨rfl, grouping_unique hg hgs⟩

/-- two duplicates, a third observation elsewhere, and one that is too close to the well: a grouping with a group of two -/
example : ∃ out, filterObs [⟨0, 0, 30, 1⟩, ⟨0.5, 0, 32, 2⟩, ⟨500, 0, 29, 0⟩, ⟨100, 0, 10, 1⟩] [(100, 0)] 50 = .ok out ∧ out.length = 2 := by
  have d : ∀ x y z s u v b : ℝ, b < (⟨x, y, z, s⟩ : Obs).dist u v ↔ b < Real.sqrt ((x - u) ^ 2 + (y - v) ^ 2) := fun _ _ _ _ _ _ _ => Iff.rfl
  have far1 : (50:ℝ) < Real.sqrt ((0 - 100) ^ 2 + (0 - 0) ^ 2) := by rw [Real.lt_sqrt (by norm_num)]; norm_num
  have far2 : (50:ℝ) < Real.sqrt ((0.5 - 100) ^ 2 + (0 - 0) ^ 2) := by rw [Real.lt_sqrt (by norm_num)]; norm_num
  have far3 : (50:ℝ) < Real.sqrt ((500 - 100) ^ 2 + (0 - 0) ^ 2) := by rw [Real.lt_sqrt (by norm_num)]; norm_num
  have near4 : ¬ (50:ℝ) < Real.sqrt ((100 - 100) ^ 2 + (0 - 0) ^ 2) := by norm_num
  have hrm : removeNear 50 [((100:ℝ), (0:ℝ))] [⟨0, 0, 30, 1⟩, ⟨0.5, 0, 32, 2⟩, ⟨500, 0, 29, 0⟩, ⟨100, 0, 10, 1⟩] =
      [⟨0, 0, 30, 1⟩, ⟨0.5, 0, 32, 2⟩, ⟨500, 0, 29, 0⟩] := by
    classical
    rw [removeNear_eq]
    simp only [List.mem_singleton, forall_eq, d, List.filter_cons, List.filter_nil, far1, far2, far3, near4, decide_true, decide_false,
      if_true, Bool.false_eq_true, if_false]
  have hg : Grouping [⟨0, 0, 30, 1⟩, ⟨0.5, 0, 32, 2⟩, ⟨500, 0, 29, 0⟩] [[⟨0, 0, 30, 1⟩, ⟨0.5, 0, 32, 2⟩], [⟨500, 0, 29, 0⟩]] := by
    refine Grouping.cons ⟨0, 0, 30, 1⟩ [⟨0.5, 0, 32, 2⟩] [⟨500, 0, 29, 0⟩] [[⟨500, 0, 29, 0⟩]] ?_ ?_
      (Grouping.cons ⟨500, 0, 29, 0⟩ [] [] [] (by simp) (by simp) .nil)
    · intro p hp
      obtain rfl := List.mem_singleton.mp hp
      unfold Obs.dist
      rw [Real.sqrt_lt' one_pos]; norm_num
    · intro p hp
      obtain rfl : (⟨500, 0, 29, 0⟩ : Obs) = p := by simpa using hp
      unfold Obs.dist
      rw [Real.le_sqrt' one_pos]; norm_num
  obtain ⟨rs, h1, h2⟩ := (grouping_spec hg).1 (by
    intro g hg hl o ho
    simp only [List.mem_cons, List.not_mem_nil, or_false] at hg
    rcases hg with rfl | rfl
    · simp only [List.mem_cons, List.not_mem_nil, or_false] at ho
      rcases ho with rfl | rfl <;> norm_num
    · simp at hl)
  refine ⟨rs, by unfold filterObs; rw [hrm, h1], by simpa using h2.length_eq⟩

/-! ## C52 -/

/-- C52: for a non-empty table whose rows all have `n` values (NaN = `none`) and whose columns all contain a number, there is one column of
statistics per column, each consistent with the numbers in that column. -/
theorem C52_statistics (values : List (List (Option ℝ))) (n : ℕ) (hne : values ≠ []) (hn : ∀ v ∈ values, v.length = n)
    (hc : ∀ j < n, ∃ v ∈ values, ∃ a : ℝ, v[j]? = some (some a)) :
    ∃ ss, summaryStatistics values = .ok ss ∧ ss.length = n ∧ ∀ (j : ℕ) (s : ColumnStats), ss[j]? = some s →
      ColumnOK ((values.map fun v => v.getD j none).filterMap id) s := by
  obtain ⟨v, hv⟩ : ∃ v, values[0]? = some v := ⟨values[0]'(List.length_pos_iff.mpr hne), List.getElem?_eq_getElem _⟩
  have hvn := hn v (List.mem_of_getElem? hv)
  obtain ⟨ss, h1, h2, h3⟩ := statsLoop_ok values n 0 (fun v hv => by rw [hn v hv]; omega) (by
    intro k _ hk hnil
    obtain ⟨w, hw, a, ha⟩ := hc k (by omega)
    have : a ∈ (values.map fun v => v.getD k none).filterMap id := by
      rw [List.mem_filterMap]
      refine ⟨some a, List.mem_map.mpr ⟨w, hw, ?_⟩, rfl⟩
      rw [List.getD_eq_getElem?_getD, ha]
      rfl
    rw [hnil] at this
    simp at this)
  refine ⟨ss, ?_, h2, fun j s hj => by simpa using h3 j s hj⟩
  unfold summaryStatistics
  rw [hv]
  simp only [hvn, h1]

/-- C52: a column without any number raises ValueError. -/
theorem C52_empty_column (values : List (List (Option ℝ))) (n : ℕ) (hne : values ≠ []) (hn : ∀ v ∈ values, v.length = n)
    (j : ℕ) (hj : j < n) (hc : ∀ v ∈ values, v[j]? = some none) : summaryStatistics values = .error .valueError := by
  obtain ⟨v, hv⟩ : ∃ v, values[0]? = some v := ⟨values[0]'(List.length_pos_iff.mpr hne), List.getElem?_eq_getElem _⟩
  have hvn := hn v (List.mem_of_getElem? hv)
  unfold summaryStatistics
  rw [hv]
  simp only [hvn]
  have main : ∀ m i : ℕ, i ≤ j → j < i + m → i + m ≤ n → statsLoop values m i = .error .valueError := by
    intro m
    induction m with
    | zero => intro i h1 h2; omega
    | succ m ih =>
      intro i h1 h2 h3
      unfold statsLoop
      rw [getColumn_ok i values (fun v hv => by rw [hn v hv]; omega)]
      simp only
      by_cases hij : i = j
      · subst hij
        have e : (values.map fun v => v.getD i none).filterMap id = [] := by
          rw [List.filterMap_eq_nil_iff]
          intro a ha
          obtain ⟨v, hv, rfl⟩ := List.mem_map.mp ha
          rw [List.getD_eq_getElem?_getD, hc v hv]
          rfl
        have : columnStats (values.map fun v => v.getD i none) = .error .valueError := by
          unfold columnStats
          rw [e]
          rfl
        rw [this]
      · by_cases hcol : (values.map fun v => v.getD i none).filterMap id = []
        · have : columnStats (values.map fun v => v.getD i none) = .error .valueError := by
            unfold columnStats
            rw [hcol]
            rfl
          rw [this]
        · obtain ⟨s, hs, -⟩ := columnStats_ok _ hcol
          rw [hs]
          simp only
          rw [ih (i+1) (by omega) (by omega) (by omega)]
  exact main n 0 (by omega) (by omega) (by omega)

example : ∃ ss, summaryStatistics [[some 1, none], [some 4, some 2]] = .ok ss ∧ ss.length = 2 := by
  obtain ⟨ss, h1, h2, -⟩ := C52_statistics [[some 1, none], [some 4, some 2]] 2 (by simp) (by simp) (by
    intro j hj
    refine ⟨[some 4, some 2], by simp, ?_⟩
    rcases (by omega : j = 0 ∨ j = 1) with rfl | rfl
    · exact ⟨4, rfl⟩
    · exact ⟨2, rfl⟩)
  exact ⟨ss, h1, h2⟩

end Oneka
