import Verif.Lemmas.FilterLog
import Verif.Lemmas.Returned
import Verif.Props.Utilities
import Verif.Props.Report

/-!
# C98: the log accounts for every observation
-/

namespace Oneka

open Classical in
/-- C98: whether `filter_obs` returns or raises, the log names as removed exactly the observations within `buffer` of a well (in order, each once per occurrence), each with a well that is
within `buffer` of it. Example: at the end of the file. -/
theorem C98_removed (obs : List Obs) (wells : List (ℝ × ℝ)) (buffer : ℝ) :
    (removedEntries (filterLog obs wells buffer)).map Prod.fst = obs.filter (fun o => ∃ w ∈ wells, o.dist w.1 w.2 ≤ buffer) ∧
    ∀ p ∈ removedEntries (filterLog obs wells buffer), p.2 ∈ wells ∧ p.1.dist p.2.1 p.2.2 ≤ buffer := by
  have e : removedEntries (filterLog obs wells buffer) = removedEntries (removeLog buffer wells obs) := by
    unfold filterLog
    rw [removedEntries_append, removedEntries_append]
    obtain ⟨gs, hg⟩ := grouping_exists (removeNear buffer wells obs)
    have h1 : removedEntries (mergeLog (removeNear buffer wells obs)) = [] := by
      refine List.filterMap_eq_nil_iff.mpr fun e he => ?_
      rcases mergeLog_mem hg e he with ⟨o, rfl⟩ | ⟨o, rfl⟩ <;> rfl
    have h2 : removedEntries (match filterObs obs wells buffer with
        | .error _ => []
        | .ok out => [.text "", .count out.length] ++ activeLog 0 out ++ filterNote) = [] := by
      split
      · rfl
      · rw [removedEntries_append, removedEntries_append]
        have : ∀ out, removedEntries (activeLog 0 out) = [] := fun out => by
          refine List.filterMap_eq_nil_iff.mpr fun e he => ?_
          obtain ⟨j, o, rfl⟩ := activeLog_mem he
          rfl
        rw [this]
        simp [removedEntries, filterNote]
    rw [h1]
    refine (congrArg _ h2).trans ?_
    simp
  rw [e]
  exact removed_first buffer wells obs

/-- C98: when `filter_obs` returns, the log lists, for each group of duplicates (in the order of the observations), its members and the observation that replaces them, and then the returned
observations, numbered from 0, and how many there are. With `C98_removed`: every observation appears in the log as removed, as a duplicate, or as active. Example: at the end of the file. -/
theorem C98_accounts (obs out kept : List Obs) (wells : List (ℝ × ℝ)) (buffer : ℝ) (gs : List (List Obs)) (h : filterObs obs wells buffer = .ok out)
    (hk : IsKept obs wells buffer kept) (hg : Grouping kept gs) :
    List.Forall₂ Represents out gs ∧
    duplicateEntries (filterLog obs wells buffer) = groupEntries out gs ∧
    countEntries (filterLog obs wells buffer) = [out.length] ∧
    activeEntries (filterLog obs wells buffer) = out.zipIdx.map (fun p => (p.2, p.1)) ∧
    ∀ o ∈ obs, (∃ w, (o, w) ∈ removedEntries (filterLog obs wells buffer)) ∨ .inl o ∈ duplicateEntries (filterLog obs wells buffer) ∨
      ∃ i, (i, o) ∈ activeEntries (filterLog obs wells buffer) := by
  classical
  have hrep : List.Forall₂ Represents out gs := by
    obtain ⟨kept', gs', hk', hg', -, hrep, -⟩ := C47_filter obs out wells buffer h
    obtain rfl : kept' = kept := by rw [kept_unique hk', kept_unique hk]
    obtain rfl := grouping_unique hg hg'
    exact hrep
  have hk' := hk
  obtain rfl := kept_unique hk
  have hm : mergeRuns (removeNear buffer wells obs) = .ok out := h
  have hlog : filterLog obs wells buffer = removeLog buffer wells obs ++ mergeLog (removeNear buffer wells obs) ++
      ([.text "", .count out.length] ++ activeLog 0 out ++ filterNote) := by
    unfold filterLog
    rw [h]
  have d : duplicateEntries (filterLog obs wells buffer) = groupEntries out gs := by
    rw [hlog]
    simp only [duplicateEntries_append]
    have h1 : duplicateEntries (removeLog buffer wells obs) = [] := by
      refine List.filterMap_eq_nil_iff.mpr fun e he => ?_
      obtain ⟨o, w, rfl⟩ := removeLog_mem he
      rfl
    have h2 : duplicateEntries (activeLog 0 out) = [] := by
      refine List.filterMap_eq_nil_iff.mpr fun e he => ?_
      obtain ⟨o, w, rfl⟩ := activeLog_mem he
      rfl
    rw [h1, h2, mergeLog_ok hg hm]
    simp [duplicateEntries, filterNote]
  have a : activeEntries (filterLog obs wells buffer) = out.zipIdx.map (fun p => (p.2, p.1)) := by
    rw [hlog]
    simp only [activeEntries_append]
    have h1 : activeEntries (removeLog buffer wells obs) = [] := by
      refine List.filterMap_eq_nil_iff.mpr fun e he => ?_
      obtain ⟨o, w, rfl⟩ := removeLog_mem he
      rfl
    have h2 : activeEntries (mergeLog (removeNear buffer wells obs)) = [] := by
      refine List.filterMap_eq_nil_iff.mpr fun e he => ?_
      rcases mergeLog_mem hg e he with ⟨o, rfl⟩ | ⟨o, rfl⟩ <;> rfl
    rw [h1, h2, activeLog_entries]
    simp [activeEntries, filterNote]
  refine ⟨hrep, d, ?_, a, ?_⟩
  · rw [hlog]
    simp only [countEntries_append]
    have h1 : countEntries (removeLog buffer wells obs) = [] := by
      refine List.filterMap_eq_nil_iff.mpr fun e he => ?_
      obtain ⟨o, w, rfl⟩ := removeLog_mem he
      rfl
    have h2 : countEntries (mergeLog (removeNear buffer wells obs)) = [] := by
      refine List.filterMap_eq_nil_iff.mpr fun e he => ?_
      rcases mergeLog_mem hg e he with ⟨o, rfl⟩ | ⟨o, rfl⟩ <;> rfl
    have h3 : countEntries (activeLog 0 out) = [] := by
      refine List.filterMap_eq_nil_iff.mpr fun e he => ?_
      obtain ⟨o, w, rfl⟩ := activeLog_mem he
      rfl
    rw [h1, h2, h3]
    simp [countEntries, filterNote]
  · intro o ho
    by_cases hn : ∃ w ∈ wells, o.dist w.1 w.2 ≤ buffer
    · left
      have hmem : o ∈ (removedEntries (filterLog obs wells buffer)).map Prod.fst := by
        rw [(C98_removed obs wells buffer).1]
        exact List.mem_filter.mpr ⟨ho, by simpa using hn⟩
      obtain ⟨⟨o', w⟩, hp, rfl⟩ := List.mem_map.mp hmem
      exact ⟨w, hp⟩
    · right
      have hok : o ∈ removeNear buffer wells obs := by
        rw [removeNear_eq]
        refine List.mem_filter.mpr ⟨ho, ?_⟩
        simp only [decide_eq_true_eq]
        intro w hw
        by_contra hc
        exact hn ⟨w, hw, not_lt.mp hc⟩
      rw [← grouping_flatten hg] at hok
      obtain ⟨g, hgm, hog⟩ := List.mem_flatten.mp hok
      obtain ⟨i, hi, rfl⟩ := List.mem_iff_getElem.mp hgm
      have hio : i < out.length := by rw [hrep.length_eq]; exact hi
      have hr := hrep.get hio hi
      simp only [List.get_eq_getElem] at hr
      by_cases hl : 1 < (gs[i]).length
      · left
        rw [d]
        unfold groupEntries
        refine List.mem_flatMap.mpr ⟨(out[i], gs[i]), List.mem_filter.mpr ⟨?_, by simpa using hl⟩, by simp [hog]⟩
        exact List.mem_iff_getElem.mpr ⟨i, by simp [hio, hi], by simp⟩
      · right
        obtain ⟨o', ho'⟩ : ∃ o', gs[i] = [o'] := by
          cases hgi : gs[i] with
          | nil => rw [hgi] at hog; simp at hog
          | cons b t =>
            cases t with
            | nil => exact ⟨b, rfl⟩
            | cons => rw [hgi] at hl; simp at hl
        rw [ho'] at hog
        obtain rfl := List.mem_singleton.mp hog
        refine ⟨i, ?_⟩
        rw [a]
        refine List.mem_map.mpr ⟨(out[i], i), ?_, by rw [hr.single o ho']⟩
        exact List.mk_mem_zipIdx_iff_getElem?.mpr (by simp)

/-- C98: when `filter_obs` raises, nothing is reported as active, and the log ends in the group with the culprit: what was logged of the duplicates is complete for the groups before it, followed by the
members of the group that come before its first observation with zero standard deviation. Example: at the end of the file. -/
theorem C98_raises (obs kept : List Obs) (wells : List (ℝ × ℝ)) (buffer : ℝ) (gs : List (List Obs)) (e : PyErr) (h : filterObs obs wells buffer = .error e)
    (hk : IsKept obs wells buffer kept) (hg : Grouping kept gs) :
    activeEntries (filterLog obs wells buffer) = [] ∧
    ∃ gs₁ g gs₂ rs pre o post, gs = gs₁ ++ g :: gs₂ ∧ List.Forall₂ Represents rs gs₁ ∧ 1 < g.length ∧ g = pre ++ o :: post ∧ o.std = 0 ∧
      (∀ p ∈ pre, p.std ≠ 0) ∧ duplicateEntries (filterLog obs wells buffer) = groupEntries rs gs₁ ++ pre.map .inl := by
  obtain rfl := kept_unique hk
  have hm : mergeRuns (removeNear buffer wells obs) = .error e := h
  have hlog : filterLog obs wells buffer = removeLog buffer wells obs ++ mergeLog (removeNear buffer wells obs) := by
    unfold filterLog
    rw [h]
    simp
  rw [hlog]
  simp only [activeEntries_append, duplicateEntries_append]
  have h1 : activeEntries (removeLog buffer wells obs) = [] := by
    refine List.filterMap_eq_nil_iff.mpr fun e he => ?_
    obtain ⟨o, w, rfl⟩ := removeLog_mem he
    rfl
  have h2 : activeEntries (mergeLog (removeNear buffer wells obs)) = [] := by
    refine List.filterMap_eq_nil_iff.mpr fun e he => ?_
    rcases mergeLog_mem hg e he with ⟨o, rfl⟩ | ⟨o, rfl⟩ <;> rfl
  have h3 : duplicateEntries (removeLog buffer wells obs) = [] := by
    refine List.filterMap_eq_nil_iff.mpr fun e he => ?_
    obtain ⟨o, w, rfl⟩ := removeLog_mem he
    rfl
  refine ⟨by rw [h1, h2]; rfl, ?_⟩
  rw [h3]
  exact mergeLog_error hg hm

/-- C98: what a call that returns has logged about the observations is this account of the given observations, wells and buffer distance, and the observations it reports as active are those
that the fits and figures use. Example: `Props/Examples.lean` (a call that returns). -/
theorem C98_call (a : PyArgs) (n : Inputs) (env : CallEnv) (v : PyVal) (hd : a.Denotes n) (h : (oneka a env).ending = .returns v) :
    filterLines (oneka a env).events = filterLog n.run.obs (n.run.wells.map fun w => (w.xw, w.yw)) n.buffer ∧
    ∃ out cols, filterObs n.run.obs (n.run.wells.map fun w => (w.xw, w.yw)) n.buffer = .ok out ∧
      activeEntries (filterLines (oneka a env).events) = out.zipIdx.map (fun p => (p.2, p.1)) ∧
      summaries (oneka a env).events = [cols] ∧ SummaryOf out cols ∧
      ∀ f ∈ figures (oneka a env).events, (∀ pl, f = .probability pl → pl.marks.obs = out.map fun o => (o.x, o.y)) ∧
        ∀ pl, f = .deterministic pl → pl.marks.obs = out.map fun o => (o.x, o.y) := by
  have key : filterLines (oneka a env).events = filterLog n.run.obs (n.run.wells.map fun w => (w.xw, w.yw)) n.buffer := by
    rcases returned_cases hd h with ⟨-, obs, cols, r, f, pl, im, lines, H⟩ | ⟨-, obs, cols, r, f, pl, H⟩
    · exact H.filterLines_eq
    · exact H.filterLines_eq
  refine ⟨key, ?_⟩
  rw [key]
  have act : ∀ out, filterObs n.run.obs (n.run.wells.map fun w => (w.xw, w.yw)) n.buffer = .ok out →
      activeEntries (filterLog n.run.obs (n.run.wells.map fun w => (w.xw, w.yw)) n.buffer) = out.zipIdx.map (fun p => (p.2, p.1)) := by
    intro out ho
    obtain ⟨kept, gs, ⟨hk, hg⟩, -⟩ := C51_groups n.run.obs (n.run.wells.map fun w => (w.xw, w.yw)) n.buffer
    exact (C98_accounts _ _ _ _ _ _ ho hk hg).2.2.2.1
  by_cases h1 : 1 < n.nrealizations
  · obtain ⟨d, f, obs, k, t, cols, pl, g, pts, -, -, ho, -, -, hs, hso, hf, -, -, -, -, -, hm, -⟩ := C69_stochastic a n env v hd h1 h (fun _ => none)
    refine ⟨obs, cols, ho, act obs ho, hs, hso, ?_⟩
    rw [hf]
    intro f hf
    constructor
    · rintro pl' rfl
      obtain rfl : pl' = pl := by simpa using hf
      rw [hm]
    · rintro pl' rfl
      simp at hf
  · obtain ⟨d, f, obs, k, t, cols, pl, A, -, -, ho, -, -, hs, hso, hf, -, hm, -⟩ := C69_deterministic a n env v hd (by omega) h (fun _ => none)
    refine ⟨obs, cols, ho, act obs ho, hs, hso, ?_⟩
    rw [hf]
    intro f hf
    constructor
    · rintro pl' rfl
      simp at hf
    · rintro pl' rfl
      obtain rfl : pl' = pl := by simpa using hf
      rw [hm]

/-- one observation that is too close to the well, two duplicates, one observation elsewhere: an observation is removed and a group has two members -/
example : (∃ o ∈ [(⟨0, 0, 30, 1⟩ : Obs), ⟨0.5, 0, 32, 2⟩, ⟨500, 0, 29, 0⟩, ⟨100, 0, 10, 1⟩], ∃ w ∈ [((100:ℝ), (0:ℝ))], o.dist w.1 w.2 ≤ 50) ∧
    Grouping [⟨0, 0, 30, 1⟩, ⟨0.5, 0, 32, 2⟩, ⟨500, 0, 29, 0⟩] [[⟨0, 0, 30, 1⟩, ⟨0.5, 0, 32, 2⟩], [⟨500, 0, 29, 0⟩]] := by
  constructor
  · refine ⟨⟨100, 0, 10, 1⟩, by simp, (100, 0), by simp, ?_⟩
    norm_num [Obs.dist]
  · refine Grouping.cons ⟨0, 0, 30, 1⟩ [⟨0.5, 0, 32, 2⟩] [⟨500, 0, 29, 0⟩] [[⟨500, 0, 29, 0⟩]] ?_ ?_
      (Grouping.cons ⟨500, 0, 29, 0⟩ [] [] [] (by simp) (by simp) .nil)
    · intro p hp
      obtain rfl := List.mem_singleton.mp hp
      unfold Obs.dist
      rw [Real.sqrt_lt' one_pos]; norm_num
    · intro p hp
      obtain rfl : (⟨500, 0, 29, 0⟩ : Obs) = p := by simpa using hp
      unfold Obs.dist
      rw [Real.le_sqrt' one_pos]; norm_num

/-- two duplicates, the second with zero standard deviation: `filter_obs` raises -/
example : filterObs [⟨0, 0, 30, 1⟩, ⟨0.5, 0, 32, 0⟩] [] 50 = .error .zeroDivisionError := by
  have hg : Grouping [⟨0, 0, 30, 1⟩, ⟨0.5, 0, 32, 0⟩] [[⟨0, 0, 30, 1⟩, ⟨0.5, 0, 32, 0⟩]] := by
    refine Grouping.cons ⟨0, 0, 30, 1⟩ [⟨0.5, 0, 32, 0⟩] [] [] ?_ (by simp) .nil
    intro p hp
    obtain rfl := List.mem_singleton.mp hp
    unfold Obs.dist
    rw [Real.sqrt_lt' one_pos]; norm_num
  have hk : IsKept [⟨0, 0, 30, 1⟩, ⟨0.5, 0, 32, 0⟩] [] 50 [⟨0, 0, 30, 1⟩, ⟨0.5, 0, 32, 0⟩] := ⟨List.Sublist.refl _, fun _ => true, rfl, by simp⟩
  exact (C51_error _ _ _ _ _ hk hg _).mpr ⟨rfl, _, List.mem_singleton_self _, Nat.lt_succ_self 1, ⟨0.5, 0, 32, 0⟩, by simp, rfl⟩

end Oneka
