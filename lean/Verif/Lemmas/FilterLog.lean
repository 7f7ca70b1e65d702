import Verif.Lemmas.PropsUtilities
import Verif.Spec.FilterLog

/-!
# Lemmas for Props/FilterLog.lean
-/

namespace Oneka

section
variable (l l' : List FilterLine)
theorem removedEntries_append : removedEntries (l ++ l') = removedEntries l ++ removedEntries l' := List.filterMap_append
theorem duplicateEntries_append : duplicateEntries (l ++ l') = duplicateEntries l ++ duplicateEntries l' := List.filterMap_append
theorem activeEntries_append : activeEntries (l ++ l') = activeEntries l ++ activeEntries l' := List.filterMap_append
theorem countEntries_append : countEntries (l ++ l') = countEntries l ++ countEntries l' := List.filterMap_append
end

theorem nearWell_none {buffer : ℝ} {o : Obs} {ws : List (ℝ × ℝ)} : nearWell buffer o ws = none ↔ ∀ w ∈ ws, buffer < o.dist w.1 w.2 := by
  induction ws with
  | nil => simp [nearWell]
  | cons w ws ih =>
    unfold nearWell
    rw [hypot_dist]
    split
    · rename_i h
      simp only [reduceCtorEq, List.mem_cons, forall_eq_or_imp, false_iff, not_and_or, not_lt]
      exact Or.inl h
    · rename_i h
      rw [ih]
      simp [not_le.mp h]

theorem nearWell_some {buffer : ℝ} {o : Obs} {ws : List (ℝ × ℝ)} {w : ℝ × ℝ} (h : nearWell buffer o ws = some w) :
    w ∈ ws ∧ o.dist w.1 w.2 ≤ buffer := by
  induction ws with
  | nil => simp [nearWell] at h
  | cons v ws ih =>
    unfold nearWell at h
    rw [hypot_dist] at h
    split at h
    · rename_i hv
      obtain rfl := Option.some.inj h
      exact ⟨by simp, hv⟩
    · exact ⟨List.mem_cons_of_mem _ (ih h).1, (ih h).2⟩

/-- the first loop logs removals only -/
theorem removeLog_mem {buffer : ℝ} {ws : List (ℝ × ℝ)} {obs : List Obs} {e : FilterLine} (h : e ∈ removeLog buffer ws obs) : ∃ o w, e = .removed o w := by
  induction obs with
  | nil => simp [removeLog] at h
  | cons o os ih =>
    unfold removeLog at h
    split at h
    · exact ih h
    · rcases List.mem_cons.mp h with rfl | h
      · exact ⟨_, _, rfl⟩
      · exact ih h

open Classical in
theorem removed_first (buffer : ℝ) (ws : List (ℝ × ℝ)) (obs : List Obs) :
    (removedEntries (removeLog buffer ws obs)).map Prod.fst = obs.filter (fun o => ∃ w ∈ ws, o.dist w.1 w.2 ≤ buffer) ∧
    ∀ p ∈ removedEntries (removeLog buffer ws obs), p.2 ∈ ws ∧ p.1.dist p.2.1 p.2.2 ≤ buffer := by
  induction obs with
  | nil => simp [removeLog, removedEntries]
  | cons o os ih =>
    unfold removeLog
    cases hw : nearWell buffer o ws with
    | none =>
      have hn := nearWell_none.mp hw
      rw [List.filter_cons_of_neg (by simpa using hn)]
      exact ih
    | some w =>
      obtain ⟨h1, h2⟩ := nearWell_some hw
      rw [List.filter_cons_of_pos (by simpa using ⟨w.1, w.2, h1, h2⟩)]
      have : removedEntries (.removed o w :: removeLog buffer ws os) = (o, w) :: removedEntries (removeLog buffer ws os) := rfl
      simp only [this, List.map_cons, ih.1, List.mem_cons, forall_eq_or_imp, true_and]
      exact ⟨⟨h1, h2⟩, ih.2⟩

theorem mergeLog_cons (o : Obs) (os rest : List Obs) (h1 : ∀ p ∈ os, o.dist p.x p.y < 1) (h2 : ∀ p ∈ rest.head?, 1 ≤ o.dist p.x p.y) :
    mergeLog (o :: os ++ rest) = match mergeGroup o os with
      | .error _ => groupLog o os
      | .ok _ => groupLog o os ++ mergeLog rest := by
  have hp : ∀ p ∈ os, decide (hypot (o.x - p.x) (o.y - p.y) < 1) = true := by
    intro p hp; rw [hypot_dist]; simpa using h1 p hp
  have e1 : (os ++ rest).takeWhile (fun p => decide (hypot (o.x - p.x) (o.y - p.y) < 1)) = os := by
    rw [List.takeWhile_append_of_pos hp]
    cases rest with
    | nil => simp
    | cons p ps =>
      have := h2 p (by simp)
      rw [List.takeWhile_cons_of_neg (by rw [hypot_dist]; simpa using this)]
      simp
  have e2 : (os ++ rest).dropWhile (fun p => decide (hypot (o.x - p.x) (o.y - p.y) < 1)) = rest := by
    rw [List.dropWhile_append_of_pos hp]
    cases rest with
    | nil => simp
    | cons p ps =>
      have := h2 p (by simp)
      rw [List.dropWhile_cons_of_neg (by rw [hypot_dist]; simpa using this)]
  rw [List.cons_append, mergeLog, e1, e2]
  cases mergeGroup o os <;> rfl

theorem accumulateLog_all {l : List Obs} (h : ∀ o ∈ l, o.std ≠ 0) : accumulateLog l = l.map .duplicate := by
  induction l with
  | nil => rfl
  | cons o os ih => rw [accumulateLog, if_neg (pow_ne_zero 2 (h o (by simp))), ih fun p hp => h p (by simp [hp])]; rfl

theorem accumulateLog_stops {l : List Obs} (h : ∃ o ∈ l, o.std = 0) :
    ∃ pre o post, l = pre ++ o :: post ∧ o.std = 0 ∧ (∀ p ∈ pre, p.std ≠ 0) ∧ accumulateLog l = pre.map .duplicate := by
  induction l with
  | nil => simp at h
  | cons o os ih =>
    by_cases h0 : o.std = 0
    · exact ⟨[], o, os, rfl, h0, by simp, by rw [accumulateLog, if_pos (by rw [h0]; simp)]; rfl⟩
    · obtain ⟨p, hp, hp0⟩ := h
      rcases List.mem_cons.mp hp with rfl | hp
      · exact absurd hp0 h0
      · obtain ⟨pre, q, post, e, q0, hpre, hl⟩ := ih ⟨p, hp, hp0⟩
        refine ⟨o :: pre, q, post, by rw [e]; rfl, q0, ?_, ?_⟩
        · intro r hr
          rcases List.mem_cons.mp hr with rfl | hr
          · exact h0
          · exact hpre r hr
        · rw [accumulateLog, if_neg (pow_ne_zero 2 h0), hl]; rfl

theorem duplicateEntries_map (l : List Obs) : duplicateEntries (l.map .duplicate) = l.map .inl := by
  unfold duplicateEntries
  rw [List.filterMap_map]
  induction l with
  | nil => rfl
  | cons o os ih => rw [List.filterMap_cons, ih]; rfl

/-- the second loop logs duplicates and averages only -/
theorem groupLog_mem {o : Obs} {os : List Obs} {e : FilterLine} (h : e ∈ groupLog o os) : (∃ o, e = .duplicate o) ∨ ∃ o, e = .averaged o := by
  have hacc : ∀ l : List Obs, ∀ e ∈ accumulateLog l, ∃ o, e = .duplicate o := by
    intro l
    induction l with
    | nil => simp [accumulateLog]
    | cons o os ih =>
      intro e he
      rw [accumulateLog] at he
      split at he
      · simp at he
      · rcases List.mem_cons.mp he with rfl | he
        · exact ⟨_, rfl⟩
        · exact ih e he
  unfold groupLog at h
  split at h
  · simp at h
  · split at h
    · exact .inl (hacc _ _ h)
    · rcases List.mem_append.mp h with h | h
      · exact .inl (hacc _ _ h)
      · exact .inr ⟨_, by simpa using h⟩

theorem mergeLog_mem {l : List Obs} {gs : List (List Obs)} (hg : Grouping l gs) : ∀ e ∈ mergeLog l, (∃ o, e = .duplicate o) ∨ ∃ o, e = .averaged o := by
  induction hg with
  | nil => intro e h; rw [mergeLog] at h; simp at h
  | cons o os rest gs h1 h2 _ ih =>
    intro e h
    rw [mergeLog_cons o os rest h1 h2] at h
    split at h
    · exact groupLog_mem h
    · rcases List.mem_append.mp h with h | h
      · exact groupLog_mem h
      · exact ih e h

theorem groupEntries_cons (r : Obs) (rs : List Obs) (g : List Obs) (gs : List (List Obs)) :
    groupEntries (r :: rs) (g :: gs) = (if 1 < g.length then g.map .inl ++ [.inr r] else []) ++ groupEntries rs gs := by
  unfold groupEntries
  rw [List.zip_cons_cons, List.filter_cons]
  by_cases h : 1 < g.length
  · simp [h]
  · simp [h]

/-- what is logged about a group that is merged -/
theorem groupLog_ok {o : Obs} {os : List Obs} {r : Obs} (h : mergeGroup o os = .ok r) :
    duplicateEntries (groupLog o os) = if 1 < (o :: os).length then (o :: os).map .inl ++ [.inr r] else [] := by
  unfold groupLog
  by_cases hos : os = []
  · subst hos; simp [duplicateEntries]
  · have hl : 1 < (o :: os).length := by
      cases os with
      | nil => exact absurd rfl hos
      | cons => simp
    have hz : ∀ p ∈ o :: os, p.std ≠ 0 := by
      intro p hp h0
      rw [(mergeGroup_spec o os).2 ⟨hos, p, hp, h0⟩] at h
      simp at h
    rw [if_neg hos, h, if_pos hl]
    simp only
    rw [duplicateEntries_append, accumulateLog_all hz, duplicateEntries_map]
    rfl

theorem mergeLog_ok {l : List Obs} {gs : List (List Obs)} (hg : Grouping l gs) {rs : List Obs} (h : mergeRuns l = .ok rs) :
    duplicateEntries (mergeLog l) = groupEntries rs gs := by
  induction hg generalizing rs with
  | nil =>
    rw [mergeLog]
    simp [groupEntries, duplicateEntries]
  | cons o os rest gs h1 h2 _ ih =>
    rw [mergeRuns_cons o os rest h1 h2] at h
    rw [mergeLog_cons o os rest h1 h2]
    cases hm : mergeGroup o os with
    | error e => rw [hm] at h; simp at h
    | ok r =>
      rw [hm] at h
      simp only at h ⊢
      cases hr : mergeRuns rest with
      | error e => rw [hr] at h; simp at h
      | ok rs' =>
        rw [hr] at h
        obtain rfl := Except.ok.inj h
        rw [duplicateEntries_append, groupLog_ok hm, ih hr, groupEntries_cons]

theorem mergeLog_error {l : List Obs} {gs : List (List Obs)} (hg : Grouping l gs) {e : PyErr} (h : mergeRuns l = .error e) :
    ∃ gs₁ g gs₂ rs pre o post, gs = gs₁ ++ g :: gs₂ ∧ List.Forall₂ Represents rs gs₁ ∧ 1 < g.length ∧ g = pre ++ o :: post ∧ o.std = 0 ∧
      (∀ p ∈ pre, p.std ≠ 0) ∧ duplicateEntries (mergeLog l) = groupEntries rs gs₁ ++ pre.map .inl := by
  induction hg with
  | nil => rw [mergeRuns] at h; simp at h
  | cons o os rest gs h1 h2 hgr ih =>
    rw [mergeRuns_cons o os rest h1 h2] at h
    rw [mergeLog_cons o os rest h1 h2]
    cases hm : mergeGroup o os with
    | error e' =>
      have hos : os ≠ [] := by
        rintro rfl
        unfold mergeGroup at hm
        simp at hm
      have hz : ∃ p ∈ o :: os, p.std = 0 := by
        by_contra hc
        obtain ⟨r, hr, -⟩ := (mergeGroup_spec o os).1 (.inr fun p hp h0 => hc ⟨p, hp, h0⟩)
        rw [hr] at hm; simp at hm
      obtain ⟨pre, q, post, e1, q0, hpre, e2⟩ := accumulateLog_stops hz
      refine ⟨[], o :: os, gs, [], pre, q, post, rfl, .nil, ?_, e1, q0, hpre, ?_⟩
      · cases os with
        | nil => exact absurd rfl hos
        | cons => simp
      · simp only
        unfold groupLog
        rw [if_neg hos, hm]
        simp only
        rw [e2, duplicateEntries_map]
        rfl
    | ok r =>
      rw [hm] at h
      simp only at h ⊢
      cases hr : mergeRuns rest with
      | ok rs' => rw [hr] at h; simp at h
      | error e' =>
        rw [hr] at h
        obtain ⟨gs₁, g, gs₂, rs, pre, q, post, e1, hrep, hl, e2, q0, hpre, e3⟩ := ih (by rw [hr]; simpa using h)
        have hrr : Represents r (o :: os) := by
          obtain ⟨r', hr', hrep'⟩ := (mergeGroup_spec o os).1 (by
            by_cases hos : os = []
            · exact Or.inl hos
            · right
              intro p hp h0
              rw [(mergeGroup_spec o os).2 ⟨hos, p, hp, h0⟩] at hm
              simp at hm)
          rw [hm] at hr'
          obtain rfl := Except.ok.inj hr'
          exact hrep'
        refine ⟨(o :: os) :: gs₁, g, gs₂, r :: rs, pre, q, post, by rw [e1]; rfl, .cons hrr hrep, hl, e2, q0, hpre, ?_⟩
        rw [duplicateEntries_append, groupLog_ok hm, e3, groupEntries_cons, List.append_assoc]

theorem activeLog_entries (i : ℕ) (l : List Obs) : activeEntries (activeLog i l) = (l.zipIdx i).map fun p => (p.2, p.1) := by
  induction l generalizing i with
  | nil => rfl
  | cons o os ih => rw [List.zipIdx_cons, List.map_cons, ← ih]; rfl

theorem activeLog_mem {i : ℕ} {l : List Obs} {e : FilterLine} (h : e ∈ activeLog i l) : ∃ j o, e = .active j o := by
  induction l generalizing i with
  | nil => simp [activeLog] at h
  | cons o os ih =>
    rcases List.mem_cons.mp h with rfl | h
    · exact ⟨_, _, rfl⟩
    · exact ih h

end Oneka
