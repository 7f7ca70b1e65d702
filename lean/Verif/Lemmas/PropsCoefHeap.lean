import Verif.Model.CoefHeap
import Verif.Tac
import Verif.Spec.CoefHeap

/-!
# Lemmas for Props/CoefHeap.lean
-/

namespace Oneka

theorem reshape6_spec (c : List ℝ) : (c.length ≠ 6 → reshape6 c = .error .valueError) ∧
    (c.length = 6 → ∃ v, reshape6 c = .ok v ∧ List.ofFn v = c) := by
  constructor
  · intro h
    unfold reshape6
    split
    · simp at h
    · rfl
  · intro h
    match c, h with
    | [a, b, d, e, f, g], _ => exact ⟨_, rfl, by simp [List.ofFn_succ]⟩

namespace Mem

/-- every model refers to an allocated buffer -/
def WF (s : Mem) : Prop := 0 < s.next ∧ ∀ a ∈ s.models, a < s.next

theorem step_wf {s : Mem} (h : s.WF) (op : MemOp) : (s.step op).1.WF := by
  obtain ⟨h0, hm⟩ := h
  cases op with
  | newDefault =>
    refine ⟨h0, fun a ha => ?_⟩
    simp only [step, List.mem_append, List.mem_singleton] at ha
    rcases ha with ha | rfl
    · exact hm a ha
    · exact h0
  | newWith c =>
    simp only [step]
    cases reshape6 c with
    | error e => exact ⟨h0, hm⟩
    | ok c =>
      refine ⟨Nat.succ_pos _, fun a ha => ?_⟩
      simp only [alloc, List.mem_append, List.mem_singleton] at ha ⊢
      rcases ha with ha | rfl
      · exact Nat.lt_succ_of_lt (hm a ha)
      · exact Nat.lt_succ_self _
  | newFrom i =>
    simp only [step]
    cases hi : s.models[i]? with
    | none => exact ⟨h0, hm⟩
    | some b =>
      refine ⟨h0, fun a ha => ?_⟩
      simp only [List.mem_append, List.mem_singleton] at ha
      rcases ha with ha | rfl
      · exact hm a ha
      · exact hm a (List.mem_of_getElem? hi)
  | assign i c =>
    simp only [step]
    cases hi : s.models[i]? with
    | none => exact ⟨h0, hm⟩
    | some b =>
      simp only
      cases reshape6 c with
      | error e => exact ⟨h0, hm⟩
      | ok c =>
        refine ⟨Nat.succ_pos _, fun a ha => ?_⟩
        simp only [alloc] at ha ⊢
        rcases List.mem_or_eq_of_mem_set ha with ha | rfl
        · exact Nat.lt_succ_of_lt (hm a ha)
        · exact Nat.lt_succ_self _
  | assignFrom i j =>
    simp only [step]
    cases hi : s.models[i]? with
    | none => exact ⟨h0, hm⟩
    | some b =>
      cases hj : s.models[j]? with
      | none => exact ⟨h0, hm⟩
      | some a =>
        refine ⟨h0, fun a' ha => ?_⟩
        rcases List.mem_or_eq_of_mem_set ha with ha | rfl
        · exact hm a' ha
        · exact hm a' (List.mem_of_getElem? hj)
  | setItem i k v =>
    simp only [step]
    cases hi : s.models[i]? with
    | none => exact ⟨h0, hm⟩
    | some b => exact ⟨h0, hm⟩

theorem run_wf {s : Mem} (h : s.WF) (ops : List MemOp) : (s.run ops).WF := by
  induction ops generalizing s with
  | nil => exact h
  | cons op ops ih => exact ih (step_wf h op)

theorem init_wf : init.WF := ⟨Nat.one_pos, by simp [init]⟩

theorem step_default {s : Mem} (h : s.WF) {op : MemOp} (hc : ¬ s.EditsDefault op) : (s.step op).1.buf 0 = s.buf 0 := by
  have h0 := h.1
  cases op with
  | newDefault => rfl
  | newWith c =>
    simp only [step]
    cases reshape6 c with
    | error e => rfl
    | ok c => exact if_neg (by omega)
  | newFrom i => simp only [step]; cases s.models[i]? <;> rfl
  | assign i c =>
    simp only [step]
    cases s.models[i]? with
    | none => rfl
    | some b =>
      simp only
      cases reshape6 c with
      | error e => rfl
      | ok c => exact if_neg (by omega)
  | assignFrom i j => simp only [step]; cases s.models[i]? <;> cases s.models[j]? <;> rfl
  | setItem i k v =>
    simp only [step]
    cases hi : s.models[i]? with
    | none => rfl
    | some a =>
      have : a ≠ 0 := by
        rintro rfl
        exact hc hi
      funext j
      exact if_neg (fun h => this h.1.symm)

theorem run_default {s : Mem} (h : s.WF) (ops : List MemOp) (hc : Careful s ops) : (s.run ops).buf 0 = s.buf 0 := by
  induction ops generalizing s with
  | nil => rfl
  | cons op ops ih => exact (ih (step_wf h op) hc.2).trans (step_default h hc.1)

end Mem

open Mem

end Oneka
