import Verif.Lemmas.PropsCoefHeap

/-!
# C63: the coefficients of different models

`s.coef i` is what reading `coef` of the `i`-th constructed model shows.
-/

namespace Oneka

namespace Mem

end Mem

open Mem

/-- C63: in the constructor and in the setter a coefficient list is accepted iff it has exactly six entries, otherwise ValueError and no
effect; an accepted one is what is read afterwards. -/
theorem C63_six_entries (s : Mem) (c : List ℝ) (i : ℕ) (hi : i < s.models.length) :
    (c.length ≠ 6 → s.step (.newWith c) = (s, .error .valueError) ∧ s.step (.assign i c) = (s, .error .valueError)) ∧
    (c.length = 6 → (s.step (.newWith c)).2 = .ok () ∧ (s.step (.assign i c)).2 = .ok () ∧
      (∃ v, (s.step (.newWith c)).1.coef s.models.length = some v ∧ List.ofFn v = c) ∧
      (∃ v, (s.step (.assign i c)).1.coef i = some v ∧ List.ofFn v = c)) := by
  have hm : s.models[i]? = some s.models[i] := List.getElem?_eq_getElem hi
  constructor
  · intro hc
    have : reshape6 c = .error .valueError := by
      unfold reshape6
      split
      · simp at hc
      · rfl
    simp only [step, this, hm, and_self]
  · intro hc
    obtain ⟨a0, a1, a2, a3, a4, a5, rfl⟩ : ∃ a0 a1 a2 a3 a4 a5, c = [a0, a1, a2, a3, a4, a5] := by
      match c, hc with
      | [a0, a1, a2, a3, a4, a5], _ => exact ⟨a0, a1, a2, a3, a4, a5, rfl⟩
    have : reshape6 [a0, a1, a2, a3, a4, a5] = .ok ![a0, a1, a2, a3, a4, a5] := rfl
    refine ⟨by simp [step, this], by simp [step, this, hm], ⟨![a0, a1, a2, a3, a4, a5], ?_, ?_⟩,
      ⟨![a0, a1, a2, a3, a4, a5], ?_, ?_⟩⟩
    · simp [step, this, coef, alloc]
    · simp [List.ofFn_succ]
    · simp [step, this, hm, coef, alloc, List.getElem?_set_self hi]
    · simp [List.ofFn_succ]

/-- C63: the constructor takes exactly the lists of six coefficients, and stores every argument under its own name. -/
theorem C63_constructor (base conductivity porosity thickness xo yo : ℝ) (wells : List (Well ℝ)) (c : List ℝ) :
    (c.length ≠ 6 → Aquifer.new base conductivity porosity thickness wells xo yo c = .error .valueError) ∧
    (c.length = 6 → ∃ m, Aquifer.new base conductivity porosity thickness wells xo yo c = .ok m ∧ List.ofFn m.coef = c ∧ m.base = base ∧
      m.conductivity = conductivity ∧ m.porosity = porosity ∧ m.thickness = thickness ∧ m.wells = wells ∧ m.xo = xo ∧ m.yo = yo) := by
  obtain ⟨h1, h2⟩ := reshape6_spec c
  refine ⟨fun h => ?_, fun h => ?_⟩
  · unfold Aquifer.new; rw [h1 h]
  · obtain ⟨v, hv, he⟩ := h2 h
    exact ⟨_, by unfold Aquifer.new; rw [hv], he, rfl, rfl, rfl, rfl, rfl, rfl, rfl⟩

/-- C63: assigning to `coef` takes exactly the lists of six coefficients, and changes nothing but the coefficients. -/
theorem C63_setter (m : Aquifer ℝ) (c : List ℝ) :
    (c.length ≠ 6 → m.setCoef c = .error .valueError) ∧
    (c.length = 6 → ∃ m', m.setCoef c = .ok m' ∧ List.ofFn m'.coef = c ∧ m'.base = m.base ∧ m'.conductivity = m.conductivity ∧
      m'.porosity = m.porosity ∧ m'.thickness = m.thickness ∧ m'.wells = m.wells ∧ m'.xo = m.xo ∧ m'.yo = m.yo) := by
  obtain ⟨h1, h2⟩ := reshape6_spec c
  refine ⟨fun h => ?_, fun h => ?_⟩
  · unfold Aquifer.setCoef; rw [h1 h]
  · obtain ⟨v, hv, he⟩ := h2 h
    exact ⟨{ m with coef := v }, by unfold Aquifer.setCoef; rw [hv], he, rfl, rfl, rfl, rfl, rfl, rfl, rfl⟩

example : ([1, 2, 3, 4, 5, 6] : List ℝ).length = 6 ∧ ([1, 2, 3] : List ℝ).length ≠ 6 := by simp

/-- C63: constructing, assigning and fitting (everything but in-place edits) never change what any other model shows. -/
theorem C63_frame (ops : List MemOp) (op : MemOp) (hop : ∀ i k v, op ≠ .setItem i k v) (j : ℕ) (v : Fin 6 → ℝ)
    (hj : (init.run ops).coef j = some v) (hne : ∀ c k, op ≠ .assign j c ∧ op ≠ .assignFrom j k) :
    ((init.run ops).step op).1.coef j = some v := by
  have hwf := run_wf init_wf ops
  set s := init.run ops
  obtain ⟨a, ha, rfl⟩ : ∃ a, s.models[j]? = some a ∧ s.buf a = v := by simpa [coef] using hj
  have hlt : a < s.next := hwf.2 a (List.mem_of_getElem? ha)
  have hjl : j < s.models.length := (List.getElem?_eq_some_iff.mp ha).1
  cases op with
  | newDefault => simp [step, coef, List.getElem?_append_left hjl, ha]
  | newWith c =>
    simp only [step]
    cases reshape6 c with
    | error e => simpa [coef] using hj
    | ok c => simp [coef, List.getElem?_append_left hjl, ha, alloc, Nat.ne_of_lt hlt]
  | newFrom i =>
    simp only [step]
    cases s.models[i]? with
    | none => simpa [coef] using hj
    | some b => simp [coef, List.getElem?_append_left hjl, ha]
  | assign i c =>
    have hij : i ≠ j := fun e => (hne c 0).1 (by rw [e])
    simp only [step]
    cases s.models[i]? with
    | none => simpa [coef] using hj
    | some b =>
      simp only
      cases reshape6 c with
      | error e => simpa [coef] using hj
      | ok c => simp [coef, List.getElem?_set_ne hij, ha, alloc, Nat.ne_of_lt hlt]
  | assignFrom i k =>
    have hij : i ≠ j := fun e => (hne [] k).2 (by rw [e])
    simp only [step]
    cases s.models[i]? with
    | none => simpa [coef] using hj
    | some b =>
      cases s.models[k]? with
      | none => simpa [coef] using hj
      | some c => simp [coef, List.getElem?_set_ne hij, ha]
  | setItem i k v => exact absurd rfl (hop i k v)

/-- C63, the part that holds: a model built without coefficients starts with six zeros, provided no client edited
in place the coefficients of a model that still has (a view of) the default array. Missing: histories with such edits, where the claim is false (next theorem). -/
theorem C63_default_zero_partial (ops : List MemOp) (hc : Careful init ops) :
    ((init.run ops).step .newDefault).1.coef (init.run ops).models.length = some (fun _ => 0) := by
  have := run_default init_wf ops hc
  simp only [step, coef, List.getElem?_append_right le_rfl, Nat.sub_self, List.getElem?_cons_zero, Option.map_some]
  rw [this]
  rfl

/-- C63 fails: after any history, one in-place edit of a freshly built model changes the coefficients of every model built later without
coefficients. -/
theorem C63_fails_for_in_place_edits (ops : List MemOp) (k : Fin 6) (v : ℝ) :
    let n := (init.run ops).models.length
    ∃ c, (init.run (ops ++ [.newDefault, .setItem n k v, .newDefault])).coef (n + 1) = some c ∧ c k = v := by
  have run_append : ∀ (s : Mem) (a b : List MemOp), s.run (a ++ b) = (s.run a).run b := by
    intro s a b
    induction a generalizing s with
    | nil => rfl
    | cons op a ih => exact ih _
  intro n
  rw [run_append]
  have hn : n = (init.run ops).models.length := rfl
  clear_value n
  generalize init.run ops = s at hn ⊢
  refine ⟨fun j => if j = k then v else s.buf 0 j, ?_, by simp⟩
  have h1 : (s.models ++ [0])[n]? = some 0 := by
    rw [List.getElem?_append_right hn.ge]; simp [hn]
  have h2 : (s.models ++ [0] ++ [0])[n + 1]? = some 0 := by
    rw [List.getElem?_append_right (by simp [hn])]; simp [hn]
  simp only [run, step, h1, coef]
  rw [h2]
  simp

/-- a careful history with an in-place edit: the edited model had been given its own coefficients -/
example : Careful init [.newDefault, .assign 0 [1, 2, 3, 4, 5, 6], .setItem 0 2 7, .newDefault] := by
  refine ⟨fun h => h, fun h => h, ?_, fun h => h, trivial⟩
  show ¬ ([1][0]? = some 0)
  simp

end Oneka
