import Verif.Lemmas.StrLog

/-!
# Calls can be read in one way only
-/

namespace Oneka

variable {p : PyText}

theorem call_cons (p : PyText) (name : String) (v : PyVal) (l : List PyVal) : IsCall p name (v :: l) (name.toList ++ "(".toList ++ (p.repr v ++ (tailText p l ++ [')']))) := by
  unfold IsCall
  have := commaSep_cons p v l
  unfold commaSep at this
  rw [this]
  simp

theorem call_unique (hp : p.Faithful) {name : String} {l l' : List PyVal} {t : List Char} (nl : ∀ v ∈ l, v.Numeric ∧ v.Machine) (nl' : ∀ v ∈ l', v.Numeric ∧ v.Machine)
    (h : IsCall p name l t) (h' : IsCall p name l' t) : l = l' := by
  have empty : ∀ {v : PyVal} {l : List PyVal}, v.Numeric → v.Machine → IsCall p name [] t → IsCall p name (v :: l) t → False := by
    intro v l hv mv h h'
    have e := call_cons p name v l
    unfold IsCall at h h' e
    rw [← e] at h'
    rw [h] at h'
    simp only [List.map_nil, List.append_assoc, List.append_cancel_left_eq] at h'
    obtain ⟨c, r, hc, h1, h2, h3⟩ := repr_begins hp hv mv
    rw [hc] at h'
    simp [List.intercalate] at h'
  cases l with
  | nil =>
    cases l' with
    | nil => rfl
    | cons v l' => exact (empty (nl' v (by simp)).1 (nl' v (by simp)).2 h h').elim
  | cons v l =>
    cases l' with
    | nil => exact (empty (nl v (by simp)).1 (nl v (by simp)).2 h' h).elim
    | cons w l' =>
      have e := call_cons p name v l
      have e' := call_cons p name w l'
      unfold IsCall at h h' e e'
      rw [← e] at h
      rw [← e'] at h'
      rw [h] at h'
      simp only [List.append_assoc, List.append_cancel_left_eq] at h'
      obtain ⟨h1, h2⟩ := repr_unique hp (nl v (by simp)).1 (nl v (by simp)).2 (nl' w (by simp)).1 (nl' w (by simp)).2 (ends_tail l (.inl rfl) []) (ends_tail l' (.inl rfl) []) h'
      obtain ⟨h3, -⟩ := tail_unique hp
        (fun v hv mv w hw mw r r' hr hr' h => repr_unique hp (nl v (by simp [hv])).1 mv hw mw hr hr' h)
        (fun v hv => (nl v (by simp [hv])).2) (fun v hv => (nl' v (by simp [hv])).1) (fun v hv => (nl' v (by simp [hv])).2) (.inl rfl) (.inl rfl) h2
      rw [h1, h3]

/-- the attributes shown by `repr` -/
theorem field_call (p : PyText) (f : PField ℝ) (b : Body ℝ) (hb : f.body = some b) (h0 : f.nrows ≠ 0) :
    ∃ t, fieldRepr p f = .ok t ∧ IsCall p "ProbabilityField" [.float (.fin f.deltax), .float (.fin f.deltay), .int f.nrows, .int f.ncols, .float (.fin b.xmin), .float (.fin b.xmax),
      .float (.fin b.ymin), .float (.fin b.ymax), .float (.fin b.totalWeight)] t := by
  refine ⟨_, by simp only [fieldRepr, if_neg h0, hb]; rfl, ?_⟩
  have i : ∀ n : ℕ, intDigits n = natDigits n := fun n => by simp [intDigits, if_neg (Int.natCast_nonneg n).not_gt]
  simp [IsCall, List.intercalate, PyText.repr, PyText.float, i]

theorem field_ordinary (f : PField ℝ) (hf : f.Machine) (b : Body ℝ) (hb : f.body = some b) : ∀ v ∈ [PyVal.float (.fin f.deltax), .float (.fin f.deltay), .int f.nrows, .int f.ncols,
      .float (.fin b.xmin), .float (.fin b.xmax), .float (.fin b.ymin), .float (.fin b.ymax), .float (.fin b.totalWeight)], v.Ordinary := by
  have := hf.body b hb
  simp only [List.forall_mem_cons, List.not_mem_nil, IsEmpty.forall_iff, implies_true, and_true] at this ⊢
  exact ⟨⟨.float _, .float _ hf.deltax⟩, ⟨.float _, .float _ hf.deltay⟩, ⟨.int _, .int _⟩, ⟨.int _, .int _⟩, ⟨.float _, .float _ this.1⟩, ⟨.float _, .float _ this.2.1⟩, ⟨.float _, .float _ this.2.2.1⟩,
    ⟨.float _, .float _ this.2.2.2.1⟩, ⟨.float _, .float _ this.2.2.2.2⟩⟩

end Oneka
