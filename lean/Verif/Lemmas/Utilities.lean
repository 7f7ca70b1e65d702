import Verif.Model.Utilities
import Verif.Spec.Utilities
import Mathlib.Data.List.TakeWhile

namespace Oneka

theorem hypot_dist (o : Obs) (x y : ℝ) : hypot (o.x - x) (o.y - y) = o.dist x y := by
  unfold hypot Obs.dist; ring_nf

theorem awayFromWells_iff (buffer : ℝ) (o : Obs) (ws : List (ℝ × ℝ)) :
    awayFromWells buffer o ws = true ↔ ∀ w ∈ ws, buffer < o.dist w.1 w.2 := by
  induction ws with
  | nil => simp [awayFromWells]
  | cons w ws ih =>
    unfold awayFromWells
    rw [hypot_dist]
    split_ifs with h
    · simp only [Bool.false_eq_true, List.mem_cons, forall_eq_or_imp, false_iff, not_and_or, not_lt]
      exact Or.inl h
    · rw [ih]
      simp [not_le.mp h]

open Classical in
theorem removeNear_eq (buffer : ℝ) (ws : List (ℝ × ℝ)) (obs : List Obs) :
    removeNear buffer ws obs = obs.filter fun o => ∀ w ∈ ws, buffer < o.dist w.1 w.2 := by
  induction obs with
  | nil => rfl
  | cons o os ih =>
    unfold removeNear
    by_cases h : ∀ w ∈ ws, buffer < o.dist w.1 w.2
    · rw [if_pos ((awayFromWells_iff _ _ _).mpr h), List.filter_cons_of_pos (by simpa using h), ih]
    · rw [if_neg (fun hc => h ((awayFromWells_iff _ _ _).mp hc)), List.filter_cons_of_neg (by simpa using h), ih]

theorem accumulate_ok (l : List Obs) : ∀ num den : ℝ, (∀ o ∈ l, o.std ≠ 0) →
    accumulate l num den = .ok (num + (l.map fun o => o.z / o.std ^ 2).sum, den + (l.map fun o => 1 / o.std ^ 2).sum) := by
  induction l with
  | nil => intro num den _; simp [accumulate]
  | cons o os ih =>
    intro num den h
    unfold accumulate
    rw [if_neg (pow_ne_zero 2 (h o (by simp))), ih _ _ (fun p hp => h p (List.mem_cons_of_mem _ hp))]
    simp only [List.map_cons, List.sum_cons, add_assoc]

theorem accumulate_error (l : List Obs) : ∀ num den : ℝ, (∃ o ∈ l, o.std = 0) → accumulate l num den = .error .zeroDivisionError := by
  induction l with
  | nil => intro _ _ h; simp at h
  | cons o os ih =>
    intro num den h
    unfold accumulate
    by_cases h0 : o.std = 0
    · rw [if_pos (by rw [h0]; simp)]
    · rw [if_neg (pow_ne_zero 2 h0)]
      obtain ⟨p, hp, hp0⟩ := h
      rcases List.mem_cons.mp hp with rfl | hp
      · exact absurd hp0 h0
      · exact ih _ _ ⟨p, hp, hp0⟩

theorem precision_pos {l : List Obs} (hl : l ≠ []) (h : ∀ o ∈ l, o.std ≠ 0) : 0 < (l.map fun o => 1 / o.std ^ 2).sum := by
  have pos : ∀ o ∈ l, 0 < 1 / o.std ^ 2 := fun o ho => by have := h o ho; positivity
  cases l with
  | nil => exact absurd rfl hl
  | cons o os =>
    simp only [List.map_cons, List.sum_cons]
    have h1 := pos o (by simp)
    have h2 : 0 ≤ (os.map fun o => 1 / o.std ^ 2).sum := List.sum_nonneg (by
      intro a ha
      obtain ⟨p, hp, rfl⟩ := List.mem_map.mp ha
      exact (pos p (List.mem_cons_of_mem _ hp)).le)
    linarith

theorem mergeGroup_spec (o : Obs) (os : List Obs) :
    ((os = [] ∨ ∀ p ∈ o :: os, p.std ≠ 0) → ∃ r, mergeGroup o os = .ok r ∧ Represents r (o :: os)) ∧
    ((os ≠ [] ∧ ∃ p ∈ o :: os, p.std = 0) → mergeGroup o os = .error .zeroDivisionError) := by
  constructor
  · intro h
    by_cases hos : os = []
    · refine ⟨o, by unfold mergeGroup; rw [if_pos hos], ⟨o, rfl, rfl, rfl⟩, ?_, ?_⟩
      · rintro p hp; exact (List.cons.inj hp).1
      · intro hl; simp [hos] at hl
    · have hs := h.resolve_left hos
      have hp := precision_pos (List.cons_ne_nil o os) hs
      refine ⟨⟨o.x, o.y, (0 + ((o :: os).map fun o => o.z / o.std ^ 2).sum) / (0 + ((o :: os).map fun o => 1 / o.std ^ 2).sum),
        Real.sqrt (1 / (0 + ((o :: os).map fun o => 1 / o.std ^ 2).sum))⟩, by unfold mergeGroup; rw [if_neg hos, accumulate_ok _ _ _ hs],
        ⟨o, rfl, rfl, rfl⟩, ?_, ?_⟩
      · rintro p e; exact absurd (List.cons.inj e).2 hos
      · intro _
        simp only [zero_add]
        set D := ((o :: os).map fun o => 1 / o.std ^ 2).sum
        have : Real.sqrt (1 / D) ^ 2 = 1 / D := Real.sq_sqrt (by positivity)
        refine ⟨Real.sqrt_pos.mpr (by positivity), by rw [this, one_div_one_div], ?_⟩
        rw [this]
        field_simp
  · rintro ⟨hos, hz⟩
    unfold mergeGroup
    rw [if_neg hos, accumulate_error _ _ _ hz]

theorem mergeRuns_cons (o : Obs) (os rest : List Obs) (h1 : ∀ p ∈ os, o.dist p.x p.y < 1) (h2 : ∀ p ∈ rest.head?, 1 ≤ o.dist p.x p.y) :
    mergeRuns (o :: os ++ rest) = match mergeGroup o os with
      | .error e => .error e
      | .ok r => match mergeRuns rest with
        | .error e => .error e
        | .ok rs => .ok (r :: rs) := by
  have hp : ∀ p ∈ os, decide (hypot (o.x - p.x) (o.y - p.y) < 1) = true := by
    intro p hp; rw [hypot_dist]; simpa using h1 p hp
  have e1 : (os ++ rest).takeWhile (fun p => decide (hypot (o.x - p.x) (o.y - p.y) < 1)) = os := by
    rw [List.takeWhile_append_of_pos hp]
    cases rest with
    | nil => simp
    | cons p ps =>
      have := h2 p (by simp)
      rw [List.takeWhile_cons_of_neg (by rw [hypot_dist]; simpa using this)]
      simp
  have e2 : (os ++ rest).dropWhile (fun p => decide (hypot (o.x - p.x) (o.y - p.y) < 1)) = rest := by
    rw [List.dropWhile_append_of_pos hp]
    cases rest with
    | nil => simp
    | cons p ps =>
      have := h2 p (by simp)
      rw [List.dropWhile_cons_of_neg (by rw [hypot_dist]; simpa using this)]
  rw [List.cons_append, mergeRuns, e1, e2]
  cases mergeGroup o os <;> rfl

theorem grouping_exists (l : List Obs) : ∃ gs, Grouping l gs := by
  induction hn : l.length using Nat.strong_induction_on generalizing l with
  | _ n ih =>
    cases l with
    | nil => exact ⟨[], .nil⟩
    | cons o rest =>
      set P : Obs → Bool := fun p => decide (o.dist p.x p.y < 1)
      obtain ⟨gs, hgs⟩ := ih (rest.dropWhile P).length (by
        have := (List.dropWhile_suffix P (l := rest)).length_le
        simp only [List.length_cons] at hn; omega) _ rfl
      refine ⟨(o :: rest.takeWhile P) :: gs, ?_⟩
      have := Grouping.cons o (rest.takeWhile P) (rest.dropWhile P) gs
        (fun p hp => by simpa [P] using List.mem_takeWhile_imp hp)
        (fun p hp => by
          have := List.head?_dropWhile_not P rest
          rw [Option.mem_def] at hp
          rw [hp] at this
          simpa [P] using this) hgs
      rwa [List.cons_append, List.takeWhile_append_dropWhile] at this

theorem grouping_unique {l : List Obs} {gs gs' : List (List Obs)} (h : Grouping l gs) (h' : Grouping l gs') : gs = gs' := by
  induction h generalizing gs' with
  | nil => generalize hl : ([] : List Obs) = l at h'; cases h' with
    | nil => rfl
    | cons => simp at hl
  | cons o os rest gs h1 h2 _ ih =>
    generalize hl : o :: os ++ rest = l at h'
    cases h' with
    | nil => simp at hl
    | cons o' os' rest' gs' h1' h2' h3' =>
      simp only [List.cons_append, List.cons.injEq] at hl
      obtain ⟨rfl, hl⟩ := hl
      have key : os = os' ∧ rest = rest' := by
        rw [List.append_eq_append_iff] at hl
        rcases hl with ⟨c, rfl, rfl⟩ | ⟨c, rfl, rfl⟩
        · cases c with
          | nil => simp
          | cons p ps =>
            have a := h2 p (by simp)
            have b := h1' p (by simp)
            linarith
        · cases c with
          | nil => simp
          | cons p ps =>
            have a := h2' p (by simp)
            have b := h1 p (by simp)
            linarith
      obtain ⟨rfl, rfl⟩ := key
      rw [ih h3']

theorem grouping_spec {l : List Obs} {gs : List (List Obs)} (h : Grouping l gs) :
    ((∀ g ∈ gs, 1 < g.length → ∀ o ∈ g, o.std ≠ 0) → ∃ rs, mergeRuns l = .ok rs ∧ List.Forall₂ Represents rs gs) ∧
    ((∃ g ∈ gs, 1 < g.length ∧ ∃ o ∈ g, o.std = 0) → mergeRuns l = .error .zeroDivisionError) := by
  induction h with
  | nil => exact ⟨fun _ => ⟨[], by rw [mergeRuns], .nil⟩, by simp⟩
  | cons o os rest gs h1 h2 _ ih =>
    rw [mergeRuns_cons o os rest h1 h2]
    have hlen : 1 < (o :: os).length ↔ os ≠ [] := by
      cases os <;> simp
    constructor
    · intro h
      obtain ⟨r, hr, hrep⟩ := (mergeGroup_spec o os).1 (by
        by_cases hos : os = []
        · exact Or.inl hos
        · exact Or.inr (h _ (by simp) (hlen.mpr hos)))
      obtain ⟨rs, hrs, hall⟩ := ih.1 (fun g hg => h g (List.mem_cons_of_mem _ hg))
      rw [hr, hrs]
      exact ⟨_, rfl, .cons hrep hall⟩
    · rintro ⟨g, hg, hg1, hz⟩
      by_cases hbad : os ≠ [] ∧ ∃ p ∈ o :: os, p.std = 0
      · rw [(mergeGroup_spec o os).2 hbad]
      · obtain ⟨r, hr, -⟩ := (mergeGroup_spec o os).1 (by
          by_cases hos : os = []
          · exact Or.inl hos
          · right
            intro p hp h0
            exact hbad ⟨hos, p, hp, h0⟩)
        rw [hr]
        rcases List.mem_cons.mp hg with rfl | hg
        · exact absurd ⟨hlen.mp hg1, hz⟩ hbad
        · simp only
          rw [ih.2 ⟨g, hg, hg1, hz⟩]

theorem grouping_flatten {l : List Obs} {gs : List (List Obs)} (h : Grouping l gs) : gs.flatten = l := by
  induction h with
  | nil => rfl
  | cons o os rest gs _ _ _ ih => simp [ih]

theorem represents_sums {r : Obs} {g : List Obs} (h : Represents r g) :
    1 / r.std ^ 2 = (g.map fun o => 1 / o.std ^ 2).sum ∧ r.z / r.std ^ 2 = (g.map fun o => o.z / o.std ^ 2).sum := by
  match g with
  | [] =>
    obtain ⟨o, ho, -⟩ := h.place
    simp at ho
  | [o] => rw [h.single o rfl]; simp
  | o :: p :: g =>
    obtain ⟨-, h1, h2⟩ := h.several (by simp)
    exact ⟨h1, h2⟩

/-- consecutive retained observations are at least 1 apart -/
theorem retained_chain {l : List Obs} {gs : List (List Obs)} (h : Grouping l gs) {rs : List Obs} (hr : List.Forall₂ Represents rs gs) :
    rs.IsChain (fun a b => 1 ≤ a.dist b.x b.y) := by
  induction h generalizing rs with
  | nil => cases hr; exact .nil
  | cons o os rest gs h1 h2 h3 ih =>
    cases hr with
    | cons hrep hall =>
      rename_i r rs
      have hc := ih hall
      cases h3 with
      | nil => cases hall; exact .singleton _
      | cons o' os' rest' gs' _ _ _ =>
        cases hall with
        | cons hrep' hall' =>
          rename_i r' rs'
          refine List.IsChain.cons_cons ?_ hc
          obtain ⟨p, hp, px, py⟩ := hrep.place
          obtain ⟨p', hp', px', py'⟩ := hrep'.place
          simp only [List.head?_cons, Option.some.injEq] at hp hp'
          subst hp hp'
          have := h2 o' (by simp)
          unfold Obs.dist at this ⊢
          rw [px, py, px', py']
          exact this

/-- a list whose consecutive members are far apart is not changed -/
theorem mergeRuns_chain : ∀ l : List Obs, l.IsChain (fun a b => 1 ≤ a.dist b.x b.y) → mergeRuns l = .ok l := by
  intro l
  induction l with
  | nil => intro _; rw [mergeRuns]
  | cons o rest ih =>
    intro h
    have h2 : ∀ p ∈ rest.head?, 1 ≤ o.dist p.x p.y := by
      intro p hp
      cases rest with
      | nil => simp at hp
      | cons p' ps =>
        obtain rfl : p' = p := by simpa using hp
        exact (List.isChain_cons_cons.mp h).1
    have h3 : rest.IsChain (fun a b : Obs => 1 ≤ a.dist b.x b.y) := h.tail
    have := mergeRuns_cons o [] rest (by simp) h2
    simp only [List.cons_append, List.nil_append] at this
    rw [this, ih h3]
    simp [mergeGroup]

end Oneka
