import Verif.Lemmas.Refine
import Mathlib.Algebra.Order.Floor.Ring
import Mathlib.Data.Rat.Floor
import Verif.Spec.Field
import Verif.Spec.History

/-!
# Lemmas for Props/Field.lean
-/

set_option linter.unusedSectionVars false

namespace Oneka

open PField

variable {K : Type} [Field K] [LinearOrder K] [IsStrictOrderedRing K] [FloorRing K]

theorem reachable_step {f f' : PField K} {c : PField.Call K} {r} (hf : f.Reachable)
    (h : f.step c = some (f', r)) : f'.Reachable := by
  obtain ⟨dx, dy, xo, yo, f0, cs, h0, h1⟩ := hf
  refine ⟨dx, dy, xo, yo, f0, cs ++ [c], h0, ?_⟩
  rw [run_append, h1]
  simp [run, h]

/-- In a track with two different vertices, zero-length segments add nothing. -/
theorem nearPath_iff (track : List (K × K)) (u X Y : K) (h : ∃ a ∈ track, ∃ b ∈ track, a ≠ b) :
    NearPath track u X Y ↔ NearTrack track u X Y := by
  constructor
  · have aux : ∀ (l : List (K × K)) (p : K × K), (∃ q ∈ l, p ≠ q) → p.1 = p.1 →
        (X - p.1) ^ 2 + (Y - p.2) ^ 2 < u ^ 2 → NearTrack (p :: l) u X Y := by
      intro l
      induction l with
      | nil => rintro p ⟨q, hq, _⟩; simp at hq
      | cons c l ih =>
        intro p hq _ hn
        by_cases hpc : p = c
        · subst hpc
          obtain ⟨q, hq, hne⟩ := hq
          have hq' : q ∈ l := by
            rcases List.mem_cons.mp hq with h | h
            · exact absurd h.symm hne
            · exact h
          obtain ⟨a, b, hi, hr⟩ := ih p ⟨q, hq', hne⟩ rfl hn
          exact ⟨a, b, hi.trans (List.suffix_cons _ _).isInfix, hr⟩
        · refine ⟨p, c, ⟨[], l, by simp⟩, hpc, 0, le_refl _, zero_le_one, ?_⟩
          simpa using hn
    have aux' : ∀ (l : List (K × K)) (p : K × K), (∃ q ∈ l, p ≠ q) →
        (X - p.1) ^ 2 + (Y - p.2) ^ 2 < u ^ 2 → NearTrack (l ++ [p]) u X Y := by
      intro l
      induction l using List.reverseRecOn with
      | nil => rintro p ⟨q, hq, _⟩; simp at hq
      | append_singleton l c ih =>
        intro p hq hn
        by_cases hpc : p = c
        · subst hpc
          obtain ⟨q, hq, hne⟩ := hq
          have hq' : q ∈ l := by
            rcases List.mem_append.mp hq with h | h
            · exact h
            · exact absurd (List.mem_singleton.mp h).symm hne
          obtain ⟨a, b, hi, hr⟩ := ih p ⟨q, hq', hne⟩ hn
          exact ⟨a, b, hi.trans (List.prefix_append _ _).isInfix, hr⟩
        · refine ⟨c, p, ⟨l, [], by simp⟩, fun h => hpc h.symm, 1, zero_le_one, le_refl _, ?_⟩
          have e1 : c.1 + 1 * (p.1 - c.1) = p.1 := by ring
          have e2 : c.2 + 1 * (p.2 - c.2) = p.2 := by ring
          rw [e1, e2]; exact hn
    rintro ⟨a, b, hi, hn⟩
    by_cases hab : a = b
    · subst hab
      obtain ⟨t, _, _, ht⟩ := hn
      have hd : (X - a.1) ^ 2 + (Y - a.2) ^ 2 < u ^ 2 := by simpa using ht
      obtain ⟨s, r, hsr⟩ := hi
      obtain ⟨q, hq, hne⟩ : ∃ q ∈ track, a ≠ q := by
        obtain ⟨p, hp, q, hq, hpq⟩ := h
        by_cases h1 : a = p
        · exact ⟨q, hq, h1 ▸ hpq⟩
        · exact ⟨p, hp, h1⟩
      rw [← hsr] at hq
      have hq' : q ∈ s ∨ q ∈ r := by
        simp only [List.append_assoc, List.mem_append, List.mem_cons, List.not_mem_nil, or_false] at hq
        rcases hq with h | (h | h) | h
        · exact Or.inl h
        · exact absurd h.symm hne
        · exact absurd h.symm hne
        · exact Or.inr h
      rcases hq' with hq' | hq'
      · obtain ⟨c, d, hi, hr⟩ := aux' s a ⟨q, hq', hne⟩ hd
        refine ⟨c, d, hi.trans ⟨[], a :: r, ?_⟩, hr⟩
        rw [← hsr]; simp
      · obtain ⟨c, d, hi, hr⟩ := aux r a ⟨q, hq', hne⟩ rfl hd
        refine ⟨c, d, hi.trans ⟨s ++ [a], [], ?_⟩, hr⟩
        rw [← hsr]; simp
    · exact ⟨a, b, hi, hab, hn⟩
  · rintro ⟨a, b, hi, _, hn⟩
    exact ⟨a, b, hi, hn⟩

theorem new_reachable {dx dy : K} {xo yo : Option K} {f : PField K} (h : PField.new dx dy xo yo = .ok f) :
    f.Reachable := ⟨dx, dy, xo, yo, f, [], h, rfl⟩

/-- The state after construction with an origin. -/
theorem new_origin (dx dy xo yo : K) (hdx : 0 < dx) (hdy : 0 < dy) :
    ∃ f b, PField.new dx dy (some xo) (some yo) = .ok f ∧ f.body = some b ∧ f.deltax = dx ∧ f.deltay = dy ∧
      f.nrows = 3 ∧ f.ncols = 3 ∧ b.xmin = xo - dx ∧ b.xmax = xo + dx ∧ b.ymin = yo - dy ∧ b.ymax = yo + dy ∧
      b.totalWeight = 0 ∧ (∀ i j, b.pgrid.val i j = 0) ∧ ∀ i j, b.rgrid.val i j = false := by
  have h : PField.new dx dy (some xo) (some yo) = .ok
      { deltax := dx, deltay := dy, nrows := 3, ncols := 3,
        body := some { xmin := xo - dx, xmax := xo + dx, ymin := yo - dy, ymax := yo + dy, totalWeight := 0,
                       pgrid := Grid.full 3 3 0, rgrid := Grid.full 3 3 false } } := by
    unfold PField.new
    rw [if_neg (not_le.mpr hdx), if_neg (not_le.mpr hdy)]
  exact ⟨_, _, h, rfl, rfl, rfl, rfl, rfl, rfl, rfl, rfl, rfl, rfl, fun _ _ => rfl, fun _ _ => rfl⟩

/-- The track used in the counterexamples: from the origin a little less than one spacing to the east. -/
theorem exists_short (dx u : K) (hdx : 0 < dx) (h : dx < u) : ∃ e : K, 0 < e ∧ e < dx ∧ 2 * dx - u < e := by
  refine ⟨max (dx / 2) ((3 * dx - u) / 2), ?_, ?_, ?_⟩
  · exact lt_max_of_lt_left (by linarith)
  · exact max_lt (by linarith) (by linarith)
  · exact lt_max_of_lt_right (by linarith)

theorem registered_realizations (rs : List (Realization K)) :
    registered (rs.flatMap Realization.events) [] = rs ∧ pending (rs.flatMap Realization.events) [] = [] := by
  have aux : ∀ (ts p : List (List (K × K) × K)) (w : K) (es : List (Event K)),
      registered ((ts.map fun t => Event.track t.1 t.2) ++ [Event.register w] ++ es) p =
        ⟨p ++ ts, w⟩ :: registered es [] ∧
      pending ((ts.map fun t => Event.track t.1 t.2) ++ [Event.register w] ++ es) p = pending es [] := by
    intro ts
    induction ts with
    | nil => intro p w es; simp [registered, pending]
    | cons t ts ih =>
      intro p w es
      have := ih (p ++ [t]) w es
      simp only [List.map_cons, List.cons_append, registered, pending, Prod.mk.eta]
      simpa using this
  induction rs with
  | nil => exact ⟨rfl, rfl⟩
  | cons r rs ih =>
    have h := aux r.tracks [] r.weight (rs.flatMap Realization.events)
    rw [List.flatMap_cons]
    exact ⟨h.1.trans (by rw [ih.1]; rfl), h.2.trans ih.2⟩

theorem visitWeight_sameUpToOrder {rs ss : List (Realization K)} (h : SameUpToOrder rs ss) (X Y : K) :
    visitWeight rs X Y = visitWeight ss X Y ∧
      (rs.map Realization.weight).sum = (ss.map Realization.weight).sum := by
  obtain ⟨ts, hp, hf⟩ := h
  have h1 : visitWeight rs X Y = visitWeight ts X Y := (hp.map _).sum_eq
  have h2 : (rs.map Realization.weight).sum = (ts.map Realization.weight).sum := (hp.map _).sum_eq
  rw [h1, h2]
  clear h1 h2 hp
  induction hf with
  | nil => exact ⟨rfl, rfl⟩
  | @cons a b l1 l2 hab _ ih =>
    obtain ⟨hw, ht⟩ := hab
    have hv : Visits a.tracks X Y ↔ Visits b.tracks X Y := by
      unfold Visits
      exact ⟨fun ⟨t, m, h⟩ => ⟨t, ht.mem_iff.mp m, h⟩, fun ⟨t, m, h⟩ => ⟨t, ht.mem_iff.mpr m, h⟩⟩
    have ih1 := ih.1
    have ih2 := ih.2
    simp only [visitWeight, List.map_cons, List.sum_cons, hw] at ih1 ih2 ⊢
    rw [ih1, ih2]
    by_cases hb : Visits b.tracks X Y
    · rw [if_pos hb, if_pos (hv.mpr hb)]; exact ⟨rfl, rfl⟩
    · rw [if_neg hb, if_neg (fun h => hb (hv.mp h))]; exact ⟨rfl, rfl⟩

theorem SameUpToOrder.valid {rs ss : List (Realization K)} (h : SameUpToOrder rs ss) (P : Event K → Prop)
    (hreg : ∀ w, P (.register w)) (hP : ∀ e ∈ rs.flatMap Realization.events, P e) :
    ∀ e ∈ ss.flatMap Realization.events, P e := by
  obtain ⟨ts, hp, hf⟩ := h
  have hP' : ∀ r ∈ ts, ∀ t ∈ r.tracks, P (.track t.1 t.2) := by
    intro r hr t ht
    refine hP _ (List.mem_flatMap.mpr ⟨r, hp.mem_iff.mpr hr, ?_⟩)
    simp only [Realization.events, List.mem_append, List.mem_map]
    exact Or.inl ⟨t, ht, rfl⟩
  have : ∀ s ∈ ss, ∀ t ∈ s.tracks, P (.track t.1 t.2) := by
    clear hP hp
    induction hf with
    | nil => simp
    | @cons a b l1 l2 hab _ ih =>
      intro s hs t ht
      rcases List.mem_cons.mp hs with rfl | hs
      · exact hP' a (by simp) t (hab.2.mem_iff.mpr ht)
      · exact ih (fun r hr => hP' r (by simp [hr])) s hs t ht
  intro e he
  obtain ⟨s, hs, he⟩ := List.mem_flatMap.mp he
  simp only [Realization.events, List.mem_append, List.mem_map, List.mem_singleton] at he
  rcases he with ⟨t, ht, rfl⟩ | rfl
  · exact this s hs t ht
  · exact hreg _

theorem registered_append (es ds : List (Event K)) : ∀ p,
    registered (es ++ ds) p = registered es p ++ registered ds (pending es p) ∧
    pending (es ++ ds) p = pending ds (pending es p) := by
  induction es with
  | nil => intro p; exact ⟨rfl, rfl⟩
  | cons e es ih => intro p; cases e <;> simp [registered, pending, ih]

end Oneka
