import Verif.Spec.Redraw
import Verif.Lemmas.Reach

/-!
# Lemmas for Props/Redraw.lean
-/

namespace Oneka

open PField

variable {K : Type} [Field K] [LinearOrder K] [IsStrictOrderedRing K]

theorem nearSegment_symm {ax ay bx by' u X Y : K} (h : NearSegment ax ay bx by' u X Y) : NearSegment bx by' ax ay u X Y := by
  obtain ⟨t, h0, h1, h⟩ := h
  refine ⟨1 - t, by linarith, by linarith, ?_⟩
  have e1 : X - (bx + (1 - t) * (ax - bx)) = X - (ax + t * (bx - ax)) := by ring
  have e2 : Y - (by' + (1 - t) * (ay - by')) = Y - (ay + t * (by' - ay)) := by ring
  rwa [e1, e2]

theorem nearTrack_reverse_of {vs : List (K × K)} {u X Y : K} (h : NearTrack vs u X Y) : NearTrack vs.reverse u X Y := by
  obtain ⟨a, b, hi, hn, hs⟩ := h
  exact ⟨b, a, by simpa using List.reverse_infix.mpr hi, hn.symm, nearSegment_symm hs⟩

omit [IsStrictOrderedRing K] in
theorem nearTrack_cons (a b : K × K) (l : List (K × K)) (u X Y : K) :
    NearTrack (a :: b :: l) u X Y ↔ (a ≠ b ∧ NearSegment a.1 a.2 b.1 b.2 u X Y) ∨ NearTrack (b :: l) u X Y := by
  constructor
  · rintro ⟨p, q, hi, hn, hs⟩
    rcases List.infix_cons_iff.mp hi with h | h
    · obtain ⟨t, ht⟩ := h
      simp only [List.cons_append, List.nil_append, List.cons.injEq] at ht
      obtain ⟨rfl, rfl, -⟩ := ht
      exact Or.inl ⟨hn, hs⟩
    · exact Or.inr ⟨p, q, h, hn, hs⟩
  · rintro (⟨hn, hs⟩ | ⟨p, q, hi, hn, hs⟩)
    · exact ⟨a, b, ⟨[], l, by simp⟩, hn, hs⟩
    · exact ⟨p, q, List.infix_cons hi, hn, hs⟩

omit [IsStrictOrderedRing K] in
theorem nearTrack_single (a : K × K) (u X Y : K) : ¬ NearTrack [a] u X Y := by
  rintro ⟨p, q, hi, -⟩
  have := hi.length_le
  simp at this

omit [IsStrictOrderedRing K] in
theorem nearTrack_append (pre : List (K × K)) (a : K × K) (post : List (K × K)) (u X Y : K) :
    NearTrack (pre ++ a :: post) u X Y ↔ NearTrack (pre ++ [a]) u X Y ∨ NearTrack (a :: post) u X Y := by
  induction pre with
  | nil => simp [nearTrack_single]
  | cons p pre ih =>
    cases pre with
    | nil =>
      simp only [List.cons_append, List.nil_append]
      rw [nearTrack_cons, nearTrack_cons]
      simp [nearTrack_single]
    | cons q pre =>
      simp only [List.cons_append] at ih ⊢
      rw [nearTrack_cons, nearTrack_cons p q, ih, or_assoc]

/-- cutting a segment in two does not change what is near it -/
theorem nearSegment_cut (a b : K × K) (t u X Y : K) (h0 : 0 ≤ t) (h1 : t ≤ 1) {c : K × K}
    (hc : c = (a.1 + t * (b.1 - a.1), a.2 + t * (b.2 - a.2))) :
    (a ≠ b ∧ NearSegment a.1 a.2 b.1 b.2 u X Y) ↔
      (a ≠ c ∧ NearSegment a.1 a.2 c.1 c.2 u X Y) ∨ (c ≠ b ∧ NearSegment c.1 c.2 b.1 b.2 u X Y) := by
  have hab : a = b → c = a := by
    rintro rfl; rw [hc]; ext <;> simp
  have c1 : c.1 = a.1 + t * (b.1 - a.1) := by rw [hc]
  have c2 : c.2 = a.2 + t * (b.2 - a.2) := by rw [hc]
  have hca : a = c → t = 0 ∨ a = b := by
    intro h
    by_contra hh
    push Not at hh
    refine hh.2 (Prod.ext ?_ ?_)
    · have e : t * (b.1 - a.1) = 0 := by rw [← h] at c1; linarith
      rcases mul_eq_zero.mp e with e | e
      · exact absurd e hh.1
      · linarith
    · have e : t * (b.2 - a.2) = 0 := by rw [← h] at c2; linarith
      rcases mul_eq_zero.mp e with e | e
      · exact absurd e hh.1
      · linarith
  have hcb : c = b → t = 1 ∨ a = b := by
    intro h
    by_contra hh
    push Not at hh
    refine hh.2 (Prod.ext ?_ ?_)
    · have e : (1 - t) * (b.1 - a.1) = 0 := by rw [h] at c1; linarith
      rcases mul_eq_zero.mp e with e | e
      · exact absurd (by linarith) hh.1
      · linarith
    · have e : (1 - t) * (b.2 - a.2) = 0 := by rw [h] at c2; linarith
      rcases mul_eq_zero.mp e with e | e
      · exact absurd (by linarith) hh.1
      · linarith
  constructor
  · rintro ⟨hn, s, s0, s1, hs⟩
    by_cases hst : s ≤ t ∧ t ≠ 0
    · refine Or.inl ⟨fun h => (hca h).elim hst.2 hn, s / t, div_nonneg s0 h0, ?_, ?_⟩
      · exact div_le_one_of_le₀ hst.1 h0
      · have e1 : s / t * (c.1 - a.1) = s * (b.1 - a.1) := by rw [c1]; field_simp [hst.2]; ring
        have e2 : s / t * (c.2 - a.2) = s * (b.2 - a.2) := by rw [c2]; field_simp [hst.2]; ring
        rwa [e1, e2]
    · by_cases ht : t = 1
      · exfalso; apply hst; rw [ht]; exact ⟨s1, one_ne_zero⟩
      · have hlt : 0 < 1 - t := by
          rcases lt_or_eq_of_le h1 with h | h
          · linarith
          · exact absurd h ht
        have hts : t ≤ s := by
          by_contra hh
          push Not at hh
          exact hst ⟨hh.le, by linarith⟩
        refine Or.inr ⟨fun h => (hcb h).elim ht hn, (s - t) / (1 - t), div_nonneg (by linarith) hlt.le, ?_, ?_⟩
        · exact div_le_one_of_le₀ (by linarith) hlt.le
        · have e1 : c.1 + (s - t) / (1 - t) * (b.1 - c.1) = a.1 + s * (b.1 - a.1) := by
            rw [c1]; field_simp [hlt.ne']; ring
          have e2 : c.2 + (s - t) / (1 - t) * (b.2 - c.2) = a.2 + s * (b.2 - a.2) := by
            rw [c2]; field_simp [hlt.ne']; ring
          rwa [e1, e2]
  · rintro (⟨hn, s, s0, s1, hs⟩ | ⟨hn, s, s0, s1, hs⟩)
    · refine ⟨fun h => hn (hab h).symm, s * t, mul_nonneg s0 h0, by nlinarith, ?_⟩
      have e1 : a.1 + s * (c.1 - a.1) = a.1 + s * t * (b.1 - a.1) := by rw [c1]; ring
      have e2 : a.2 + s * (c.2 - a.2) = a.2 + s * t * (b.2 - a.2) := by rw [c2]; ring
      rwa [e1, e2] at hs
    · refine ⟨fun h => hn ((hab h).trans h), t + s * (1 - t), by nlinarith, by nlinarith, ?_⟩
      have e1 : c.1 + s * (b.1 - c.1) = a.1 + (t + s * (1 - t)) * (b.1 - a.1) := by rw [c1]; ring
      have e2 : c.2 + s * (b.2 - c.2) = a.2 + (t + s * (1 - t)) * (b.2 - a.2) := by rw [c2]; ring
      rwa [e1, e2] at hs

/-- a different description is near the same positions -/
theorem Redrawn.near {vs ws : List (K × K)} (h : Redrawn vs ws) (u X Y : K) : NearTrack vs u X Y ↔ NearTrack ws u X Y := by
  induction h with
  | refl => exact Iff.rfl
  | reverse vs => exact ⟨nearTrack_reverse_of, fun h => by simpa using nearTrack_reverse_of h⟩
  | repeated pre a post =>
    rw [nearTrack_append, nearTrack_append pre a (a :: post), nearTrack_cons]
    simp
  | refined pre a b post t h0 h1 =>
    rw [nearTrack_append, nearTrack_append pre a (_ :: b :: post), nearTrack_cons, nearTrack_cons a (_, _), nearTrack_cons _ b,
      nearSegment_cut a b t u X Y h0 h1 rfl, or_assoc]
  | symm _ ih => exact ih.symm
  | trans _ _ ih1 ih2 => exact ih1.trans ih2

/-- the two lists of positions span the same box -/
def SeenLike (s s' : List (K × K)) : Prop :=
  ∀ z, ((∃ v ∈ s, v.1 ≤ z) ↔ ∃ v ∈ s', v.1 ≤ z) ∧ ((∃ v ∈ s, z ≤ v.1) ↔ ∃ v ∈ s', z ≤ v.1) ∧
    ((∃ v ∈ s, v.2 ≤ z) ↔ ∃ v ∈ s', v.2 ≤ z) ∧ ((∃ v ∈ s, z ≤ v.2) ↔ ∃ v ∈ s', z ≤ v.2)

omit [IsStrictOrderedRing K] in
theorem SeenLike.refl (s : List (K × K)) : SeenLike s s := fun _ => ⟨Iff.rfl, Iff.rfl, Iff.rfl, Iff.rfl⟩

omit [IsStrictOrderedRing K] in
theorem SeenLike.symm {s s' : List (K × K)} (h : SeenLike s s') : SeenLike s' s :=
  fun z => ⟨(h z).1.symm, (h z).2.1.symm, (h z).2.2.1.symm, (h z).2.2.2.symm⟩

omit [IsStrictOrderedRing K] in
theorem SeenLike.trans {s s' s'' : List (K × K)} (h : SeenLike s s') (h' : SeenLike s' s'') : SeenLike s s'' :=
  fun z => ⟨(h z).1.trans (h' z).1, (h z).2.1.trans (h' z).2.1, (h z).2.2.1.trans (h' z).2.2.1, (h z).2.2.2.trans (h' z).2.2.2⟩

omit [IsStrictOrderedRing K] in
theorem SeenLike.append {s s' r r' : List (K × K)} (h : SeenLike s s') (k : SeenLike r r') : SeenLike (s ++ r) (s' ++ r') := by
  intro z
  have e : ∀ (P : K × K → Prop) (a b : List (K × K)), (∃ v ∈ a ++ b, P v) ↔ (∃ v ∈ a, P v) ∨ ∃ v ∈ b, P v := by
    intro P a b
    simp only [List.mem_append, or_and_right, exists_or]
  simp only [e]
  obtain ⟨a1, a2, a3, a4⟩ := h z
  obtain ⟨b1, b2, b3, b4⟩ := k z
  exact ⟨or_congr a1 b1, or_congr a2 b2, or_congr a3 b3, or_congr a4 b4⟩

omit [IsStrictOrderedRing K] in
theorem SeenLike.of_mem {s s' : List (K × K)} (h : ∀ v, v ∈ s ↔ v ∈ s') : SeenLike s s' := by
  intro z
  simp only [h]
  simp

omit [IsStrictOrderedRing K] in
theorem SeenLike.reached {s s' : List (K × K)} (h : SeenLike s s') (xo yo dx dy X Y : K) :
    Reached xo yo dx dy s X Y ↔ Reached xo yo dx dy s' X Y := by
  have e : ∀ (P : K → Prop) (g : K × K → K) (l : List (K × K)), (∃ x ∈ l.map g, P x) ↔ ∃ v ∈ l, P (g v) := by
    intro P g l; simp
  unfold Reached InReach
  simp only [e]
  rw [(h (X + dx)).1, (h (X - dx)).2.1, (h (Y + dy)).2.2.1, (h (Y - dy)).2.2.2]

theorem Redrawn.seen {vs ws : List (K × K)} (h : Redrawn vs ws) : SeenLike vs ws := by
  induction h with
  | refl => exact .refl _
  | reverse vs => exact .of_mem fun v => by simp
  | repeated pre a post => exact .of_mem fun v => by simp
  | refined pre a b post t h0 h1 =>
    refine (SeenLike.refl pre).append ?_
    have key : ∀ (g : K × K → K) (c : K × K), g c = g a + t * (g b - g a) → ∀ z,
        ((∃ v ∈ a :: b :: post, g v ≤ z) ↔ ∃ v ∈ a :: c :: b :: post, g v ≤ z) ∧
        ((∃ v ∈ a :: b :: post, z ≤ g v) ↔ ∃ v ∈ a :: c :: b :: post, z ≤ g v) := by
      intro g c hc z
      simp only [List.mem_cons, or_and_right, exists_or, exists_eq_left]
      refine ⟨⟨?_, ?_⟩, ⟨?_, ?_⟩⟩
      · rintro (h | h | h)
        · exact Or.inl h
        · exact Or.inr (Or.inr (Or.inl h))
        · exact Or.inr (Or.inr (Or.inr h))
      · rintro (h | h | h | h)
        · exact Or.inl h
        · rw [hc] at h
          rcases le_total (g a) (g b) with k | k
          · left; nlinarith [mul_nonneg h0 (sub_nonneg.mpr k)]
          · right; left; nlinarith [mul_nonneg (sub_nonneg.mpr h1) (sub_nonneg.mpr k)]
        · exact Or.inr (Or.inl h)
        · exact Or.inr (Or.inr h)
      · rintro (h | h | h)
        · exact Or.inl h
        · exact Or.inr (Or.inr (Or.inl h))
        · exact Or.inr (Or.inr (Or.inr h))
      · rintro (h | h | h | h)
        · exact Or.inl h
        · rw [hc] at h
          rcases le_total (g a) (g b) with k | k
          · right; left; nlinarith [mul_nonneg (sub_nonneg.mpr h1) (sub_nonneg.mpr k)]
          · left; nlinarith [mul_nonneg h0 (sub_nonneg.mpr k)]
        · exact Or.inr (Or.inl h)
        · exact Or.inr (Or.inr h)
    exact fun z => ⟨(key Prod.fst _ rfl z).1, (key Prod.fst _ rfl z).2, (key Prod.snd _ rfl z).1, (key Prod.snd _ rfl z).2⟩
  | symm _ ih => exact ih.symm
  | trans _ _ ih1 ih2 => exact ih1.trans ih2

omit [IsStrictOrderedRing K] in
theorem Redrawn.ne_nil {vs ws : List (K × K)} (h : Redrawn vs ws) : vs ≠ [] ↔ ws ≠ [] := by
  induction h with
  | refl => exact Iff.rfl
  | reverse vs => simp
  | repeated => simp
  | refined => simp
  | symm _ ih => exact ih.symm
  | trans _ _ ih1 ih2 => exact ih1.trans ih2

omit [IsStrictOrderedRing K] in
theorem Event.SameCurve.valid {e e' : Event K} (h : e.SameCurve e') (hv : e.Valid) : e'.Valid := by
  cases h with
  | refl => exact hv
  | track u h => exact ⟨h.ne_nil.mp hv.1, hv.2⟩

theorem Event.SameCurve.points {e e' : Event K} (h : e.SameCurve e') : SeenLike e.points e'.points := by
  cases h with
  | refl => exact .refl _
  | track u h => exact h.seen

theorem sameCurves_points {es es' : List (Event K)} (h : List.Forall₂ Event.SameCurve es es') :
    SeenLike (es.flatMap Event.points) (es'.flatMap Event.points) := by
  induction h with
  | nil => exact .refl _
  | cons h _ ih => simpa using h.points.append ih

omit [IsStrictOrderedRing K] in
theorem sameCurves_valid {es es' : List (Event K)} (h : List.Forall₂ Event.SameCurve es es') (hv : ∀ e ∈ es, e.Valid) :
    ∀ e ∈ es', e.Valid := by
  induction h with
  | nil => simp
  | cons h _ ih =>
    simp only [List.mem_cons, forall_eq_or_imp] at hv ⊢
    exact ⟨h.valid hv.1, ih hv.2⟩

omit [IsStrictOrderedRing K] in
theorem sameCurves_weights {es es' : List (Event K)} (h : List.Forall₂ Event.SameCurve es es') :
    ∀ p p', (registered es p).map Realization.weight = (registered es' p').map Realization.weight := by
  induction h with
  | nil => intro p p'; rfl
  | @cons e e' l l' h _ ih =>
    intro p p'
    cases h with
    | refl =>
      cases e with
      | register w => simp only [registered, List.map_cons]; rw [ih [] []]
      | _ => exact ih _ _
    | track u h => exact ih _ _

/-- the same positions are recorded, whatever the description -/
theorem sameCurves_records {es es' : List (Event K)} (h : List.Forall₂ Event.SameCurve es es') (xo yo dx dy X Y : K) :
    ∀ s s' p p', SeenLike s s' → (Records xo yo dx dy p X Y ↔ Records xo yo dx dy p' X Y) →
      recordedWeight xo yo dx dy (drawnGroups es s p) X Y = recordedWeight xo yo dx dy (drawnGroups es' s' p') X Y ∧
      (Records xo yo dx dy (drawnPending es s p) X Y ↔ Records xo yo dx dy (drawnPending es' s' p') X Y) := by
  have app : ∀ (p : List (Drawn K)) (d : Drawn K), Records xo yo dx dy (p ++ [d]) X Y ↔
      Records xo yo dx dy p X Y ∨ (NearTrack d.track d.umbra X Y ∧ Reached xo yo dx dy d.seen X Y) := by
    intro p d
    simp only [Records, List.mem_append, List.mem_singleton, or_and_right, exists_or, exists_eq_left]
  have none : Records xo yo dx dy ([] : List (Drawn K)) X Y ↔ Records xo yo dx dy ([] : List (Drawn K)) X Y := Iff.rfl
  induction h with
  | nil => intro s s' p p' _ hp; exact ⟨rfl, hp⟩
  | @cons e e' l l' h _ ih =>
    intro s s' p p' hs hp
    have tr : ∀ vs ws u, Redrawn vs ws →
        recordedWeight xo yo dx dy (drawnGroups (.track vs u :: l) s p) X Y = recordedWeight xo yo dx dy (drawnGroups (.track ws u :: l') s' p') X Y ∧
        (Records xo yo dx dy (drawnPending (.track vs u :: l) s p) X Y ↔ Records xo yo dx dy (drawnPending (.track ws u :: l') s' p') X Y) := by
      intro vs ws u hr
      have hs2 := hs.append hr.seen
      refine ih _ _ _ _ hs2 ?_
      rw [app, app, hp]
      exact or_congr Iff.rfl (and_congr (hr.near u X Y) (hs2.reached ..))
    cases h with
    | track u h => exact tr _ _ u h
    | refl =>
      cases e with
      | track vs u => exact tr _ _ u (.refl _)
      | register w =>
        obtain ⟨h1, h2⟩ := ih s s' [] [] hs none
        refine ⟨?_, h2⟩
        simp only [drawnGroups, recordedWeight, List.map_cons, List.sum_cons] at h1 ⊢
        rw [h1, propext hp]
      | reset => exact ih s s' [] [] hs none
      | expand x0 x1 y0 y1 => exact ih _ _ _ _ (hs.append (.refl _)) hp

omit [Field K] [LinearOrder K] [IsStrictOrderedRing K] in
theorem drawn_append (es later : List (Event K)) : ∀ s p,
    drawnGroups (es ++ later) s p = drawnGroups es s p ++ drawnGroups later (s ++ es.flatMap Event.points) (drawnPending es s p) ∧
    drawnPending (es ++ later) s p = drawnPending later (s ++ es.flatMap Event.points) (drawnPending es s p) := by
  induction es with
  | nil => intro s p; simp [drawnGroups, drawnPending]
  | cons e es ih =>
    intro s p
    cases e <;> simp [drawnGroups, drawnPending, ih, Event.points]

/-- where a track passes within a spacing, there is a node -/
theorem near_within {track seen : List (K × K)} {xo yo dx dy u X Y : K} (h : NearTrack track u X Y) (hs : track ⊆ seen) (u0 : 0 ≤ u) (hx : u ≤ dx) (hy : u ≤ dy) :
    Reached xo yo dx dy seen X Y := by
  obtain ⟨a, b, hab, -, s, s0, s1, h⟩ := h
  have ha : a ∈ seen := hs (hab.subset (by simp))
  have hb : b ∈ seen := hs (hab.subset (by simp))
  have h1 := abs_lt_of_sq_lt_sq' (a := X - (a.1 + s * (b.1 - a.1))) (b := u) (by nlinarith [sq_nonneg (Y - (a.2 + s * (b.2 - a.2)))]) u0
  have h2 := abs_lt_of_sq_lt_sq' (a := Y - (a.2 + s * (b.2 - a.2))) (b := u) (by nlinarith [sq_nonneg (X - (a.1 + s * (b.1 - a.1)))]) u0
  have key : ∀ (g : K × K → K) (Z o d : K), u ≤ d → -u < Z - (g a + s * (g b - g a)) → Z - (g a + s * (g b - g a)) < u → InReach o d (seen.map g) Z := by
    intro g Z o d hd h3 h4
    have p1 := mul_nonneg s0 (sub_nonneg.mpr s1)
    rcases le_total (g a) (g b) with h | h
    · have q1 := mul_nonneg s0 (sub_nonneg.mpr h)
      have q2 := mul_nonneg (sub_nonneg.mpr s1) (sub_nonneg.mpr h)
      exact ⟨Or.inr ⟨_, List.mem_map_of_mem ha, by linarith⟩, Or.inr ⟨_, List.mem_map_of_mem hb, by linarith⟩⟩
    · have q1 := mul_nonneg s0 (sub_nonneg.mpr h)
      have q2 := mul_nonneg (sub_nonneg.mpr s1) (sub_nonneg.mpr h)
      exact ⟨Or.inr ⟨_, List.mem_map_of_mem hb, by linarith⟩, Or.inr ⟨_, List.mem_map_of_mem ha, by linarith⟩⟩
  exact ⟨key Prod.fst X xo dx hx h1.1 h1.2, key Prod.snd Y yo dy hy h2.1 h2.2⟩

end Oneka
