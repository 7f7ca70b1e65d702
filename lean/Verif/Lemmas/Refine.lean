import Verif.Lemmas.History
import Verif.Spec.History

set_option linter.unusedSectionVars false

namespace Oneka
variable {K : Type} [Field K] [LinearOrder K] [IsStrictOrderedRing K] [FloorRing K]

namespace PField

theorem reachable_wf {f : PField K} (h : f.Reachable) : f.WF := by
  obtain ⟨dx, dy, xo, yo, f0, cs, h0, h1⟩ := h
  obtain ⟨f', e, i⟩ := run_inv cs f0 (new_wf h0).1
  rw [h1] at e
  obtain rfl := Option.some.inj e
  exact i.wf

theorem zip_map (vs : List (K × K)) : (vs.map Prod.fst).zip (vs.map Prod.snd) = vs := by
  induction vs with
  | nil => rfl
  | cons a l ih => simp [ih]

/-- Every point strictly within `u` of a track is within `u` of its bounding box. -/
theorem nearTrack_bounds {vs : List (K × K)} {u X Y x0 x1 y0 y1 : K} (hu : 0 ≤ u)
    (hx : ∀ z ∈ vs.map Prod.fst, x0 ≤ z ∧ z ≤ x1) (hy : ∀ z ∈ vs.map Prod.snd, y0 ≤ z ∧ z ≤ y1)
    (h : NearTrack vs u X Y) : x0 - u < X ∧ X < x1 + u ∧ y0 - u < Y ∧ Y < y1 + u := by
  obtain ⟨a, c, hi, _, hn⟩ := h
  have ma : a ∈ vs := hi.subset (by simp)
  have mc : c ∈ vs := hi.subset (by simp)
  have xa := hx a.1 (List.mem_map_of_mem ma)
  have xc := hx c.1 (List.mem_map_of_mem mc)
  have ya := hy a.2 (List.mem_map_of_mem ma)
  have yc := hy c.2 (List.mem_map_of_mem mc)
  obtain ⟨⟨h1, h2⟩, h3, h4⟩ := near_bounds _ _ _ _ _ _ _ hu hn
  refine ⟨lt_of_le_of_lt ?_ h1, lt_of_lt_of_le h2 ?_, lt_of_le_of_lt ?_ h3, lt_of_lt_of_le h4 ?_⟩
  · have := le_min xa.1 xc.1; linarith
  · have := max_le xa.2 xc.2; linarith
  · have := le_min ya.1 yc.1; linarith
  · have := max_le ya.2 yc.2; linarith

/-- The position is already a node, or it is on the lattice and will become one when needed. -/
def Follows (f : PField K) (X Y : K) (narrow : Prop) : Prop :=
  f.IsNode X Y ∨ (narrow ∧ ∃ b, f.body = some b ∧ OnLattice b.xmin b.ymin f.deltax f.deltay X Y)

theorem Follows.step {f f' : PField K} {X Y : K} {n n' : Prop} (h : Follows f X Y n) (hn : n → n')
    (i : StepInv f f') : Follows f' X Y n' := by
  rcases h with h | ⟨hnar, b, hb, p, q, hp, hq⟩
  · exact Or.inl (i.nodes X Y h)
  · obtain ⟨b', hb', p', q', hp', hq'⟩ := i.lattice b hb
    refine Or.inr ⟨hn hnar, b', hb', p - p', q - q', ?_, ?_⟩
    · rw [hp', hp, i.dx]; push_cast; ring
    · rw [hq', hq, i.dy]; push_cast; ring

theorem track_follow {f : PField K} (hf : f.WF) (vs : List (K × K)) (u : K) (hvs : vs ≠ []) (hu : 0 ≤ u)
    {X Y : K} (hF : Follows f X Y (u ≤ f.deltax ∧ u ≤ f.deltay)) :
    ∃ f', f.rasterize (vs.map Prod.fst) (vs.map Prod.snd) u = some (f', .ok ()) ∧ StepInv f f' ∧
      f'.total = f.total ∧ f'.weightAt X Y = f.weightAt X Y ∧
      (f'.markedAt X Y ↔ f.markedAt X Y ∨ NearTrack vs u X Y) := by
  obtain ⟨f', e, v, f1, x0, x1, y0, y1, _, v1, hn, _, bx, by'⟩ :=
    rasterize_view f hf (vs.map Prod.fst) (vs.map Prod.snd) u (by simpa using hvs) (by simp)
  rw [zip_map] at v
  refine ⟨f', e, ⟨v.wf, v.dx, v.dy, v.nodes, v.lattice⟩, v.total, v.weight X Y, ?_, ?_⟩
  · intro h; exact (v.marked_of X Y h).imp_right And.right
  · rintro (h | h)
    · exact v.marked_mono X Y h
    · apply v.marked_near hu X Y _ h
      rcases hF with hF | ⟨⟨hux, huy⟩, b, hb, hL⟩
      · exact v.nodes X Y hF
      · obtain ⟨h1, h2, h3, h4⟩ := nearTrack_bounds hu bx by' h
        exact (hn X Y).mpr (v1.covers b hb u X Y hux huy hL h1 h2 h3 h4)

open Classical in
/-- The refinement: from any well-formed state whose mark at `(X, Y)` is explained by the open tracks `p`. -/
theorem history_refine (es : List (Event K)) : ∀ (f : PField K) (p : List (List (K × K) × K)) (X Y : K),
    f.WF → f.body ≠ none → (∀ e ∈ es, e.Valid) →
    Follows f X Y (∀ e ∈ es, e.Narrow f.deltax f.deltay) →
    (f.markedAt X Y ↔ Visits p X Y) →
    ∃ f', f.run (es.map Event.call) = some f' ∧ StepInv f f' ∧
      f'.total = f.total + ((registered es p).map Realization.weight).sum ∧
      f'.weightAt X Y = f.weightAt X Y + visitWeight (registered es p) X Y ∧
      (f'.markedAt X Y ↔ Visits (pending es p) X Y) := by
  induction es with
  | nil =>
    intro f p X Y hf _ _ _ hm
    exact ⟨f, rfl, .refl hf, by simp [registered], by simp [registered, visitWeight], hm⟩
  | cons e es ih =>
    intro f p X Y hf hb hv hF hm
    have hv' : ∀ e ∈ es, e.Valid := fun e he => hv e (by simp [he])
    have body_ne : ∀ {f' : PField K}, StepInv f f' → f'.body ≠ none := by
      intro f' i
      obtain ⟨b, hb⟩ := Option.ne_none_iff_exists'.mp hb
      obtain ⟨b', hb', _⟩ := i.lattice b hb
      rw [hb']; simp
    have follow : ∀ {f' : PField K}, StepInv f f' →
        Follows f' X Y (∀ e ∈ es, e.Narrow f'.deltax f'.deltay) := by
      intro f' i
      refine hF.step (fun h e he => ?_) i
      rw [i.dx, i.dy]; exact h e (by simp [he])
    cases e with
    | track vs u =>
      obtain ⟨hvs, hu⟩ := hv (.track vs u) (by simp)
      obtain ⟨f1, e1, i1, t1, w1, m1⟩ := track_follow hf vs u hvs hu
        (X := X) (Y := Y) (hF.imp_right (fun h => ⟨h.1 (.track vs u) (by simp), h.2⟩))
      obtain ⟨f2, e2, i2, t2, w2, m2⟩ := ih f1 (p ++ [(vs, u)]) X Y i1.wf (body_ne i1) hv' (follow i1)
        (by rw [m1, hm]; unfold Visits; simp [or_and_right, exists_or])
      refine ⟨f2, ?_, i1.trans i2, ?_, ?_, m2⟩
      · simp only [List.map_cons, Event.call, run, step, e1]; exact e2
      · rw [t2, t1]; rfl
      · rw [w2, w1]; rfl
    | register w =>
      obtain ⟨f1, e1, wf1, dx1, dy1, t1, w1, m1, n1, l1⟩ := register_view f hf hb w
      have i1 : StepInv f f1 := ⟨wf1, dx1, dy1, fun X Y h => (n1 X Y).mpr h, fun b hb => by
        obtain ⟨b', hb', h1, h2, _⟩ := l1 b hb
        exact ⟨b', hb', 0, 0, by rw [h1]; simp, by rw [h2]; simp⟩⟩
      obtain ⟨f2, e2, i2, t2, w2, m2⟩ := ih f1 [] X Y i1.wf (body_ne i1) hv' (follow i1)
        (by simp [m1 X Y, Visits])
      refine ⟨f2, ?_, i1.trans i2, ?_, ?_, m2⟩
      · simp only [List.map_cons, Event.call, run, step, e1, lift]; exact e2
      · rw [t2, t1]; simp [registered, add_assoc]
      · rw [w2, w1]
        simp only [hm, registered, visitWeight, List.map_cons, List.sum_cons, add_assoc]
    | reset =>
      obtain ⟨f1, e1, wf1, dx1, dy1, t1, w1, m1, n1, l1⟩ := reset_view f hf hb
      have i1 : StepInv f f1 := ⟨wf1, dx1, dy1, fun X Y h => (n1 X Y).mpr h, fun b hb => by
        obtain ⟨b', hb', h1, h2, _⟩ := l1 b hb
        exact ⟨b', hb', 0, 0, by rw [h1]; simp, by rw [h2]; simp⟩⟩
      obtain ⟨f2, e2, i2, t2, w2, m2⟩ := ih f1 [] X Y i1.wf (body_ne i1) hv' (follow i1)
        (by simp [m1 X Y, Visits])
      refine ⟨f2, ?_, i1.trans i2, ?_, ?_, m2⟩
      · simp only [List.map_cons, Event.call, run, step, e1, lift]; exact e2
      · rw [t2, t1]; rfl
      · rw [w2, w1]; rfl
    | expand x0 x1 y0 y1 =>
      obtain ⟨hx, hy⟩ := hv (.expand x0 x1 y0 y1) (by simp)
      obtain ⟨f1, e1, v1⟩ := expand_view f hf x0 x1 y0 y1 hx hy
      have i1 : StepInv f f1 := ⟨v1.wf, v1.dx, v1.dy, v1.nodes, v1.lattice⟩
      obtain ⟨f2, e2, i2, t2, w2, m2⟩ := ih f1 p X Y i1.wf (body_ne i1) hv' (follow i1)
        (by rw [v1.marked, hm])
      refine ⟨f2, ?_, i1.trans i2, ?_, ?_, m2⟩
      · simp only [List.map_cons, Event.call, run, step, e1, lift, Option.map_some]; exact e2
      · rw [t2, v1.total]; rfl
      · rw [w2, v1.weight]; rfl

/-- Nothing is ever recorded off the lattice. -/
theorem weightAt_off_lattice {f f' : PField K} {b : Body K} (hb : f.body = some b) (i : StepInv f f') {X Y : K}
    (h : ¬ OnLattice b.xmin b.ymin f.deltax f.deltay X Y) : ¬ f'.IsNode X Y := by
  rintro ⟨c, hc, m, n, _, _, hX, hY⟩
  obtain ⟨b', hb', p, q, hp, hq⟩ := i.lattice b hb
  obtain rfl := Option.some.inj (hb'.symm.trans hc)
  refine h ⟨p + n, q + m, ?_, ?_⟩
  · rw [hX, hp, i.dx]; push_cast; ring
  · rw [hY, hq, i.dy]; push_cast; ring

end PField
end Oneka
