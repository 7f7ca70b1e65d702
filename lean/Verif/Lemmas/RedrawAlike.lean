import Verif.Lemmas.Redraw
import Verif.Props.Reach

/-!
# Two histories with the same nodes and records give indistinguishable fields
-/

namespace Oneka

open PField

variable {K : Type} [Field K] [LinearOrder K]

theorem records_append {xo yo dx dy X Y : K} (p : List (Drawn K)) (d : Drawn K) : Records xo yo dx dy (p ++ [d]) X Y ↔
    Records xo yo dx dy p X Y ∨ (NearTrack d.track d.umbra X Y ∧ Reached xo yo dx dy d.seen X Y) := by
  simp only [Records, List.mem_append, List.mem_singleton, or_and_right, exists_or, exists_eq_left]

theorem cut_weights (es later : List (Event K)) (a b c : List (K × K)) (u : K) :
    (registered (es ++ .track a u :: later) []).map Realization.weight =
      (registered (es ++ .track b u :: .track c u :: later) []).map Realization.weight := by
  have same : ∀ (l : List (Event K)) p p', (registered l p).map Realization.weight = (registered l p').map Realization.weight :=
    fun l p p' => sameCurves_weights (List.forall₂_same.mpr fun e _ => .refl e) p p'
  suffices ∀ p, (registered (es ++ .track a u :: later) p).map Realization.weight =
      (registered (es ++ .track b u :: .track c u :: later) p).map Realization.weight from this []
  induction es with
  | nil => intro p; simp only [List.nil_append, registered]; exact same _ _ _
  | cons e es ih =>
    intro p
    cases e with
    | register w => simp only [List.cons_append, registered, List.map_cons]; rw [ih]
    | _ => exact ih _

variable [IsStrictOrderedRing K] [FloorRing K]

theorem alike_of {dx dy xo yo : K} {f0 f f' : PField K} (h0 : PField.new dx dy (some xo) (some yo) = .ok f0)
    {es es' : List (Event K)} (hv : ∀ e ∈ es, e.Valid) (hv' : ∀ e ∈ es', e.Valid)
    (e : f0.run (es.map Event.call) = some f) (e' : f0.run (es'.map Event.call) = some f')
    (hn : ∀ X Y, f.IsNode X Y ↔ f'.IsNode X Y)
    (ht : ((registered es []).map Realization.weight).sum = ((registered es' []).map Realization.weight).sum)
    (hr : ∀ X Y, recordedWeight xo yo dx dy (drawnGroups es [] []) X Y = recordedWeight xo yo dx dy (drawnGroups es' [] []) X Y ∧
      (Records xo yo dx dy (drawnPending es [] []) X Y ↔ Records xo yo dx dy (drawnPending es' [] []) X Y)) : f.Alike f' := by
  obtain ⟨wf0, hx, hy⟩ := new_wf h0
  obtain ⟨g, eg, tg, -, og⟩ := C12_accumulation h0 es hv
  obtain ⟨g', eg', tg', -, og'⟩ := C12_accumulation h0 es' hv'
  obtain ⟨k, ek, wk⟩ := C73_weights h0 es hv
  obtain ⟨k', ek', wk'⟩ := C73_weights h0 es' hv'
  obtain ⟨j, ej, -, jx, jy, -⟩ := history_records es f0 [] [] xo yo xo yo (.start h0) hv ⟨0, 0, by simp, by simp⟩
    (by simp [(weight_zero h0 xo yo).2, Records])
  obtain ⟨j', ej', -, jx', jy', -⟩ := history_records es' f0 [] [] xo yo xo yo (.start h0) hv' ⟨0, 0, by simp, by simp⟩
    (by simp [(weight_zero h0 xo yo).2, Records])
  obtain rfl := Option.some.inj (eg.symm.trans e)
  obtain rfl := Option.some.inj (eg'.symm.trans e')
  obtain rfl := Option.some.inj (ek.symm.trans e)
  obtain rfl := Option.some.inj (ek'.symm.trans e')
  obtain rfl := Option.some.inj (ej.symm.trans e)
  obtain rfl := Option.some.inj (ej'.symm.trans e')
  refine ⟨jx.trans jx'.symm, jy.trans jy'.symm, by rw [tg, tg', ht], fun X Y => ⟨hn X Y, ?_⟩⟩
  by_cases hL : OnLattice xo yo dx dy X Y
  · rw [(wk X Y hL).1, (wk' X Y hL).1, (wk X Y hL).2, (wk' X Y hL).2]
    exact hr X Y
  · exact ⟨(og X Y hL).1.trans (og' X Y hL).1.symm, iff_of_false (og X Y hL).2 (og' X Y hL).2⟩

end Oneka
