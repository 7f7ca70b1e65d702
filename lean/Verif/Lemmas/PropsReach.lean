import Verif.Lemmas.RunReach
import Verif.Props.Oneka

/-!
# Lemmas for Props/Reach.lean
-/

namespace Oneka

open PField

section

variable {K : Type} [Field K] [LinearOrder K] [IsStrictOrderedRing K] [FloorRing K]

theorem weight_zero {dx dy xo yo : K} {f0 : PField K} (h0 : PField.new dx dy (some xo) (some yo) = .ok f0) (X Y : K) :
    f0.weightAt X Y = 0 ∧ ¬ f0.markedAt X Y := by
  obtain ⟨wf0, hx, hy⟩ := new_wf h0
  obtain ⟨f1, b, hnew, hb, _, _, fr, fc, bx0, bx1, by0, by1, ht, hp, hr⟩ := new_origin dx dy xo yo
    (hx ▸ wf0.dx_pos) (hy ▸ wf0.dy_pos)
  obtain rfl : f0 = f1 := by rw [h0] at hnew; simpa using hnew
  constructor
  · unfold PField.weightAt
    rcases lookAt_cases f0 b wf0.dx_pos wf0.dy_pos hb Body.pgrid 0 X Y with ⟨i, j, _, _, _, _, hv⟩ | ⟨_, hv⟩
    · rw [hv, hp]
    · exact hv
  · intro h
    rw [markedAt_iff f0 b wf0 hb] at h
    obtain ⟨i, j, _, _, _, _, h⟩ := h
    rw [hr] at h; simp at h

theorem groups_weights (es : List (Event K)) : ∀ (s : List (K × K)) (p : List (Drawn K)) (q : List (List (K × K) × K)),
    (drawnGroups es s p).length = (registered es q).length ∧
      (p.map (fun t => (t.track, t.umbra)) = q →
        (drawnGroups es s p).map (fun g => (⟨g.1.map fun t => (t.track, t.umbra), g.2⟩ : Realization K)) = registered es q) := by
  induction es with
  | nil => intro s p q; simp [drawnGroups, registered]
  | cons e es ih =>
    intro s p q
    cases e with
    | track vs u =>
      simp only [drawnGroups, registered]
      exact ⟨(ih _ _ _).1, fun h => (ih _ _ _).2 (by simp [h])⟩
    | register w =>
      simp only [drawnGroups, registered, List.length_cons, List.map_cons]
      exact ⟨by rw [(ih s [] []).1], fun h => by rw [(ih s [] []).2 rfl, h]⟩
    | reset =>
      simp only [drawnGroups, registered]
      exact ⟨(ih s [] []).1, fun h => (ih s [] []).2 rfl⟩
    | expand x0 x1 y0 y1 =>
      simp only [drawnGroups, registered]
      exact ⟨(ih _ _ _).1, fun h => (ih _ _ _).2 h⟩

end

open Classical in
theorem recorded_le (ls : List RealizationLog) (xo yo s u X Y : ℝ) :
    ((List.range ls.length).countP fun i => RecordedBy xo yo s u ls X Y i) ≤ ls.countP fun L => L.Captures u X Y := by
  have h1 : ls.countP (fun L => L.Captures u X Y) = (List.range ls.length).countP fun i => ∃ L, ls[i]? = some L ∧ L.Captures u X Y := by
    induction ls with
    | nil => simp
    | cons L ls ih =>
      rw [List.length_cons, List.range_succ_eq_map, List.countP_cons, List.countP_cons, List.countP_map, ih]
      simp [Function.comp_def]
  rw [h1]
  refine List.countP_mono_left fun i _ hi => ?_
  simp only [decide_eq_true_eq] at hi ⊢
  obtain ⟨L, hL, before, track, after, e, hn, -⟩ := hi
  refine ⟨L, hL, ?_⟩
  have : track ∈ L.paths := by rw [e]; simp
  obtain ⟨tr, htr, rfl⟩ := List.mem_map.mp this
  exact ⟨tr, htr, hn⟩

end Oneka
