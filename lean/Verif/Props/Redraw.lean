import Verif.Lemmas.RedrawAlike

/-!
# C150: how a track is described does not matter

`rasterize` takes lists of coordinates. What it records is a matter of the curve only: the same curve passed from the other end, or with more
vertices, gives a field nothing observable can tell apart, at once and after any further calls.
-/

namespace Oneka

open PField

section

variable {K : Type} [Field K] [LinearOrder K] [IsStrictOrderedRing K] [FloorRing K]

/-- **C150.** Replace, in any history of calls, any number of tracks by other descriptions of the same curves: same nodes, same weights, same marks, same total,
for every umbra. -/
theorem C150_redrawn {dx dy xo yo : K} {f0 : PField K} (h0 : PField.new dx dy (some xo) (some yo) = .ok f0)
    {es es' : List (Event K)} (h : List.Forall₂ Event.SameCurve es es') (hv : ∀ e ∈ es, e.Valid) :
    ∃ f f', f0.run (es.map Event.call) = some f ∧ f0.run (es'.map Event.call) = some f' ∧ f.Alike f' := by
  have hv' := sameCurves_valid h hv
  obtain ⟨f, e, n⟩ := C73_nodes h0 es hv
  obtain ⟨f', e', n'⟩ := C73_nodes h0 es' hv'
  refine ⟨f, f', e, e', alike_of h0 hv hv' e e' (fun X Y => ?_) ?_ fun X Y => ?_⟩
  · rw [n, n', (sameCurves_points h).reached]
  · exact congrArg List.sum (sameCurves_weights h [] [])
  · exact sameCurves_records h xo yo dx dy X Y [] [] [] [] (.refl _) Iff.rfl

/-- **C150.** A track may be passed in two pieces that share a vertex, provided the umbra does not exceed the spacing (whatever the
umbras of the other tracks). -/
theorem C150_cut {dx dy xo yo : K} {f0 : PField K} (h0 : PField.new dx dy (some xo) (some yo) = .ok f0)
    (es later : List (Event K)) (pre : List (K × K)) (a : K × K) (post : List (K × K)) (u : K) (hu : 0 ≤ u) (hx : u ≤ dx) (hy : u ≤ dy)
    (hv : ∀ e ∈ es, e.Valid) (hl : ∀ e ∈ later, e.Valid) :
    ∃ f f', f0.run ((es ++ .track (pre ++ a :: post) u :: later).map Event.call) = some f ∧
      f0.run ((es ++ .track (pre ++ [a]) u :: .track (a :: post) u :: later).map Event.call) = some f' ∧ f.Alike f' := by
  have hv1 : ∀ e ∈ es ++ .track (pre ++ a :: post) u :: later, e.Valid := by
    intro e he
    rcases List.mem_append.mp he with he | he
    · exact hv e he
    · rcases List.mem_cons.mp he with rfl | he
      · exact ⟨by simp, hu⟩
      · exact hl e he
  have hv2 : ∀ e ∈ es ++ .track (pre ++ [a]) u :: .track (a :: post) u :: later, e.Valid := by
    intro e he
    rcases List.mem_append.mp he with he | he
    · exact hv e he
    · rcases List.mem_cons.mp he with rfl | he
      · exact ⟨by simp, hu⟩
      · rcases List.mem_cons.mp he with rfl | he
        · exact ⟨by simp, hu⟩
        · exact hl e he
  have hs : ∀ s : List (K × K), SeenLike (s ++ (pre ++ a :: post)) (s ++ (pre ++ [a]) ++ a :: post) := by
    intro s
    refine .of_mem fun v => ?_
    simp only [List.mem_append, List.mem_cons, List.not_mem_nil, or_false]
    tauto
  obtain ⟨f, e, n⟩ := C73_nodes h0 _ hv1
  obtain ⟨f', e', n'⟩ := C73_nodes h0 _ hv2
  refine ⟨f, f', e, e', alike_of h0 hv1 hv2 e e' (fun X Y => ?_) ?_ fun X Y => ?_⟩
  · rw [n, n']
    refine and_congr Iff.rfl (SeenLike.reached ?_ ..)
    simp only [List.flatMap_append, List.flatMap_cons, Event.points]
    have := (hs (es.flatMap Event.points)).append (.refl (later.flatMap Event.points))
    simpa only [List.append_assoc] using this
  · exact congrArg List.sum (cut_weights es later _ _ _ u)
  · rw [(drawn_append es _ [] []).1, (drawn_append es _ [] []).2, (drawn_append es (.track (pre ++ [a]) u :: _) [] []).1,
      (drawn_append es (.track (pre ++ [a]) u :: _) [] []).2]
    generalize drawnPending es [] [] = p
    generalize [] ++ es.flatMap Event.points = s
    have key := sameCurves_records (es := later) (es' := later) (List.forall₂_same.mpr fun e _ => .refl e) xo yo dx dy X Y
      (s ++ (pre ++ a :: post)) (s ++ (pre ++ [a]) ++ a :: post) (p ++ [⟨pre ++ a :: post, u, s ++ (pre ++ a :: post)⟩])
      (p ++ [⟨pre ++ [a], u, s ++ (pre ++ [a])⟩] ++ [⟨a :: post, u, s ++ (pre ++ [a]) ++ a :: post⟩]) (hs s) ?_
    · refine ⟨?_, key.2⟩
      have k1 := key.1
      simp only [recordedWeight, List.map_append, List.sum_append] at k1 ⊢
      exact congrArg _ k1
    · rw [records_append, records_append, records_append, or_assoc]
      refine or_congr Iff.rfl ?_
      have r : ∀ (t s : List (K × K)), t ⊆ s → ((NearTrack t u X Y ∧ Reached xo yo dx dy s X Y) ↔ NearTrack t u X Y) :=
        fun t s h => and_iff_left_of_imp fun k => near_within k h hu hx hy
      rw [r _ _ (List.subset_append_right ..), r _ _ (List.subset_append_right ..), r _ _ (List.subset_append_right ..)]
      exact nearTrack_append ..

/-- **C150.** With an umbra larger than the spacing, passing a track in two pieces can lose marks. -/
theorem C150_cut_matters : ∃ (f0 f f' : PField ℚ), PField.new 1 1 (some 0) (some 0) = .ok f0 ∧
    f0.run (([.track [(0, 0), (1/2, 0), (9, 0), (9, 9)] (101/50)] : List (Event ℚ)).map Event.call) = some f ∧
    f0.run (([.track [(0, 0), (1/2, 0)] (101/50), .track [(1/2, 0), (9, 0), (9, 9)] (101/50)] : List (Event ℚ)).map Event.call) = some f' ∧
    f.IsNode 0 2 ∧ f'.IsNode 0 2 ∧ f.markedAt 0 2 ∧ ¬ f'.markedAt 0 2 := by
  obtain ⟨f0, b, hnew, -⟩ := new_origin (1:ℚ) 1 0 0 (by norm_num) (by norm_num)
  have v1 : ∀ e ∈ ([.track [(0, 0), (1/2, 0), (9, 0), (9, 9)] (101/50)] : List (Event ℚ)), e.Valid := by simp [Event.Valid]; norm_num
  have v2 : ∀ e ∈ ([.track [(0, 0), (1/2, 0)] (101/50), .track [(1/2, 0), (9, 0), (9, 9)] (101/50)] : List (Event ℚ)), e.Valid := by
    simp [Event.Valid]; norm_num
  obtain ⟨f, e, n⟩ := C73_nodes hnew _ v1
  obtain ⟨f', e', n'⟩ := C73_nodes hnew _ v2
  have L : OnLattice (0:ℚ) 0 1 1 0 2 := ⟨0, 2, by norm_num, by norm_num⟩
  obtain ⟨g, eg, hg⟩ := C73_weights hnew _ v1
  obtain rfl := Option.some.inj (eg.symm.trans e)
  obtain ⟨g', eg', hg'⟩ := C73_weights hnew _ v2
  obtain rfl := Option.some.inj (eg'.symm.trans e')
  have m := (hg 0 2 L).2
  have m' := (hg' 0 2 L).2
  refine ⟨f0, _, _, hnew, e, e', (n 0 2).mpr ⟨L, ?_⟩, (n' 0 2).mpr ⟨L, ?_⟩, m.mpr ?_, fun h => ?_⟩
  · norm_num [Reached, InReach, Event.points]
  · norm_num [Reached, InReach, Event.points]
  · refine ⟨_, by simp only [drawnPending, List.nil_append]; exact List.mem_singleton_self _, ?_, ?_⟩
    · exact ⟨(0, 0), (1/2, 0), ⟨[], [(9, 0), (9, 9)], rfl⟩, by norm_num, 0, le_refl _, by norm_num, by norm_num⟩
    · norm_num [Reached, InReach]
  · obtain ⟨t, ht, hn, hr⟩ := m'.mp h
    simp only [drawnPending, List.nil_append, List.cons_append, List.mem_cons, List.not_mem_nil, or_false] at ht
    rcases ht with rfl | rfl
    · norm_num [Reached, InReach] at hr
    · simp only [nearTrack_cons, nearTrack_single, or_false] at hn
      rcases hn with ⟨-, t, t0, t1, h⟩ | ⟨-, t, t0, t1, h⟩
      · norm_num at h; nlinarith
      · norm_num at h; nlinarith

end

end Oneka
