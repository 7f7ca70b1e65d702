import Verif.Lemmas.PropsReach

/-!
# C73, C74: which nodes exist and what they count, for every umbra

C10 to C12 say what is recorded when the umbra does not exceed the spacing, and that this fails for a larger umbra (as in all the data sets that come
with the program). Here is what holds for every umbra: a position gets a node when it is at most one spacing outside the vertices shown so far, and counts
the tracks passing nearby from then on.
-/

namespace Oneka

open PField

section

variable {K : Type} [Field K] [LinearOrder K] [IsStrictOrderedRing K] [FloorRing K]

/-- **C73.** After any history of tracks (any umbra), boxes, `register` and `reset` on a field constructed with an origin, the nodes are exactly the
lattice positions at most one spacing outside the positions shown to the field. -/
theorem C73_nodes {dx dy xo yo : K} {f0 : PField K} (h0 : PField.new dx dy (some xo) (some yo) = .ok f0)
    (es : List (Event K)) (hv : ∀ e ∈ es, e.Valid) :
    ∃ f, f0.run (es.map Event.call) = some f ∧
      ∀ X Y, f.IsNode X Y ↔ OnLattice xo yo dx dy X Y ∧ Reached xo yo dx dy (es.flatMap Event.points) X Y := by
  obtain ⟨wf0, hx, hy⟩ := new_wf h0
  obtain ⟨f, e, s, fx, fy, -⟩ := history_records es f0 [] [] xo yo xo yo (.start h0) hv ⟨0, 0, by simp, by simp⟩
    (by simp [(weight_zero h0 xo yo).2, Records])
  refine ⟨f, e, fun X Y => ?_⟩
  rw [s.isNode X Y, fx, fy, hx, hy, List.nil_append]

/-- **C73.** After such a history the weight of a lattice position is the total weight of the registered groups of tracks one of whose tracks passed
within its umbra when the position was within reach; the position is marked exactly if a track not yet registered did so. -/
theorem C73_weights {dx dy xo yo : K} {f0 : PField K} (h0 : PField.new dx dy (some xo) (some yo) = .ok f0)
    (es : List (Event K)) (hv : ∀ e ∈ es, e.Valid) :
    ∃ f, f0.run (es.map Event.call) = some f ∧
      ∀ X Y, OnLattice xo yo dx dy X Y →
        f.weightAt X Y = recordedWeight xo yo dx dy (drawnGroups es [] []) X Y ∧
        (f.markedAt X Y ↔ Records xo yo dx dy (drawnPending es [] []) X Y) := by
  obtain ⟨wf0, hx, hy⟩ := new_wf h0
  obtain ⟨f, e, -⟩ := C73_nodes h0 es hv
  refine ⟨f, e, fun X Y hL => ?_⟩
  obtain ⟨f', e', -, -, -, w, m⟩ := history_records es f0 [] [] xo yo X Y (.start h0) hv (by rw [hx, hy]; exact hL)
    (by simp [(weight_zero h0 X Y).2, Records])
  rw [e] at e'
  obtain rfl := Option.some.inj e'
  rw [hx, hy] at w m
  exact ⟨by rw [w, (weight_zero h0 X Y).1, zero_add], m⟩

/-- **C73.** Hence the field never overstates: with weights `≥ 0`, the weight of a position is at most the total weight of the realizations that
passed within their umbra, whatever the umbra. -/
theorem C73_never_overstates {dx dy xo yo : K} {f0 : PField K} (h0 : PField.new dx dy (some xo) (some yo) = .ok f0)
    (es : List (Event K)) (hv : ∀ e ∈ es, e.Valid) (hw : ∀ w, Event.register w ∈ es → 0 ≤ w) :
    ∃ f, f0.run (es.map Event.call) = some f ∧ ∀ X Y, f.weightAt X Y ≤ visitWeight (registered es []) X Y := by
  obtain ⟨f, e, h⟩ := C73_weights h0 es hv
  refine ⟨f, e, fun X Y => ?_⟩
  have hreg : ∀ (es : List (Event K)) (p : List (List (K × K) × K)), (∀ w, Event.register w ∈ es → 0 ≤ w) →
      ∀ r ∈ registered es p, 0 ≤ r.weight := by
    intro es
    induction es with
    | nil => intro p _ r hr; simp [registered] at hr
    | cons e es ih =>
      intro p hw r hr
      have hw' : ∀ w, Event.register w ∈ es → 0 ≤ w := fun w m => hw w (by simp [m])
      cases e with
      | track vs u => exact ih _ hw' r hr
      | register w =>
        rcases List.mem_cons.mp hr with rfl | hr
        · exact hw _ (by simp)
        · exact ih _ hw' r hr
      | reset => exact ih _ hw' r hr
      | expand => exact ih _ hw' r hr
  have hpos := hreg es [] hw
  by_cases hL : OnLattice xo yo dx dy X Y
  · rw [(h X Y hL).1]
    unfold recordedWeight visitWeight
    have hg := (groups_weights es [] [] []).2 rfl
    rw [← hg, List.map_map]
    rw [← hg] at hpos
    refine List.sum_le_sum fun g hgm => ?_
    have hwg : 0 ≤ g.2 := hpos _ (List.mem_map_of_mem hgm)
    simp only [Function.comp]
    by_cases hr : Records xo yo dx dy g.1 X Y
    · have hvis : Visits (g.1.map fun t => (t.track, t.umbra)) X Y := by
        obtain ⟨t, ht, hn, -⟩ := hr
        exact ⟨(t.track, t.umbra), List.mem_map.mpr ⟨t, ht, rfl⟩, hn⟩
      rw [if_pos hr, if_pos hvis]
    · rw [if_neg hr]
      split_ifs
      · exact hwg
      · exact le_refl _
  · have hn : ¬ f.IsNode X Y := fun hn => hL ((C02_lattice h0 e).2.2 X Y hn)
    rw [show f.weightAt X Y = 0 from lookAt_not f _ _ X Y hn]
    unfold visitWeight
    refine List.sum_nonneg fun z hz => ?_
    obtain ⟨r, hr, rfl⟩ := List.mem_map.mp hz
    split_ifs
    · exact hpos r hr
    · exact le_refl _

end

/-- Spacing 1, umbra 3, and two tracks: the first one ends at (1/2, 0), so that the grid reaches to 2 on neither side and the position (2, 0) is missed
although it is within the umbra; the second one ends at (3/2, 0) and is recorded there. -/
example : ∃ f0 f : PField ℚ, PField.new 1 1 (some 0) (some 0) = .ok f0 ∧
    f0.run (([.track [(0,0),(1/2,0)] 3, .register 1, .track [(0,0),(3/2,0)] 3, .register 1] : List (Event ℚ)).map Event.call) = some f ∧
    f.weightAt 2 0 = 1 ∧ f.weightAt 1 0 = 2 := by
  obtain ⟨f0, b, hnew, -⟩ := new_origin (1:ℚ) 1 0 0 (by norm_num) (by norm_num)
  obtain ⟨f, hf, h⟩ := C73_weights hnew [.track [(0,0),(1/2,0)] 3, .register 1, .track [(0,0),(3/2,0)] 3, .register 1]
    (by simp [Event.Valid])
  have near : ∀ (e X : ℚ), e ≠ 0 → 0 ≤ X → X ≤ 2 → NearTrack [((0:ℚ), (0:ℚ)), (e, 0)] 3 X 0 := by
    intro e X he h1 h2
    refine ⟨(0, 0), (e, 0), List.infix_refl _, ?_, 0, le_refl _, by norm_num, ?_⟩
    · simp only [ne_eq, Prod.mk.injEq, and_true]; exact he.symm
    · norm_num; nlinarith
  have n1 := near (1/2) 2 (by norm_num) (by norm_num) (by norm_num)
  have n2 := near (3/2) 2 (by norm_num) (by norm_num) (by norm_num)
  have n3 := near (1/2) 1 (by norm_num) (by norm_num) (by norm_num)
  have n4 := near (3/2) 1 (by norm_num) (by norm_num) (by norm_num)
  refine ⟨f0, f, hnew, hf, ?_, ?_⟩
  · rw [(h 2 0 ⟨2, 0, by norm_num, by norm_num⟩).1]
    have r1 : ¬ Reached (0:ℚ) 0 1 1 [(0,0),(1/2,0)] 2 0 := by norm_num [Reached, InReach]
    have r2 : Reached (0:ℚ) 0 1 1 [(0,0),(1/2,0),(0,0),(3/2,0)] 2 0 := by norm_num [Reached, InReach]
    simp [recordedWeight, drawnGroups, Records, -one_div, n1, n2, r1, r2]
  · rw [(h 1 0 ⟨1, 0, by norm_num, by norm_num⟩).1]
    have r1 : Reached (0:ℚ) 0 1 1 [(0,0),(1/2,0)] 1 0 := by norm_num [Reached, InReach]
    have r2 : Reached (0:ℚ) 0 1 1 [(0,0),(1/2,0),(0,0),(3/2,0)] 1 0 := by norm_num [Reached, InReach]
    simp [recordedWeight, drawnGroups, Records, -one_div, n3, n4, r1, r2]
    norm_num

/-! ## C74 -/

open Classical in
/-- What C73 says about the field left by a list of realizations. -/
theorem run_reach {s xo yo u : ℝ} {f0 f : PField ℝ} (h0 : PField.new s s (some xo) (some yo) = .ok f0) (hu : 0 ≤ u)
    {ls : List RealizationLog} (hne : ∀ L ∈ ls, ∀ vs ∈ L.paths, vs ≠ [])
    (h : f0.run ((runEvents u ls).map Event.call) = some f) :
    (∀ X Y, f.IsNode X Y ↔ OnLattice xo yo s s X Y ∧ Reached xo yo s s (allVertices ls) X Y) ∧
    (∀ X Y, OnLattice xo yo s s X Y →
      f.weightAt X Y = ((List.range ls.length).countP fun i => RecordedBy xo yo s u ls X Y i)) := by
  have hv := runEvents_valid hu hne
  obtain ⟨f1, e1, n1⟩ := C73_nodes h0 (runEvents u ls) hv
  obtain rfl : f = f1 := by rw [h] at e1; exact Option.some.inj e1
  obtain ⟨f2, e2, w2⟩ := C73_weights h0 (runEvents u ls) hv
  obtain rfl : f = f2 := by rw [h] at e2; exact Option.some.inj e2
  refine ⟨fun X Y => by rw [n1, runEvents_points], fun X Y hL => ?_⟩
  rw [(w2 X Y hL).1]
  rw [runEvents_weight xo yo s u X Y ls []]
  congr!

open Classical in
/-- **C74.** After a stochastic run with any umbra, the nodes are exactly the positions of the lattice through the target that are at most one spacing outside the vertices
of all tracks, and the weight of each is the number of realizations with a track passing within the umbra at a time when the position was at most one spacing outside
the vertices traced so far. Example: `Props/Examples.lean`. -/
theorem C74_stochastic (a : RunArgs) (n k : ℕ) (env : Env) (t : SWell) (hk : a.target = k) (ht : a.wells[k]? = some t) (hu : 0 ≤ a.umbra)
    {r : RunResult} {f : PField ℝ} (h : createStochastic a n env = some r) (ho : r.outcome = .ok f) :
    (∀ X Y, f.IsNode X Y ↔ OnLattice t.xw t.yw a.spacing a.spacing X Y ∧ Reached t.xw t.yw a.spacing a.spacing (allVertices r.log) X Y) ∧
    (∀ X Y, f.IsNode X Y →
      f.weightAt X Y = ((List.range n).countP fun i => RecordedBy t.xw t.yw a.spacing a.umbra r.log X Y i)) ∧
    (∀ X Y, f.weightAt X Y ≤ (r.log.countP fun L => L.Captures a.umbra X Y)) := by
  unfold createStochastic at h
  rw [hk, getWell_nat ht] at h
  simp only at h
  split at h
  · obtain rfl := Option.some.inj h
    simp at ho
  · rename_i f0 hnew
    obtain ⟨hs, hdx, hdy, h0, hr0, hm0, hw0, ⟨b, hb, hbx, hby⟩, hnr, hnc⟩ := new_spec hnew
    obtain ⟨ls, a1, a2, -⟩ := loop_spec _ 0 f0 b [] r f hr0 hb hm0 h ho
    obtain ⟨ls', a1', a3, a4⟩ := loop_run _ 0 f0 [] r f (reachable_wf hr0) (by rw [hb]; simp) h ho
    simp only [List.nil_append] at a1 a1'
    obtain rfl : ls = ls' := a1.symm.trans a1'
    rw [Int.toNat_natCast] at a2
    obtain ⟨c1, c2⟩ := run_reach hnew hu a4 a3
    rw [← a1] at c1 c2
    have c3 : ∀ X Y, f.IsNode X Y →
        f.weightAt X Y = ((List.range n).countP fun i => RecordedBy t.xw t.yw a.spacing a.umbra r.log X Y i) := by
      intro X Y hn
      rw [c2 X Y ((c1 X Y).mp hn).1, a1, a2]
    refine ⟨c1, c3, fun X Y => ?_⟩
    by_cases hn : f.IsNode X Y
    · rw [c3 X Y hn]
      exact_mod_cast (by rw [← a2, ← a1]; exact recorded_le r.log _ _ _ _ X Y)
    · rw [show f.weightAt X Y = 0 from lookAt_not f _ _ X Y hn]
      exact Nat.cast_nonneg _

open Classical in
/-- **C74.** The same for a deterministic run: the weight of a node is 1 if one of the tracks passes within the umbra at a time when the position is at most one spacing outside the
vertices traced so far, otherwise 0. Example: `Props/Examples.lean`. -/
theorem C74_deterministic (a : RunArgs) (k : ℕ) (env : Env) (t : SWell) (hk : a.target = k) (ht : a.wells[k]? = some t) (hu : 0 ≤ a.umbra)
    {r : RunResult} {f : PField ℝ} (h : createDeterministic a env = some r) (ho : r.outcome = .ok f) :
    ∃ L, r.log = [L] ∧
    (∀ X Y, f.IsNode X Y ↔ OnLattice t.xw t.yw a.spacing a.spacing X Y ∧ Reached t.xw t.yw a.spacing a.spacing L.paths.flatten X Y) ∧
    (∀ X Y, f.IsNode X Y →
      f.weightAt X Y = if RecordsInOrder t.xw t.yw a.spacing a.spacing [] a.umbra L.paths X Y then 1 else 0) := by
  unfold createDeterministic at h
  rw [hk, getWell_nat ht] at h
  simp only at h
  split at h
  · obtain rfl := Option.some.inj h
    simp at ho
  · rename_i f0 hnew
    obtain ⟨hs, hdx, hdy, h0, hr0, hm0, hw0, ⟨b, hb, hbx, hby⟩, hnr, hnc⟩ := new_spec hnew
    split at h
    · simp at h
    rename_i o l hreal
    obtain rfl := Option.some.inj h
    simp only at ho
    subst ho
    obtain ⟨L, rfl, h1, h2, -⟩ := realize_run (reachable_wf hr0) (by rw [hb]; simp) hreal
    have hrun : f0.run ((runEvents a.umbra [L]).map Event.call) = some f := by
      unfold runEvents
      simpa using h1
    obtain ⟨c1, c2⟩ := run_reach hnew hu (ls := [L]) (by simpa using h2) hrun
    refine ⟨L, rfl, fun X Y => by rw [c1]; simp [allVertices], fun X Y hn => ?_⟩
    rw [c2 X Y ((c1 X Y).mp hn).1]
    by_cases hr : RecordsInOrder t.xw t.yw a.spacing a.spacing [] a.umbra L.paths X Y
    · simp [RecordedBy, allVertices, hr]
    · simp [RecordedBy, allVertices, hr]

open Classical in
/-- **C74.** And for the archive of a call that returns, with any umbra: its nodes and their weights follow from the tracks of the logged realizations. Example: `Props/Examples.lean`. -/
theorem C74_archived (a : PyArgs) (n : Inputs) (env : CallEnv) (v : PyVal) (hd : a.Denotes n)
    (h : (oneka a env).ending = .returns v) (fs : Files) :
    ∃ (d : Dict) (f : PField ℝ) (k : ℕ) (t : SWell),
      loadOneka ((oneka a env).events.foldl Effect.apply fs) env.now.archiveName = .ok d ∧ d.get "pfield" = some (.field (.field f)) ∧
      n.run.target = k ∧ n.run.wells[k]? = some t ∧
      ((realizations (oneka a env).events).length : ℤ) = max 1 n.nrealizations ∧
      (∀ X Y, f.IsNode X Y ↔ OnLattice t.xw t.yw n.run.spacing n.run.spacing X Y ∧
        Reached t.xw t.yw n.run.spacing n.run.spacing (allVertices (realizations (oneka a env).events)) X Y) ∧
      (∀ X Y, f.IsNode X Y →
        f.weightAt X Y = ((List.range (realizations (oneka a env).events).length).countP fun i =>
          RecordedBy t.xw t.yw n.run.spacing n.run.umbra (realizations (oneka a env).events) X Y i)) := by
  obtain ⟨-, -, ha, -⟩ := returned_course h
  obtain ⟨⟨k, t, hk, ht⟩, -, -, hu, -⟩ := accepted_inputs ha hd
  rcases returned_cases hd h with ⟨h1, obs, cols, r, f, pl, im, lines, H⟩ | ⟨h1, obs, cols, r, f, pl, H⟩
  · obtain ⟨d, hd1, hd2⟩ := archived_field h H.archived fs
    have hrun := H.run
    rw [show n.nrealizations = ((n.nrealizations.toNat : ℕ) : ℤ) by omega] at hrun
    obtain ⟨c1, -⟩ := C44_frequencies { n.run with obs := obs } n.nrealizations.toNat k env.run t hk ht hrun H.outcome
    obtain ⟨d1, d2, -⟩ := C74_stochastic { n.run with obs := obs } n.nrealizations.toNat k env.run t hk ht hu.le hrun H.outcome
    rw [← H.realizations_eq] at c1 d1 d2
    exact ⟨d, f, k, t, hd1, hd2, hk, ht, by rw [c1]; omega, d1, by rw [c1]; exact d2⟩
  · obtain ⟨d, hd1, hd2⟩ := archived_field h H.archived fs
    obtain ⟨L, e, d1, d2⟩ := C74_deterministic { n.run with obs := obs } k env.run t hk ht hu.le H.run H.outcome
    have e' : realizations (oneka a env).events = [L] := by rw [H.realizations_eq, e]
    refine ⟨d, f, k, t, hd1, hd2, hk, ht, by rw [e']; simp; omega, ?_, ?_⟩
    · intro X Y
      rw [d1, e']
      simp [allVertices]
    · intro X Y hn
      rw [d2 X Y hn, e']
      by_cases hr : RecordsInOrder t.xw t.yw n.run.spacing n.run.spacing [] n.run.umbra L.paths X Y
      · simp [RecordedBy, allVertices, hr]
      · simp [RecordedBy, allVertices, hr]

end Oneka
