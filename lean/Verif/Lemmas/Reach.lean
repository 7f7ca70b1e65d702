import Verif.Lemmas.Refine
import Verif.Spec.Reach

set_option linter.unusedSectionVars false

namespace Oneka
variable {K : Type} [Field K] [LinearOrder K] [IsStrictOrderedRing K] [FloorRing K]

/-- `lo` and `hi` are the outermost lattice coordinates after extending just far enough for `seen`. -/
structure Edges (o d : K) (seen : List K) (lo hi : K) : Prop where
  lo_lat : ∃ p : ℤ, lo = o + p * d
  hi_lat : ∃ p : ℤ, hi = o + p * d
  lo_le : lo ≤ o - d
  hi_le : o + d ≤ hi
  lo_lt : ∀ x ∈ seen, lo < x
  hi_lt : ∀ x ∈ seen, x < hi
  lo_min : lo = o - d ∨ ∃ x ∈ seen, x ≤ lo + d
  hi_min : hi = o + d ∨ ∃ x ∈ seen, hi - d ≤ x

theorem edges_start (o d : K) : Edges o d [] (o - d) (o + d) where
  lo_lat := ⟨-1, by push_cast; ring⟩
  hi_lat := ⟨1, by push_cast; ring⟩
  lo_le := le_refl _
  hi_le := le_refl _
  lo_lt := by simp
  hi_lt := by simp
  lo_min := Or.inl rfl
  hi_min := Or.inl rfl

theorem Edges.grow {o d : K} (hd : 0 < d) {seen new : List K} {lo hi : K} (h : Edges o d seen lo hi)
    {x0 x1 : K} (m0 : x0 ∈ new) (m1 : x1 ∈ new) (hb : ∀ x ∈ new, x0 ≤ x ∧ x ≤ x1) {ml mr : ℕ}
    (l_stop : lo - ml * d < x0) (l_go : ∀ k < ml, x0 ≤ lo - (k : K) * d)
    (r_stop : x1 < hi + mr * d) (r_go : ∀ k < mr, hi + (k : K) * d ≤ x1) :
    Edges o d (seen ++ new) (lo - ml * d) (hi + mr * d) := by
  obtain ⟨p, hp⟩ := h.lo_lat
  obtain ⟨q, hq⟩ := h.hi_lat
  have hml : 0 ≤ (ml : K) * d := by positivity
  have hmr : 0 ≤ (mr : K) * d := by positivity
  refine ⟨⟨p - ml, by rw [hp]; push_cast; ring⟩, ⟨q + mr, by rw [hq]; push_cast; ring⟩, ?_, ?_, ?_, ?_, ?_, ?_⟩
  · linarith [h.lo_le]
  · linarith [h.hi_le]
  · intro x hx
    rcases List.mem_append.mp hx with hx | hx
    · linarith [h.lo_lt x hx]
    · linarith [(hb x hx).1]
  · intro x hx
    rcases List.mem_append.mp hx with hx | hx
    · linarith [h.hi_lt x hx]
    · linarith [(hb x hx).2]
  · rcases Nat.eq_zero_or_pos ml with h0 | h0
    · subst h0
      simp only [Nat.cast_zero, zero_mul, sub_zero]
      exact h.lo_min.imp_right (fun ⟨x, hx, hle⟩ => ⟨x, List.mem_append_left _ hx, hle⟩)
    · refine Or.inr ⟨x0, List.mem_append_right _ m0, ?_⟩
      have := l_go (ml - 1) (by omega)
      rw [Nat.cast_sub h0] at this
      push_cast at this
      linarith
  · rcases Nat.eq_zero_or_pos mr with h0 | h0
    · subst h0
      simp only [Nat.cast_zero, zero_mul, add_zero]
      exact h.hi_min.imp_right (fun ⟨x, hx, hle⟩ => ⟨x, List.mem_append_left _ hx, hle⟩)
    · refine Or.inr ⟨x1, List.mem_append_right _ m1, ?_⟩
      have := r_go (mr - 1) (by omega)
      rw [Nat.cast_sub h0] at this
      push_cast at this
      linarith

/-- A lattice coordinate is within the edges exactly when it is in reach. -/
theorem Edges.iff {o d : K} (hd : 0 < d) {seen : List K} {lo hi : K} (h : Edges o d seen lo hi) {X : K} {q : ℤ}
    (hX : X = o + q * d) : (lo ≤ X ∧ X ≤ hi) ↔ InReach o d seen X := by
  have step : ∀ {a b : ℤ}, o + (a : K) * d < o + b * d + d → o + (a : K) * d ≤ o + b * d := by
    intro a b hab
    have h1 : (a : K) * d < ((b + 1 : ℤ) : K) * d := by push_cast; linarith
    have h2 : a < b + 1 := by exact_mod_cast lt_of_mul_lt_mul_right h1 hd.le
    have h3 : (a : K) ≤ b := by exact_mod_cast Int.lt_add_one_iff.mp h2
    nlinarith
  obtain ⟨a, ha⟩ := h.lo_lat
  obtain ⟨b, hb⟩ := h.hi_lat
  constructor
  · rintro ⟨h1, h2⟩
    refine ⟨?_, ?_⟩
    · rcases h.lo_min with e | ⟨x, hx, e⟩
      · left; linarith
      · right; exact ⟨x, hx, by linarith⟩
    · rcases h.hi_min with e | ⟨x, hx, e⟩
      · left; linarith
      · right; exact ⟨x, hx, by linarith⟩
  · rintro ⟨h1, h2⟩
    constructor
    · rcases h1 with h1 | ⟨x, hx, h1⟩
      · linarith [h.lo_le]
      · have := h.lo_lt x hx
        rw [ha, hX]; apply step; rw [← ha, ← hX]; linarith
    · rcases h2 with h2 | ⟨x, hx, h2⟩
      · linarith [h.hi_le]
      · have := h.hi_lt x hx
        rw [hb, hX]; apply step; rw [← hb, ← hX]; linarith

namespace PField

theorem isNode_iff_bounds (f : PField K) (b : Body K) (hf : f.WF) (hb : f.body = some b) (X Y : K) :
    f.IsNode X Y ↔ OnLattice b.xmin b.ymin f.deltax f.deltay X Y ∧
      (b.xmin ≤ X ∧ X ≤ b.xmax) ∧ (b.ymin ≤ Y ∧ Y ≤ b.ymax) := by
  obtain ⟨hr3, hc3, hxm, hym, _⟩ := hf.grid b hb
  have key : ∀ {d lo : K} {n : ℕ} {p : ℤ}, 0 < d → lo ≤ lo + p * d → lo + p * d ≤ lo + ((n : K) - 1) * d →
      ∃ j : ℕ, j < n ∧ (p : K) = j := by
    intro d lo n p hd h1 h2
    have h3 : (0 : K) ≤ p := by
      by_contra hc
      have := mul_neg_of_neg_of_pos (not_le.mp hc) hd
      linarith
    have h4 : 0 ≤ p := by exact_mod_cast h3
    obtain ⟨j, rfl⟩ := Int.eq_ofNat_of_zero_le h4
    refine ⟨j, ?_, by simp⟩
    have h5 : ((j : ℤ) : K) ≤ (n : K) - 1 := le_of_mul_le_mul_right (by linarith) hd
    have h6 : (j : K) + 1 ≤ n := by push_cast at h5; linarith
    have : j + 1 ≤ n := by exact_mod_cast h6
    omega
  constructor
  · rintro ⟨c, hc, i, j, hi, hj, rfl, rfl⟩
    obtain rfl := Option.some.inj (hb.symm.trans hc)
    have hj' : (j : K) ≤ (f.ncols : K) - 1 := by
      have : ((j + 1 : ℕ) : K) ≤ f.ncols := by exact_mod_cast hj
      push_cast at this; linarith
    have hi' : (i : K) ≤ (f.nrows : K) - 1 := by
      have : ((i + 1 : ℕ) : K) ≤ f.nrows := by exact_mod_cast hi
      push_cast at this; linarith
    have h1 := mul_le_mul_of_nonneg_right hj' hf.dx_pos.le
    have h2 := mul_le_mul_of_nonneg_right hi' hf.dy_pos.le
    have h3 : 0 ≤ (j : K) * f.deltax := mul_nonneg (Nat.cast_nonneg _) hf.dx_pos.le
    have h4 : 0 ≤ (i : K) * f.deltay := mul_nonneg (Nat.cast_nonneg _) hf.dy_pos.le
    exact ⟨⟨j, i, by simp, by simp⟩, ⟨by linarith, by rw [hxm]; linarith⟩, by linarith, by rw [hym]; linarith⟩
  · rintro ⟨⟨p, q, rfl, rfl⟩, ⟨h1, h2⟩, h3, h4⟩
    rw [hxm] at h2; rw [hym] at h4
    obtain ⟨j, hj, ej⟩ := key hf.dx_pos h1 h2
    obtain ⟨i, hi, ei⟩ := key hf.dy_pos h3 h4
    exact ⟨b, hb, i, j, hi, hj, by rw [ej], by rw [ei]⟩

/-- The state of the grid after everything in `seen` has been shown. -/
structure Spans (f : PField K) (xo yo : K) (seen : List (K × K)) : Prop where
  wf : f.WF
  edges : ∃ b, f.body = some b ∧ Edges xo f.deltax (seen.map Prod.fst) b.xmin b.xmax ∧
    Edges yo f.deltay (seen.map Prod.snd) b.ymin b.ymax

theorem Spans.isNode {f : PField K} {xo yo : K} {seen : List (K × K)} (h : f.Spans xo yo seen) (X Y : K) :
    f.IsNode X Y ↔ OnLattice xo yo f.deltax f.deltay X Y ∧ Reached xo yo f.deltax f.deltay seen X Y := by
  obtain ⟨wf, b, hb, ex, ey⟩ := h
  rw [isNode_iff_bounds f b wf hb]
  obtain ⟨a, ha⟩ := ex.lo_lat
  obtain ⟨c, hc⟩ := ey.lo_lat
  have hL : OnLattice b.xmin b.ymin f.deltax f.deltay X Y ↔ OnLattice xo yo f.deltax f.deltay X Y := by
    constructor
    · rintro ⟨p, q, h1, h2⟩
      exact ⟨a + p, c + q, by rw [h1, ha]; push_cast; ring, by rw [h2, hc]; push_cast; ring⟩
    · rintro ⟨p, q, h1, h2⟩
      exact ⟨p - a, q - c, by rw [h1, ha]; push_cast; ring, by rw [h2, hc]; push_cast; ring⟩
  rw [hL]
  refine and_congr_right ?_
  rintro ⟨p, q, h1, h2⟩
  exact and_congr (ex.iff wf.dx_pos h1) (ey.iff wf.dy_pos h2)

theorem Spans.expand {f : PField K} {xo yo : K} {seen : List (K × K)} (h : f.Spans xo yo seen)
    {x0 x1 y0 y1 : K} {new : List (K × K)} (mx0 : x0 ∈ new.map Prod.fst) (mx1 : x1 ∈ new.map Prod.fst)
    (my0 : y0 ∈ new.map Prod.snd) (my1 : y1 ∈ new.map Prod.snd)
    (hx : ∀ x ∈ new.map Prod.fst, x0 ≤ x ∧ x ≤ x1) (hy : ∀ y ∈ new.map Prod.snd, y0 ≤ y ∧ y ≤ y1)
    {f' : PField K} (he : f.expand x0 x1 y0 y1 = some (.ok f')) : f'.Spans xo yo (seen ++ new) := by
  obtain ⟨wf, b, hb, ex, ey⟩ := h
  obtain ⟨f1, b1, ml, mr, mb, mt, e, g⟩ := expand_grid f b wf hb x0 x1 y0 y1 ((hx x0 mx0).2) ((hy y0 my0).2)
  obtain rfl : f' = f1 := by rw [he] at e; simpa using e
  refine ⟨g.wf wf hb, b1, g.body, ?_, ?_⟩
  · rw [g.xmin_eq, g.xmax_eq, g.dx, List.map_append]
    exact ex.grow wf.dx_pos mx0 mx1 hx g.l_stop g.l_go g.r_stop g.r_go
  · rw [g.ymin_eq, g.ymax_eq, g.dy, List.map_append]
    exact ey.grow wf.dy_pos my0 my1 hy g.b_stop g.b_go g.t_stop g.t_go

/-- Two well-formed grids with the same spacings and the same nodes span the same area. -/
theorem Spans.same {f f' : PField K} {xo yo : K} {seen : List (K × K)} (h : f.Spans xo yo seen) (wf' : f'.WF)
    (hb' : f'.body ≠ none) (dx : f'.deltax = f.deltax) (dy : f'.deltay = f.deltay)
    (hn : ∀ X Y, f'.IsNode X Y ↔ f.IsNode X Y) : f'.Spans xo yo seen := by
  obtain ⟨wf, b, hb, ex, ey⟩ := h
  obtain ⟨b', hb'⟩ := Option.ne_none_iff_exists'.mp hb'
  have corner : ∀ (g : PField K) (c : Body K), g.WF → g.body = some c → g.IsNode c.xmin c.ymin ∧ g.IsNode c.xmax c.ymax := by
    intro g c hg hc
    obtain ⟨hr3, hc3, hxm, hym, _⟩ := hg.grid c hc
    refine ⟨⟨c, hc, 0, 0, by omega, by omega, by simp, by simp⟩, c, hc, g.nrows - 1, g.ncols - 1, by omega, by omega, ?_, ?_⟩
    · rw [Nat.cast_sub (by omega), hxm]; simp
    · rw [Nat.cast_sub (by omega), hym]; simp
  obtain ⟨c1, c2⟩ := corner f b wf hb
  obtain ⟨c3, c4⟩ := corner f' b' wf' hb'
  rw [hn, isNode_iff_bounds f b wf hb] at c3 c4
  rw [← hn, isNode_iff_bounds f' b' wf' hb'] at c1 c2
  have e1 : b'.xmin = b.xmin := le_antisymm c1.2.1.1 c3.2.1.1
  have e2 : b'.ymin = b.ymin := le_antisymm c1.2.2.1 c3.2.2.1
  have e3 : b'.xmax = b.xmax := le_antisymm c4.2.1.2 c2.2.1.2
  have e4 : b'.ymax = b.ymax := le_antisymm c4.2.2.2 c2.2.2.2
  exact ⟨wf', b', hb', by rw [e1, e3, dx]; exact ex, by rw [e2, e4, dy]; exact ey⟩

theorem Spans.start {dx dy xo yo : K} {f : PField K} (h : new dx dy (some xo) (some yo) = .ok f) :
    f.Spans xo yo [] := by
  obtain ⟨wf, hx, hy⟩ := new_wf h
  refine ⟨wf, ?_⟩
  unfold new at h
  split_ifs at h
  simp only [Except.ok.injEq] at h
  subst h
  exact ⟨_, rfl, edges_start xo dx, edges_start yo dy⟩

open Classical in
/-- The refinement for any umbra: the mark at `(X, Y)` is explained by the open tracks `p` that record it. -/
theorem history_records (es : List (Event K)) : ∀ (f : PField K) (s : List (K × K)) (p : List (Drawn K)) (xo yo X Y : K),
    f.Spans xo yo s → (∀ e ∈ es, e.Valid) → OnLattice xo yo f.deltax f.deltay X Y →
    (f.markedAt X Y ↔ Records xo yo f.deltax f.deltay p X Y) →
    ∃ f', f.run (es.map Event.call) = some f' ∧ f'.Spans xo yo (s ++ es.flatMap Event.points) ∧
      f'.deltax = f.deltax ∧ f'.deltay = f.deltay ∧
      f'.weightAt X Y = f.weightAt X Y + recordedWeight xo yo f.deltax f.deltay (drawnGroups es s p) X Y ∧
      (f'.markedAt X Y ↔ Records xo yo f.deltax f.deltay (drawnPending es s p) X Y) := by
  induction es with
  | nil =>
    intro f s p xo yo X Y hs _ _ hm
    exact ⟨f, rfl, by simpa using hs, rfl, rfl, by simp [drawnGroups, recordedWeight], hm⟩
  | cons e es ih =>
    intro f s p xo yo X Y hs hv hL hm
    have hv' : ∀ e ∈ es, e.Valid := fun e he => hv e (by simp [he])
    have hb : f.body ≠ none := by obtain ⟨b, hb, _⟩ := hs.edges; rw [hb]; simp
    cases e with
    | track vs u =>
      obtain ⟨hvs, hu⟩ := hv (.track vs u) (by simp)
      obtain ⟨f1, e1, v, g, x0, x1, y0, y1, he, v1, hn, ⟨mx0, mx1, my0, my1⟩, bx, by'⟩ :=
        rasterize_view f hs.wf (vs.map Prod.fst) (vs.map Prod.snd) u (by simpa using hvs) (by simp)
      rw [zip_map] at v
      have sg := hs.expand mx0 mx1 my0 my1 bx by' he
      have hb1 : f1.body ≠ none := by
        obtain ⟨b, hb⟩ := Option.ne_none_iff_exists'.mp hb
        obtain ⟨b', hb', _⟩ := v.lattice b hb
        rw [hb']; simp
      have s1 := sg.same v.wf hb1 (v.dx.trans v1.dx.symm) (v.dy.trans v1.dy.symm) hn
      have m1 : f1.markedAt X Y ↔ f.markedAt X Y ∨
          (NearTrack vs u X Y ∧ Reached xo yo f.deltax f.deltay (s ++ vs) X Y) := by
        have hnode := s1.isNode X Y
        rw [v.dx, v.dy] at hnode
        constructor
        · intro h
          rcases v.marked_of X Y h with h' | h'
          · exact Or.inl h'
          · exact Or.inr ⟨h'.2, (hnode.mp (isNode_of_markedAt f1 h)).2⟩
        · rintro (h | ⟨h, hr⟩)
          · exact v.marked_mono X Y h
          · exact v.marked_near hu X Y (hnode.mpr ⟨hL, hr⟩) h
      obtain ⟨f2, e2, s2, dx2, dy2, w2, m2⟩ := ih f1 (s ++ vs) (p ++ [⟨vs, u, s ++ vs⟩]) xo yo X Y s1 hv'
        (by rw [v.dx, v.dy]; exact hL)
        (by rw [m1, hm, v.dx, v.dy]; unfold Records; simp [or_and_right, exists_or])
      refine ⟨f2, ?_, ?_, dx2.trans v.dx, dy2.trans v.dy, ?_, ?_⟩
      · simp only [List.map_cons, Event.call, run, step, e1]; exact e2
      · simpa [Event.points, List.append_assoc] using s2
      · rw [w2, v.weight, v.dx, v.dy]; rfl
      · rw [m2, v.dx, v.dy]; rfl
    | register w =>
      obtain ⟨f1, e1, wf1, dx1, dy1, t1, w1, m1, n1, l1⟩ := register_view f hs.wf hb w
      have hb1 : f1.body ≠ none := by
        obtain ⟨b, hb⟩ := Option.ne_none_iff_exists'.mp hb
        obtain ⟨b', hb', _⟩ := l1 b hb
        rw [hb']; simp
      obtain ⟨f2, e2, s2, dx2, dy2, w2, m2⟩ := ih f1 s [] xo yo X Y (hs.same wf1 hb1 dx1 dy1 n1) hv'
        (by rw [dx1, dy1]; exact hL) (by simp [m1 X Y, Records])
      refine ⟨f2, ?_, by simpa [Event.points] using s2, dx2.trans dx1, dy2.trans dy1, ?_, ?_⟩
      · simp only [List.map_cons, Event.call, run, step, e1, lift]; exact e2
      · rw [w2, w1, dx1, dy1]
        simp only [hm, drawnGroups, recordedWeight, List.map_cons, List.sum_cons, add_assoc]
      · rw [m2, dx1, dy1]; rfl
    | reset =>
      obtain ⟨f1, e1, wf1, dx1, dy1, t1, w1, m1, n1, l1⟩ := reset_view f hs.wf hb
      have hb1 : f1.body ≠ none := by
        obtain ⟨b, hb⟩ := Option.ne_none_iff_exists'.mp hb
        obtain ⟨b', hb', _⟩ := l1 b hb
        rw [hb']; simp
      obtain ⟨f2, e2, s2, dx2, dy2, w2, m2⟩ := ih f1 s [] xo yo X Y (hs.same wf1 hb1 dx1 dy1 n1) hv'
        (by rw [dx1, dy1]; exact hL) (by simp [m1 X Y, Records])
      refine ⟨f2, ?_, by simpa [Event.points] using s2, dx2.trans dx1, dy2.trans dy1, ?_, ?_⟩
      · simp only [List.map_cons, Event.call, run, step, e1, lift]; exact e2
      · rw [w2, w1, dx1, dy1]; rfl
      · rw [m2, dx1, dy1]; rfl
    | expand x0 x1 y0 y1 =>
      obtain ⟨hx, hy⟩ := hv (.expand x0 x1 y0 y1) (by simp)
      obtain ⟨f1, e1, v1⟩ := expand_view f hs.wf x0 x1 y0 y1 hx hy
      have s1 := hs.expand (new := [(x0, y0), (x1, y1)]) (by simp) (by simp) (by simp) (by simp)
        (by simp only [List.map_cons, List.map_nil, List.mem_cons, List.not_mem_nil, or_false]
            rintro x (rfl | rfl) <;> simp [hx])
        (by simp only [List.map_cons, List.map_nil, List.mem_cons, List.not_mem_nil, or_false]
            rintro x (rfl | rfl) <;> simp [hy]) e1
      obtain ⟨f2, e2, s2, dx2, dy2, w2, m2⟩ := ih f1 _ p xo yo X Y s1 hv'
        (by rw [v1.dx, v1.dy]; exact hL) (by rw [v1.marked, hm, v1.dx, v1.dy])
      refine ⟨f2, ?_, ?_, dx2.trans v1.dx, dy2.trans v1.dy, ?_, ?_⟩
      · simp only [List.map_cons, Event.call, run, step, e1, lift, Option.map_some]; exact e2
      · simpa [Event.points, List.append_assoc] using s2
      · rw [w2, v1.weight, v1.dx, v1.dy]; rfl
      · rw [m2, v1.dx, v1.dy]; rfl

end PField
end Oneka
