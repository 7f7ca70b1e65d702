import Verif.Lemmas.PropsField

/-!
# Properties C01–C16: the probability field

`K` is any linearly ordered field with floor. The examples use ℚ.
-/

set_option linter.unusedSectionVars false

namespace Oneka

open PField

variable {K : Type} [Field K] [LinearOrder K] [IsStrictOrderedRing K] [FloorRing K]

/-! ## Concrete fields for the examples -/

/-- The state after `ProbabilityField(1, 1, 0, 0)`. -/
def demo : PField ℚ :=
  { deltax := 1, deltay := 1, nrows := 3, ncols := 3,
    body := some { xmin := 0 - 1, xmax := 0 + 1, ymin := 0 - 1, ymax := 0 + 1, totalWeight := 0,
                   pgrid := Grid.full 3 3 0, rgrid := Grid.full 3 3 false } }

theorem demo_new : PField.new (1 : ℚ) 1 (some 0) (some 0) = .ok demo := by
  unfold PField.new
  rw [if_neg (by norm_num), if_neg (by norm_num)]
  rfl

theorem demo_reachable : demo.Reachable := ⟨1, 1, some 0, some 0, demo, [], demo_new, rfl⟩

/-- The state after `ProbabilityField(1, 1)`. -/
def demoEmpty : PField ℚ := { deltax := 1, deltay := 1, nrows := 0, ncols := 0, body := none }

theorem demoEmpty_reachable : demoEmpty.Reachable := by
  refine ⟨1, 1, none, none, demoEmpty, [], ?_, rfl⟩
  unfold PField.new
  rw [if_neg (by norm_num), if_neg (by norm_num)]
  rfl

/-! ## C01 -/

/-- **C01.** After any history of calls (whatever their arguments, and whether or not they raise) the attributes are
consistent, and the spacing is that of the constructor. In particular the history runs to its end. -/
theorem C01_geometry {dx dy : K} {xo yo : Option K} {f0 : PField K}
    (h0 : PField.new dx dy xo yo = .ok f0) (cs : List (PField.Call K)) :
    ∃ f, f0.run cs = some f ∧ f.deltax = dx ∧ f.deltay = dy ∧
      (f.body = none → f.nrows = 0 ∧ f.ncols = 0) ∧
      ∀ b, f.body = some b →
        b.xmax = b.xmin + ((f.ncols : K) - 1) * dx ∧ b.ymax = b.ymin + ((f.nrows : K) - 1) * dy ∧
        3 ≤ f.nrows ∧ 3 ≤ f.ncols ∧
        b.pgrid.rows = f.nrows ∧ b.pgrid.cols = f.ncols ∧ b.rgrid.rows = f.nrows ∧ b.rgrid.cols = f.ncols := by
  obtain ⟨wf0, hx, hy⟩ := new_wf h0
  obtain ⟨f, e, i⟩ := run_inv cs f0 wf0
  refine ⟨f, e, i.dx.trans hx, i.dy.trans hy, i.wf.empty, fun b hb => ?_⟩
  obtain ⟨h1, h2, h3, h4, h5⟩ := i.wf.grid b hb
  rw [i.dx, hx] at h3
  rw [i.dy, hy] at h4
  exact ⟨h3, h4, h1, h2, h5⟩

/-- The hypothesis of C01 holds for a concrete constructor call; the history below raises (inverted box), grows
the grid and registers. -/
example : ∃ f, demo.run [.expand 2 1 0 0, .rasterize [0, 5] [0, 7] 2, .register 3] = some f ∧ f.deltax = 1 :=
  let ⟨f, h1, h2, _⟩ := C01_geometry demo_new _
  ⟨f, h1, h2⟩

/-! ## C02 -/

/-- **C02.** A field constructed with an origin only ever has nodes on the lattice through the origin (and always has
a grid). -/
theorem C02_lattice {dx dy xo yo : K} {f0 f : PField K} {cs : List (PField.Call K)}
    (h0 : PField.new dx dy (some xo) (some yo) = .ok f0) (h : f0.run cs = some f) :
    f.body ≠ none ∧ (∀ X Y, f0.IsNode X Y → f.IsNode X Y) ∧
      ∀ X Y, f.IsNode X Y → OnLattice xo yo dx dy X Y := by
  obtain ⟨wf0, hx, hy⟩ := new_wf h0
  obtain ⟨f', e, i⟩ := run_inv cs f0 wf0
  obtain rfl := Option.some.inj (e.symm.trans h)
  have : ∃ b, f0.body = some b ∧ b.xmin = xo - dx ∧ b.ymin = yo - dy := by
    unfold PField.new at h0
    split_ifs at h0
    simp only [Except.ok.injEq] at h0
    subst h0
    exact ⟨_, rfl, rfl, rfl⟩
  obtain ⟨b, hb, hbx, hby⟩ := this
  obtain ⟨b', hb', _⟩ := i.lattice b hb
  refine ⟨by rw [hb']; simp, i.nodes, ?_⟩
  intro X Y hn
  by_contra hc
  refine weightAt_off_lattice hb i (fun hL => hc ?_) hn
  obtain ⟨p, q, hp, hq⟩ := hL
  refine ⟨p - 1, q - 1, ?_, ?_⟩
  · rw [hp, hbx, hx]; push_cast; ring
  · rw [hq, hby, hy]; push_cast; ring

example : ∃ f, demo.run [.rasterize [0, 5] [0, 7] 2] = some f ∧ ∀ X Y, f.IsNode X Y → OnLattice 0 0 1 1 X Y :=
  let ⟨f, h1, _⟩ := C01_geometry demo_new [.rasterize [0, 5] [0, 7] 2]
  ⟨f, h1, (C02_lattice demo_new h1).2.2⟩

/-! ## C03–C06: expand -/

/-- **C03.** After `expand` the box is strictly inside the extents. -/
theorem C03_expand_interior {f : PField K} (hf : f.Reachable) {x0 x1 y0 y1 : K} (hx : x0 ≤ x1) (hy : y0 ≤ y1) :
    ∃ f' b, f.expand x0 x1 y0 y1 = some (.ok f') ∧ f'.body = some b ∧
      b.xmin < x0 ∧ x1 < b.xmax ∧ b.ymin < y0 ∧ y1 < b.ymax := by
  obtain ⟨f', e, v⟩ := expand_view f (reachable_wf hf) x0 x1 y0 y1 hx hy
  obtain ⟨b, hb, h⟩ := v.inside
  exact ⟨f', b, e, hb, h⟩

example : ∃ f' b, demoEmpty.expand 1 2 3 4 = some (.ok f') ∧ f'.body = some b ∧ b.xmin < 1 :=
  let ⟨f', b, h1, h2, h3, _⟩ := C03_expand_interior demoEmpty_reachable (x0 := 1) (x1 := 2) (y0 := 3) (y1 := 4)
    (by norm_num) (by norm_num)
  ⟨f', b, h1, h2, h3⟩

/-- **C04.** `expand` preserves what was accumulated: total weight, and weight and mark at every world position; old nodes
stay nodes and new nodes carry weight 0 and no mark. -/
theorem C04_expand_contents {f f' : PField K} (hf : f.Reachable) {x0 x1 y0 y1 : K}
    (h : f.expand x0 x1 y0 y1 = some (.ok f')) :
    f'.total = f.total ∧ (∀ X Y, f'.weightAt X Y = f.weightAt X Y) ∧
      (∀ X Y, f'.markedAt X Y ↔ f.markedAt X Y) ∧ (∀ X Y, f.IsNode X Y → f'.IsNode X Y) ∧
      ∀ X Y, f'.IsNode X Y → ¬ f.IsNode X Y → f'.weightAt X Y = 0 ∧ ¬ f'.markedAt X Y := by
  have hbox : ¬ (x1 < x0 ∨ y1 < y0) := by
    intro hc; rw [expand_error f x0 x1 y0 y1 hc] at h; simp at h
  push Not at hbox
  obtain ⟨f1, e, v⟩ := expand_view f (reachable_wf hf) x0 x1 y0 y1 hbox.1 hbox.2
  rw [e] at h
  obtain rfl : f1 = f' := by simpa using h
  refine ⟨v.total, v.weight, v.marked, v.nodes, fun X Y _ hn => ⟨?_, fun hm => hn ?_⟩⟩
  · rw [v.weight, PField.weightAt, lookAt_not f _ _ X Y hn]
  · exact isNode_of_markedAt f ((v.marked X Y).mp hm)

example : ∃ f', demo.expand 1 2 3 4 = some (.ok f') ∧ ∀ X Y, f'.weightAt X Y = demo.weightAt X Y :=
  let ⟨f', _, h1, _⟩ := C03_expand_interior demo_reachable (x0 := 1) (x1 := 2) (y0 := 3) (y1 := 4)
    (by norm_num) (by norm_num)
  ⟨f', h1, (C04_expand_contents demo_reachable h1).2.1⟩

/-- **C05.** Expanding to a box which is already strictly inside changes nothing at all. -/
theorem C05_expand_inside {f : PField K} (hf : f.Reachable) {b : Body K} (hb : f.body = some b)
    {x0 x1 y0 y1 : K} (hx : x0 ≤ x1) (hy : y0 ≤ y1)
    (h1 : b.xmin < x0) (h2 : x1 < b.xmax) (h3 : b.ymin < y0) (h4 : y1 < b.ymax) :
    f.expand x0 x1 y0 y1 = some (.ok f) := by
  obtain ⟨f', b', ml, mr, mb, mt, e, h⟩ := expand_grid f b (reachable_wf hf) hb x0 x1 y0 y1 hx hy
  have : f' = f := by
    refine h.same ?_ ?_ ?_ ?_ <;> by_contra hc
    · have := h.l_go 0 (by omega); simp at this; linarith
    · have := h.r_go 0 (by omega); simp at this; linarith
    · have := h.b_go 0 (by omega); simp at this; linarith
    · have := h.t_go 0 (by omega); simp at this; linarith
  rw [e, this]

theorem demo_inside : demo.expand 0 (1/2) 0 0 = some (.ok demo) :=
  C05_expand_inside demo_reachable rfl (by norm_num) (by norm_num) (by norm_num) (by norm_num)
    (by norm_num) (by norm_num)

/-- **C05.** Repeating an `expand` changes nothing. -/
theorem C05_expand_idempotent {f f' : PField K} (hf : f.Reachable) {x0 x1 y0 y1 : K}
    (h : f.expand x0 x1 y0 y1 = some (.ok f')) : f'.expand x0 x1 y0 y1 = some (.ok f') := by
  have hbox : ¬ (x1 < x0 ∨ y1 < y0) := by
    intro hc; rw [expand_error f x0 x1 y0 y1 hc] at h; simp at h
  push Not at hbox
  have hf' : f'.Reachable := reachable_step (c := .expand x0 x1 y0 y1) (r := .ok ()) hf
    (by simp [step, h, lift])
  obtain ⟨f1, b, e, hb, h1, h2, h3, h4⟩ := C03_expand_interior hf hbox.1 hbox.2
  rw [h] at e
  obtain rfl : f' = f1 := by simpa using e
  exact C05_expand_inside hf' hb hbox.1 hbox.2 h1 h2 h3 h4

/-- **C05.** `expand` never shrinks, and moves a side only as far as needed: one row or column less on a side that
moved would leave the box not strictly interior. -/
theorem C05_expand_minimal {f f' : PField K} (hf : f.Reachable) {b : Body K} (hb : f.body = some b)
    {x0 x1 y0 y1 : K} (h : f.expand x0 x1 y0 y1 = some (.ok f')) :
    ∃ b', f'.body = some b' ∧
      (b'.xmin = b.xmin ∨ b'.xmin < b.xmin ∧ x0 ≤ b'.xmin + f.deltax) ∧
      (b'.xmax = b.xmax ∨ b.xmax < b'.xmax ∧ b'.xmax - f.deltax ≤ x1) ∧
      (b'.ymin = b.ymin ∨ b'.ymin < b.ymin ∧ y0 ≤ b'.ymin + f.deltay) ∧
      (b'.ymax = b.ymax ∨ b.ymax < b'.ymax ∧ b'.ymax - f.deltay ≤ y1) := by
  have wf := reachable_wf hf
  have hbox : ¬ (x1 < x0 ∨ y1 < y0) := by
    intro hc; rw [expand_error f x0 x1 y0 y1 hc] at h; simp at h
  push Not at hbox
  obtain ⟨f1, b', ml, mr, mb, mt, e, v⟩ := expand_grid f b wf hb x0 x1 y0 y1 hbox.1 hbox.2
  rw [e] at h
  obtain rfl : f1 = f' := by simpa using h
  refine ⟨b', v.body, ?_, ?_, ?_, ?_⟩
  · rw [v.xmin_eq]
    rcases Nat.eq_zero_or_pos ml with h0 | h0
    · left; rw [h0]; simp
    · right
      have h1 := v.l_go (ml - 1) (by omega)
      have h2 : (0 : K) < ml * f.deltax := mul_pos (by exact_mod_cast h0) wf.dx_pos
      rw [Nat.cast_sub (by omega)] at h1
      exact ⟨by linarith, by push_cast at h1; linarith⟩
  · rw [v.xmax_eq]
    rcases Nat.eq_zero_or_pos mr with h0 | h0
    · left; rw [h0]; simp
    · right
      have h1 := v.r_go (mr - 1) (by omega)
      have h2 : (0 : K) < mr * f.deltax := mul_pos (by exact_mod_cast h0) wf.dx_pos
      rw [Nat.cast_sub (by omega)] at h1
      exact ⟨by linarith, by push_cast at h1; linarith⟩
  · rw [v.ymin_eq]
    rcases Nat.eq_zero_or_pos mb with h0 | h0
    · left; rw [h0]; simp
    · right
      have h1 := v.b_go (mb - 1) (by omega)
      have h2 : (0 : K) < mb * f.deltay := mul_pos (by exact_mod_cast h0) wf.dy_pos
      rw [Nat.cast_sub (by omega)] at h1
      exact ⟨by linarith, by push_cast at h1; linarith⟩
  · rw [v.ymax_eq]
    rcases Nat.eq_zero_or_pos mt with h0 | h0
    · left; rw [h0]; simp
    · right
      have h1 := v.t_go (mt - 1) (by omega)
      have h2 : (0 : K) < mt * f.deltay := mul_pos (by exact_mod_cast h0) wf.dy_pos
      rw [Nat.cast_sub (by omega)] at h1
      exact ⟨by linarith, by push_cast at h1; linarith⟩

/-- A box reaching beyond the right side only: the hypotheses of `C05_expand_minimal` hold, the right side moves. -/
example : ∃ f' b', demo.expand 0 5 0 0 = some (.ok f') ∧ f'.body = some b' ∧ 5 < b'.xmax ∧ b'.xmax - 1 ≤ 5 := by
  obtain ⟨f', b', h1, h2, _, h3, _⟩ := C03_expand_interior demo_reachable
    (x0 := 0) (x1 := 5) (y0 := 0) (y1 := 0) (by norm_num) (by norm_num)
  obtain ⟨b'', hb'', _, h4, _⟩ := C05_expand_minimal demo_reachable rfl h1
  obtain rfl := Option.some.inj (h2.symm.trans hb'')
  refine ⟨f', b', h1, h2, h3, ?_⟩
  rcases h4 with h4 | h4
  · have : b'.xmax = 0 + 1 := h4
    linarith
  · exact h4.2

/-- **C06.** `expand` raises RangeError exactly for inverted boxes, leaving the field as it was, and otherwise
returns normally. -/
theorem C06_expand_total {f : PField K} (hf : f.Reachable) (x0 x1 y0 y1 : K) :
    (x1 < x0 ∨ y1 < y0 → f.step (.expand x0 x1 y0 y1) = some (f, .error .rangeError)) ∧
    (¬ (x1 < x0 ∨ y1 < y0) → ∃ f', f.step (.expand x0 x1 y0 y1) = some (f', .ok ())) := by
  constructor
  · intro h
    simp [step, expand_error f x0 x1 y0 y1 h, lift]
  · intro h
    push Not at h
    obtain ⟨f', e, _⟩ := expand_view f (reachable_wf hf) x0 x1 y0 y1 h.1 h.2
    exact ⟨f', by simp [step, e, lift]⟩

example : demo.step (.expand 2 1 0 0) = some (demo, .error .rangeError) ∧
    ∃ f', demo.step (.expand (-100) 100 0 0) = some (f', .ok ()) :=
  ⟨(C06_expand_total demo_reachable 2 1 0 0).1 (by norm_num),
   (C06_expand_total demo_reachable (-100) 100 0 0).2 (by norm_num)⟩

/-! ## C07: distancesquared -/

/-- **C07.** For distinct end points the result is the least squared distance to a point of the closed segment. -/
theorem C07_distancesquared (np : Bool) (ax ay bx «by» cx cy : K) (h : (ax, ay) ≠ (bx, «by»)) :
    ∃ d2, distancesquared np ax ay bx «by» cx cy = .ok (some d2) ∧ IsLeast (segDists ax ay bx «by» cx cy) d2 :=
  distancesquared_isLeast np ax ay bx «by» cx cy h

/-- The three positions of the foot point: before `a`, inside, beyond `b`. -/
example : distancesquared true (0 : ℚ) 0 2 0 (-3) 4 = .ok (some 25) ∧
    distancesquared true (0 : ℚ) 0 2 0 1 4 = .ok (some 16) ∧
    distancesquared true (0 : ℚ) 0 2 0 5 4 = .ok (some 25) := by
  refine ⟨?_, ?_, ?_⟩ <;> norm_num [distancesquared]

/-- For coincident end points there is no distance: NaN with numpy arguments, ZeroDivisionError otherwise. -/
theorem C07_degenerate (ax ay cx cy : K) :
    distancesquared true ax ay ax ay cx cy = .ok none ∧
    distancesquared false ax ay ax ay cx cy = .error .zeroDivisionError := by
  simp [distancesquared]

/-! ## C08, C09: insert and rasterize -/

/-- **C08.** `insert` marks exactly the nodes strictly within `u` of the segment, in addition to those already marked,
and changes nothing but the marks. -/
theorem C08_insert {f : PField K} (hf : f.Reachable) {b : Body K} (hb : f.body = some b)
    {ax ay bx «by» u : K} (hne : (ax, ay) ≠ (bx, «by»)) (hu : 0 ≤ u) :
    ∃ f' g, f.insert ax ay bx «by» u = .ok f' ∧ f' = { f with body := some { b with rgrid := g } } ∧
      g.rows = f.nrows ∧ g.cols = f.ncols ∧
      f'.total = f.total ∧ (∀ X Y, f'.weightAt X Y = f.weightAt X Y) ∧
      ∀ X Y, f.IsNode X Y →
        (f'.markedAt X Y ↔ f.markedAt X Y ∨ NearSegment ax ay bx «by» u X Y) := by
  obtain ⟨f', e, wf', _, _, t, w, m1, m2, m3, n, hg⟩ :=
    insert_view f (reachable_wf hf) (by rw [hb]; simp) ax ay bx «by» u
  obtain ⟨g, hg⟩ := hg b hb
  obtain ⟨_, _, _, _, _, _, r1, r2⟩ := wf'.grid { b with rgrid := g } (by rw [hg])
  refine ⟨f', g, e, hg, by rw [r1, hg], by rw [r2, hg], t, w, fun X Y hn => ⟨fun h => ?_, ?_⟩⟩
  · exact (m1 X Y h).imp_right (fun h => h.2.2)
  · rintro (h | h)
    · exact m2 X Y h
    · exact m3 hu hne X Y ((n X Y).mpr hn) h

example : ∃ f' g, demo.insert 0 0 (1/2) 0 1 = .ok f' ∧ f' = { demo with body := some { demo.body.get rfl with rgrid := g } } :=
  let ⟨f', g, h1, h2, _⟩ := C08_insert demo_reachable rfl (ax := 0) (ay := 0) (bx := 1/2) («by» := 0) (u := 1)
    (by simp) (by norm_num)
  ⟨f', g, h1, h2⟩

/-- **C09.** `rasterize` marks, besides the nodes already marked, exactly those nodes of the resulting grid which are strictly
within `u` of a non-degenerate segment of the track; weights are unchanged; all vertices end up strictly inside the grid. -/
theorem C09_rasterize {f : PField K} (hf : f.Reachable) {x y : List K} {u : K} (hx : x ≠ [])
    (hlen : x.length = y.length) (hu : 0 ≤ u) :
    ∃ f' b, f.rasterize x y u = some (f', .ok ()) ∧ f'.body = some b ∧
      f'.total = f.total ∧ (∀ X Y, f'.weightAt X Y = f.weightAt X Y) ∧
      (∀ X Y, f.IsNode X Y → f'.IsNode X Y) ∧
      (∀ v ∈ x, b.xmin < v ∧ v < b.xmax) ∧ (∀ v ∈ y, b.ymin < v ∧ v < b.ymax) ∧
      ∀ X Y, f'.IsNode X Y → (f'.markedAt X Y ↔ f.markedAt X Y ∨ NearTrack (x.zip y) u X Y) := by
  obtain ⟨f', e, v, f1, x0, x1, y0, y1, e1, v1, hn, _, bx, by'⟩ :=
    rasterize_view f (reachable_wf hf) x y u hx hlen.le
  obtain ⟨b, hb⟩ := Option.ne_none_iff_exists'.mp v.body
  obtain ⟨b1, hb1, i1, i2, i3, i4⟩ := v1.inside
  have key : b1.xmin = b.xmin ∧ b1.xmax = b.xmax ∧ b1.ymin = b.ymin ∧ b1.ymax = b.ymax := by
    have : ∀ (is : List ℕ) (g g' : PField K) (c : Body K) r, g.WF → g.body = some c →
        rasterLoop x y u is g = (g', r) → ∃ c', g'.body = some c' ∧ c.xmin = c'.xmin ∧ c.xmax = c'.xmax ∧
          c.ymin = c'.ymin ∧ c.ymax = c'.ymax := by
      intro is
      induction is with
      | nil =>
        intro g g' c r _ hc h
        simp only [rasterLoop, Prod.mk.injEq] at h
        rw [← h.1]
        exact ⟨c, hc, rfl, rfl, rfl, rfl⟩
      | cons i is ih =>
        intro g g' c r hg hc h
        simp only [rasterLoop] at h
        split at h
        · rename_i ax ay bx by' _ _ _ _
          obtain ⟨g2, e2, wf2, _, _, _, _, _, _, _, _, hg2⟩ := insert_view g hg (by rw [hc]; simp) ax ay bx by' u
          rw [e2] at h
          obtain ⟨gr, rfl⟩ := hg2 c hc
          exact ih _ g' { c with rgrid := gr } r wf2 rfl h
        · simp only [Prod.mk.injEq] at h
          rw [← h.1]
          exact ⟨c, hc, rfl, rfl, rfl, rfl⟩
    have hr : rasterLoop x y u (List.range (x.length - 1)) f1 = (f', .ok ()) := by
      have hy : y ≠ [] := by
        intro h; apply hx; rw [h] at hlen; exact List.length_eq_zero_iff.mp (by simpa using hlen)
      obtain ⟨z0, p0, q0, r0⟩ := pyMin_spec x hx
      obtain ⟨z1, p1, q1, r1⟩ := pyMax_spec x hx
      obtain ⟨w0, p2, q2, r2⟩ := pyMin_spec y hy
      obtain ⟨w1, p3, q3, r3⟩ := pyMax_spec y hy
      obtain ⟨mx0, mx1, my0, my1⟩ := ‹x0 ∈ x ∧ x1 ∈ x ∧ y0 ∈ y ∧ y1 ∈ y›
      have a1 : z0 = x0 := le_antisymm (r0 _ mx0) (bx _ q0).1
      have a2 : z1 = x1 := le_antisymm (bx _ q1).2 (r1 _ mx1)
      have a3 : w0 = y0 := le_antisymm (r2 _ my0) (by' _ q2).1
      have a4 : w1 = y1 := le_antisymm (by' _ q3).2 (r3 _ my1)
      subst a1 a2 a3 a4
      unfold rasterize at e
      simp only [p0, p1, p2, p3, e1] at e
      exact Option.some.inj e
    obtain ⟨c', hc', h⟩ := this _ f1 f' b1 _ v1.wf hb1 hr
    obtain rfl := Option.some.inj (hb.symm.trans hc')
    exact h
  obtain ⟨k1, k2, k3, k4⟩ := key
  refine ⟨f', b, e, hb, v.total, v.weight, v.nodes, ?_, ?_, fun X Y hn => ⟨fun h => ?_, ?_⟩⟩
  · intro z hz; have := bx z hz; constructor <;> linarith
  · intro z hz; have := by' z hz; constructor <;> linarith
  · exact (v.marked_of X Y h).imp_right (fun h => h.2)
  · rintro (h | h)
    · exact v.marked_mono X Y h
    · exact v.marked_near hu X Y hn h

example : ∃ f' b, demoEmpty.rasterize [0, 5, 6] [0, 7, 7] 2 = some (f', .ok ()) ∧ f'.body = some b :=
  let ⟨f', b, h1, h2, _⟩ := C09_rasterize demoEmpty_reachable (x := [0, 5, 6]) (y := [0, 7, 7]) (u := 2)
    (by simp) rfl (by norm_num)
  ⟨f', b, h1, h2⟩

/-! ## C10: is every node within umbra of a track recorded? -/

/-- **C10 (partial).** Full claim: every lattice node within umbra of a rasterized track is marked. Proved for
`umbra ≤ spacing` and tracks with at least two different vertices. Both restrictions are necessary:
`C10_fails_if_umbra_exceeds_spacing`, `C10_fails_for_single_point`. -/
theorem C10_recorded_partial {dx dy xo yo : K} {f0 f : PField K} {cs : List (PField.Call K)}
    (h0 : PField.new dx dy (some xo) (some yo) = .ok f0) (h : f0.run cs = some f)
    {vs : List (K × K)} {u : K} (hvs : ∃ a ∈ vs, ∃ b ∈ vs, a ≠ b) (hu : 0 ≤ u) (hux : u ≤ dx) (huy : u ≤ dy) :
    ∃ f', f.rasterize (vs.map Prod.fst) (vs.map Prod.snd) u = some (f', .ok ()) ∧
      ∀ X Y, OnLattice xo yo dx dy X Y → NearPath vs u X Y → f'.markedAt X Y := by
  obtain ⟨wf0, hx, hy⟩ := new_wf h0
  obtain ⟨f', e, i⟩ := run_inv cs f0 wf0
  obtain rfl := Option.some.inj (e.symm.trans h)
  obtain ⟨hbody, _, hlat⟩ := C02_lattice h0 h
  obtain ⟨b, hb⟩ := Option.ne_none_iff_exists'.mp hbody
  have hne : vs ≠ [] := by rintro rfl; simp at hvs
  have hbl : OnLattice xo yo dx dy b.xmin b.ymin := by
    obtain ⟨h3, h3', _⟩ := i.wf.grid b hb
    exact hlat _ _ ⟨b, hb, 0, 0, by omega, by omega, by simp, by simp⟩
  obtain ⟨f1, e1, v⟩ : ∃ f1, f'.rasterize (vs.map Prod.fst) (vs.map Prod.snd) u = some (f1, .ok ()) ∧ True := by
    obtain ⟨f1, e1, _⟩ := rasterize_view f' i.wf (vs.map Prod.fst) (vs.map Prod.snd) u (by simpa using hne) (by simp)
    exact ⟨f1, e1, trivial⟩
  refine ⟨f1, e1, fun X Y hL hp => ?_⟩
  rw [nearPath_iff vs u X Y hvs] at hp
  have hF : Follows f' X Y (u ≤ f'.deltax ∧ u ≤ f'.deltay) := by
    right
    rw [i.dx, i.dy, hx, hy]
    refine ⟨⟨hux, huy⟩, b, hb, ?_⟩
    obtain ⟨p, q, hp, hq⟩ := hbl
    obtain ⟨p', q', hp', hq'⟩ := hL
    refine ⟨p' - p, q' - q, ?_, ?_⟩
    · rw [hp', hp]; push_cast; ring
    · rw [hq', hq]; push_cast; ring
  obtain ⟨f2, e2, _, _, _, m⟩ := track_follow i.wf vs u hne hu hF
  rw [e1] at e2
  obtain rfl : f1 = f2 := by simpa using e2
  exact m.mpr (Or.inr hp)

example : ∃ f', demo.rasterize [0, 5] [0, 5] 1 = some (f', .ok ()) ∧ f'.markedAt 3 3 := by
  obtain ⟨f', h1, h2⟩ := C10_recorded_partial demo_new (f := demo) (cs := []) rfl (vs := [(0, 0), (5, 5)]) (u := 1)
    ⟨(0,0), by simp, (5,5), by simp, by simp⟩ (by norm_num) (by norm_num) (by norm_num)
  refine ⟨f', h1, h2 3 3 ⟨3, 3, by norm_num, by norm_num⟩ ⟨(0,0), (5,5), List.infix_refl _, 3/5, ?_⟩⟩
  norm_num

theorem nodes_same_if_inside {f f' : PField K} (hf : f.Reachable) {b : Body K} (hb : f.body = some b)
    {x y : List K} {u : K} (hx : x ≠ []) (hlen : x.length ≤ y.length)
    (hbx : ∀ z ∈ x, b.xmin < z ∧ z < b.xmax) (hby : ∀ z ∈ y, b.ymin < z ∧ z < b.ymax)
    (h : f.rasterize x y u = some (f', .ok ())) : ∀ X Y, f'.IsNode X Y ↔ f.IsNode X Y := by
  obtain ⟨f1, e, v, f2, x0, x1, y0, y1, e1, v1, hn, ⟨m1, m2, m3, m4⟩, bx, by'⟩ :=
    rasterize_view f (reachable_wf hf) x y u hx hlen
  rw [e] at h
  obtain rfl : f1 = f' := by simpa using h
  have := C05_expand_inside hf hb (bx x1 m2).1 (by' y1 m4).1 (hbx _ m1).1 (hbx _ m2).2 (hby _ m3).1 (hby _ m4).2
  rw [e1] at this
  obtain rfl : f2 = f := by simpa using this
  exact hn

/-- **C10 is false when the umbra exceeds the spacing**, for every spacing: a lattice node within umbra of the
track is outside the grid and is not recorded. -/
theorem C10_fails_if_umbra_exceeds_spacing (dx dy u : K) (hdx : 0 < dx) (hdy : 0 < dy) (hu : dx < u) :
    ∃ (f f' : PField K) (vs : List (K × K)) (X Y : K),
      PField.new dx dy (some 0) (some 0) = .ok f ∧
      f.rasterize (vs.map Prod.fst) (vs.map Prod.snd) u = some (f', .ok ()) ∧
      OnLattice 0 0 dx dy X Y ∧ NearTrack vs u X Y ∧ ¬ f'.markedAt X Y := by
  obtain ⟨e, e0, e1, e2⟩ := exists_short dx u hdx hu
  obtain ⟨f, b, hnew, hb, fx, fy, fr, fc, bx0, bx1, by0, by1, _⟩ := new_origin dx dy 0 0 hdx hdy
  have hr := new_reachable hnew
  obtain ⟨f', _, h1, _⟩ := C09_rasterize hr (x := [0, e]) (y := [0, 0]) (u := u) (by simp) rfl (by linarith)
  have hn := nodes_same_if_inside hr hb (x := [0, e]) (y := [0, 0]) (by simp) (by simp)
    (by rw [bx0, bx1]; simp only [List.mem_cons, List.not_mem_nil, or_false]
        rintro z (rfl | rfl) <;> constructor <;> linarith)
    (by rw [by0, by1]; simp only [List.mem_cons, List.not_mem_nil, or_false]
        rintro z (rfl | rfl) <;> constructor <;> linarith) h1
  refine ⟨f, f', [(0, 0), (e, 0)], 2 * dx, 0, hnew, h1, ⟨2, 0, by simp, by simp⟩, ?_, ?_⟩
  · refine ⟨(0, 0), (e, 0), List.infix_refl _, ?_, 1, by simp, le_refl _, ?_⟩
    · simp only [ne_eq, Prod.mk.injEq, and_true]; exact e0.ne
    · simp only [sub_zero, one_mul, zero_add, mul_zero, ne_eq, OfNat.ofNat_ne_zero, not_false_eq_true,
        zero_pow, add_zero]
      exact sq_lt_sq' (by linarith) (by linarith)
  · intro hm
    have := (hn _ _).mp (isNode_of_markedAt f' hm)
    obtain ⟨b', hb', i, j, hi, hj, hX, _⟩ := this
    obtain rfl := Option.some.inj (hb.symm.trans hb')
    rw [fc] at hj
    rw [fx, bx0] at hX
    have : (j : K) * dx = 3 * dx := by linarith
    have hj3 : (j : K) = 3 := mul_right_cancel₀ hdx.ne' this
    have : j = 3 := by exact_mod_cast hj3
    omega

/-- **C10 is false for a stationary track** whatever the umbra: nothing is marked, not even a node at the very point. -/
theorem C10_fails_for_single_point (dx dy u : K) (hdx : 0 < dx) (hdy : 0 < dy) (n : ℕ) :
    ∃ (f f' : PField K), PField.new dx dy (some 0) (some 0) = .ok f ∧
      f.rasterize (List.replicate (n + 1) 0) (List.replicate (n + 1) 0) u = some (f', .ok ()) ∧
      f'.IsNode 0 0 ∧ ∀ X Y, ¬ f'.markedAt X Y := by
  obtain ⟨f, b, hnew, hb, fx, fy, fr, fc, bx0, bx1, by0, by1, _, _, hr0⟩ := new_origin dx dy 0 0 hdx hdy
  have wf := (new_wf hnew).1
  obtain ⟨f', e, v, _⟩ := rasterize_view f wf (List.replicate (n + 1) 0) (List.replicate (n + 1) 0) u
    (by simp) (by simp)
  refine ⟨f, f', hnew, e, v.nodes 0 0 ⟨b, hb, 1, 1, by omega, by omega, ?_, ?_⟩, ?_⟩
  · rw [bx0, fx]; push_cast; ring
  · rw [by0, fy]; push_cast; ring
  · intro X Y hm
    rcases v.marked_of X Y hm with h | ⟨_, a, c, hi, hne, _⟩
    · rw [markedAt_iff f b wf hb] at h
      obtain ⟨i, j, _, _, _, _, h⟩ := h
      rw [hr0] at h; simp at h
    · have ha : a ∈ (List.replicate (n+1) (0:K)).zip (List.replicate (n+1) 0) := hi.subset (by simp)
      have hc : c ∈ (List.replicate (n+1) (0:K)).zip (List.replicate (n+1) 0) := hi.subset (by simp)
      rw [List.zip_replicate, List.mem_replicate] at ha hc
      exact hne (ha.2.trans hc.2.symm)

/-! ## C12: the accumulated weights -/

/-- **C12.** After any history of tracks, registrations, resets and expansions, `total_weight` is the sum of all registered
weights; and the weight at a lattice position is the sum of the weights of those realizations that visited it, provided the
position was a node from the start or no umbra exceeds the spacing. Off the lattice nothing is recorded. -/
theorem C12_accumulation {dx dy xo yo : K} {f0 : PField K}
    (h0 : PField.new dx dy (some xo) (some yo) = .ok f0) (es : List (Event K)) (hv : ∀ e ∈ es, e.Valid) :
    ∃ f, f0.run (es.map Event.call) = some f ∧
      f.total = ((registered es []).map Realization.weight).sum ∧
      (∀ X Y, OnLattice xo yo dx dy X Y → (f0.IsNode X Y ∨ ∀ e ∈ es, e.Narrow dx dy) →
        f.weightAt X Y = visitWeight (registered es []) X Y ∧
        (f.markedAt X Y ↔ Visits (pending es []) X Y)) ∧
      ∀ X Y, ¬ OnLattice xo yo dx dy X Y → f.weightAt X Y = 0 ∧ ¬ f.markedAt X Y := by
  obtain ⟨wf0, hx, hy⟩ := new_wf h0
  obtain ⟨f, e, i⟩ := run_inv (es.map Event.call) f0 wf0
  obtain ⟨f1, b, hnew, hb, _, _, fr, fc, bx0, bx1, by0, by1, ht, hp, hr⟩ := new_origin dx dy xo yo
    (hx ▸ wf0.dx_pos) (hy ▸ wf0.dy_pos)
  obtain rfl : f0 = f1 := by rw [h0] at hnew; simpa using hnew
  have w0 : ∀ X Y, f0.weightAt X Y = 0 := by
    intro X Y
    unfold PField.weightAt
    rcases lookAt_cases f0 b wf0.dx_pos wf0.dy_pos hb Body.pgrid 0 X Y with ⟨i, j, _, _, _, _, hv⟩ | ⟨_, hv⟩
    · rw [hv, hp]
    · exact hv
  have m0 : ∀ X Y, ¬ f0.markedAt X Y := by
    intro X Y h
    rw [markedAt_iff f0 b wf0 hb] at h
    obtain ⟨i, j, _, _, _, _, h⟩ := h
    rw [hr] at h; simp at h
  have t0 : f0.total = 0 := by unfold PField.total; rw [hb]; exact ht
  have node0 : f0.IsNode b.xmin b.ymin := ⟨b, hb, 0, 0, by omega, by omega, by simp, by simp⟩
  have bne : f0.body ≠ none := by rw [hb]; simp
  refine ⟨f, e, ?_, ?_, ?_⟩
  · obtain ⟨f', e', _, t', _⟩ := history_refine es f0 [] b.xmin b.ymin wf0 bne hv (Or.inl node0)
      (by simp [m0, Visits])
    rw [e] at e'
    obtain rfl := Option.some.inj e'
    rw [t', t0, zero_add]
  · intro X Y hL hc
    have hF : Follows f0 X Y (∀ e ∈ es, e.Narrow f0.deltax f0.deltay) := by
      rcases hc with hc | hc
      · exact Or.inl hc
      · refine Or.inr ⟨by rw [hx, hy]; exact hc, b, hb, ?_⟩
        obtain ⟨p, q, hp, hq⟩ := hL
        refine ⟨p + 1, q + 1, ?_, ?_⟩
        · rw [hp, bx0, hx]; push_cast; ring
        · rw [hq, by0, hy]; push_cast; ring
    obtain ⟨f', e', _, _, w', m'⟩ := history_refine es f0 [] X Y wf0 bne hv hF (by simp [m0, Visits])
    rw [e] at e'
    obtain rfl := Option.some.inj e'
    exact ⟨by rw [w', w0, zero_add], m'⟩
  · intro X Y hL
    have hn : ¬ f.IsNode X Y := fun hn => hL ((C02_lattice h0 e).2.2 X Y hn)
    exact ⟨lookAt_not f _ _ X Y hn, fun hm => hn (isNode_of_markedAt f hm)⟩

/-- Two realizations, the second with two tracks, and a discarded track: hypotheses hold, conclusion is specific. -/
example : ∃ f, demo.run (([.track [(0,0),(3,0)] 1, .register 2, .track [(0,9),(9,9)] 1, .reset,
      .track [(0,0),(3,0)] 1, .track [(3,0),(3,3)] 1, .register 5] : List (Event ℚ)).map Event.call) = some f ∧
    f.total = 7 := by
  obtain ⟨f, h1, h2, _⟩ := C12_accumulation demo_new [.track [(0,0),(3,0)] 1, .register 2, .track [(0,9),(9,9)] 1,
      .reset, .track [(0,0),(3,0)] 1, .track [(3,0),(3,3)] 1, .register 5] (by simp [Event.Valid])
  exact ⟨f, h1, by rw [h2]; norm_num [registered]⟩

/-! ## C11: order of realizations -/

/-- **C11 (partial).** Full claim: the order of the realizations, and of the tracks inside each, never matters. Proved:
`total_weight` never depends on the order; the weights do not at nodes of the initial grid, nor anywhere if no umbra
exceeds the spacing. Otherwise it is false: `C11_fails_if_umbra_exceeds_spacing`. -/
theorem C11_order_partial {dx dy xo yo : K} {f0 : PField K}
    (h0 : PField.new dx dy (some xo) (some yo) = .ok f0) {rs ss : List (Realization K)} (h : SameUpToOrder rs ss)
    (hv : ∀ e ∈ rs.flatMap Realization.events, e.Valid) :
    ∃ f g, f0.run ((rs.flatMap Realization.events).map Event.call) = some f ∧
      f0.run ((ss.flatMap Realization.events).map Event.call) = some g ∧ f.total = g.total ∧
      ∀ X Y, (f0.IsNode X Y ∨ ∀ e ∈ rs.flatMap Realization.events, e.Narrow dx dy) →
        f.weightAt X Y = g.weightAt X Y := by
  obtain ⟨f, ef, tf, wf, of⟩ := C12_accumulation h0 _ hv
  obtain ⟨g, eg, tg, wg, og⟩ := C12_accumulation h0 _ (h.valid _ (fun _ => trivial) hv)
  refine ⟨f, g, ef, eg, ?_, fun X Y hc => ?_⟩
  · rw [tf, tg, (registered_realizations rs).1, (registered_realizations ss).1]
    exact (visitWeight_sameUpToOrder h 0 0).2
  · by_cases hL : OnLattice xo yo dx dy X Y
    · rw [(wf X Y hL hc).1, (wg X Y hL (hc.imp_right (h.valid _ (fun _ => trivial)))).1,
        (registered_realizations rs).1, (registered_realizations ss).1]
      exact (visitWeight_sameUpToOrder h X Y).1
    · rw [(of X Y hL).1, (og X Y hL).1]

example : ∃ f g, demo.run ((List.flatMap Realization.events
      [⟨[([(0,0),(3,0)], 1)], 2⟩, ⟨[([(0,0),(3,3)], 1), ([(0,0),(0,3)], 1)], 5⟩]).map Event.call) = some f ∧
    demo.run ((List.flatMap Realization.events
      [⟨[([(0,0),(0,3)], 1), ([(0,0),(3,3)], 1)], 5⟩, ⟨[([(0,0),(3,0)], 1)], 2⟩]).map Event.call) = some g ∧
    ∀ X Y, f.weightAt X Y = g.weightAt X Y := by
  obtain ⟨f, g, h1, h2, _, h3⟩ := C11_order_partial demo_new
    (rs := [⟨[([(0,0),(3,0)], 1)], 2⟩, ⟨[([(0,0),(3,3)], 1), ([(0,0),(0,3)], 1)], 5⟩])
    (ss := [⟨[([(0,0),(0,3)], 1), ([(0,0),(3,3)], 1)], 5⟩, ⟨[([(0,0),(3,0)], 1)], 2⟩])
    ⟨_, List.Perm.swap _ _ _, .cons ⟨rfl, List.Perm.swap _ _ _⟩ (.cons ⟨rfl, .refl _⟩ .nil)⟩
    (by simp [Realization.events, Event.Valid])
  exact ⟨f, g, h1, h2, fun X Y => h3 X Y (Or.inr (by simp [Realization.events, Event.Narrow]))⟩

/-- **C11 is false when the umbra exceeds the spacing**: swapping two realizations changes the weight of a node. -/
theorem C11_fails_if_umbra_exceeds_spacing (dx dy u : K) (hdx : 0 < dx) (hdy : 0 < dy) (hu : dx < u) :
    ∃ (f0 f g : PField K) (r s : Realization K) (X Y : K),
      PField.new dx dy (some 0) (some 0) = .ok f0 ∧
      f0.run (([r, s].flatMap Realization.events).map Event.call) = some f ∧
      f0.run (([s, r].flatMap Realization.events).map Event.call) = some g ∧
      f.weightAt X Y ≠ g.weightAt X Y := by
  obtain ⟨e, e0, e1, e2⟩ := exists_short dx u hdx hu
  obtain ⟨f0, b, hnew, hb, fx, fy, fr, fc, bx0, bx1, by0, by1, ht0, hp0, hr0⟩ := new_origin dx dy 0 0 hdx hdy
  have hr := new_reachable hnew
  have wf0 := (new_wf hnew).1
  have u0 : 0 ≤ u := by linarith
  have two : OnLattice 0 0 dx dy (2 * dx) 0 := ⟨2, 0, by simp, by simp⟩
  have neR : NearTrack [(0, 0), (e, 0)] u (2 * dx) 0 := by
    refine ⟨(0, 0), (e, 0), List.infix_refl _, ?_, 1, by simp, le_refl _, ?_⟩
    · simp only [ne_eq, Prod.mk.injEq, and_true]; exact e0.ne
    · simp only [sub_zero, one_mul, zero_add, mul_zero, ne_eq, OfNat.ofNat_ne_zero, not_false_eq_true,
        zero_pow, add_zero]
      exact sq_lt_sq' (by linarith) (by linarith)
  have neS : NearTrack [(0, 0), (2 * dx, 0)] u (2 * dx) 0 := by
    refine ⟨(0, 0), (2 * dx, 0), List.infix_refl _, ?_, 1, by simp, le_refl _, ?_⟩
    · simp only [ne_eq, Prod.mk.injEq, and_true]; intro h; linarith
    · have e1 : 2 * dx - (0 + 1 * (2 * dx - 0)) = (0:K) := by ring
      have e2 : (0:K) - (0 + 1 * (0 - 0)) = 0 := by ring
      show (2 * dx - (0 + 1 * (2 * dx - 0))) ^ 2 + ((0:K) - (0 + 1 * (0 - 0))) ^ 2 < u ^ 2
      rw [e1, e2]
      have : 0 < u ^ 2 := by have : 0 < u := by linarith
                             positivity
      simpa using this
  -- first order: r then s
  obtain ⟨f1, _, h1, hb1, ht1, hw1, _, _, _, _⟩ :=
    C09_rasterize hr (x := [0, e]) (y := [0, 0]) (u := u) (by simp) rfl u0
  have hn1 := nodes_same_if_inside hr hb (x := [0, e]) (y := [0, 0]) (by simp) (by simp)
    (by rw [bx0, bx1]; simp only [List.mem_cons, List.not_mem_nil, or_false]
        rintro z (rfl | rfl) <;> constructor <;> linarith)
    (by rw [by0, by1]; simp only [List.mem_cons, List.not_mem_nil, or_false]
        rintro z (rfl | rfl) <;> constructor <;> linarith) h1
  have nn : ¬ f0.IsNode (2 * dx) 0 := by
    rintro ⟨b', hb', i, j, hi, hj, hX, _⟩
    obtain rfl := Option.some.inj (hb.symm.trans hb')
    rw [fc] at hj
    rw [fx, bx0] at hX
    have : (j : K) * dx = 3 * dx := by linarith
    have hj3 : (j : K) = 3 := mul_right_cancel₀ hdx.ne' this
    have : j = 3 := by exact_mod_cast hj3
    omega
  have hr1 : f1.Reachable := reachable_step (c := .rasterize [0, e] [0, 0] u) hr h1
  obtain ⟨f2, r2, wf2, dx2, dy2, _, w2, m2, n2, l2⟩ := register_view f1 (reachable_wf hr1) (by rw [hb1]; simp) 1
  have hw2 : f2.weightAt (2 * dx) 0 = 0 :=
    lookAt_not f2 _ _ _ _ (by rw [n2, hn1]; exact nn)
  have hr2 : f2.Reachable := reachable_step (c := .register 1) (r := .ok ()) hr1 (by simp [step, r2, lift])
  obtain ⟨f3, _, h3, hb3, _, hw3, _⟩ :=
    C09_rasterize hr2 (x := [0, 2 * dx]) (y := [0, 0]) (u := u) (by simp) rfl u0
  have hr3 : f3.Reachable := reachable_step (c := .rasterize [0, 2 * dx] [0, 0] u) hr2 h3
  obtain ⟨f4, r4, _, _, _, _, w4, _⟩ := register_view f3 (reachable_wf hr3) (by rw [hb3]; simp) 1
  have upper : f4.weightAt (2 * dx) 0 ≤ 1 := by
    rw [w4, hw3, hw2]
    split_ifs <;> simp
  -- second order: s then r
  obtain ⟨g1, b1, k1, kb1, kt1, kw1, kn1, kx1, ky1, km1⟩ :=
    C09_rasterize hr (x := [0, 2 * dx]) (y := [0, 0]) (u := u) (by simp) rfl u0
  have kr1 : g1.Reachable := reachable_step (c := .rasterize [0, 2 * dx] [0, 0] u) hr k1
  have node : g1.IsNode (2 * dx) 0 := by
    obtain ⟨f', e', v, f1', x0, x1, y0, y1, _, v1, hn, ⟨mx0, mx1, my0, my1⟩, bx, by'⟩ :=
      rasterize_view f0 wf0 [0, 2 * dx] [0, 0] u (by simp) (by simp)
    rw [k1] at e'
    obtain rfl : g1 = f' := by simpa using e'
    refine (hn _ _).mpr (v1.covers b hb (min dx dy) (2 * dx) 0 (by rw [fx]; exact min_le_left _ _)
      (by rw [fy]; exact min_le_right _ _) ?_ ?_ ?_ ?_ ?_)
    · refine ⟨3, 1, ?_, ?_⟩
      · rw [bx0, fx]; push_cast; ring
      · rw [by0, fy]; push_cast; ring
    · have := (bx (2*dx) (by simp)).1; have := lt_min hdx hdy; linarith
    · have := (bx (2*dx) (by simp)).2; have := lt_min hdx hdy; linarith
    · have := (by' 0 (by simp)).1; have := lt_min hdx hdy; linarith
    · have := (by' 0 (by simp)).2; have := lt_min hdx hdy; linarith
  obtain ⟨g2, r2', gwf2, _, _, _, gw2, gm2, gn2, gl2⟩ := register_view g1 (reachable_wf kr1) (by rw [kb1]; simp) 1
  have kr2 : g2.Reachable := reachable_step (c := .register 1) (r := .ok ()) kr1 (by simp [step, r2', lift])
  have gw2' : g2.weightAt (2 * dx) 0 = 1 := by
    rw [gw2, if_pos ((km1 _ _ node).mpr (Or.inr neS)), kw1, PField.weightAt, lookAt_not f0 _ _ _ _ nn, zero_add]
  obtain ⟨g3, _, k3, kb3, _, kw3, kn3, _, _, km3⟩ :=
    C09_rasterize kr2 (x := [0, e]) (y := [0, 0]) (u := u) (by simp) rfl u0
  have kr3 : g3.Reachable := reachable_step (c := .rasterize [0, e] [0, 0] u) kr2 k3
  obtain ⟨g4, r4', _, _, _, _, gw4, _⟩ := register_view g3 (reachable_wf kr3) (by rw [kb3]; simp) 1
  have gw4' : g4.weightAt (2 * dx) 0 = 2 := by
    rw [gw4, if_pos ((km3 _ _ (kn3 _ _ ((gn2 _ _).mpr node))).mpr (Or.inr neR)), kw3, gw2']
    norm_num
  refine ⟨f0, f4, g4, ⟨[([(0, 0), (e, 0)], u)], 1⟩, ⟨[([(0, 0), (2 * dx, 0)], u)], 1⟩, 2 * dx, 0, hnew, ?_, ?_, ?_⟩
  · simp [Realization.events, Event.call, run, step, h1, r2, h3, r4, lift]
  · simp [Realization.events, Event.call, run, step, k1, r2', k3, r4', lift]
  · rw [gw4']
    intro h
    rw [h] at upper
    norm_num at upper

/-! ## C13 -/

/-- **C13.** With non-negative weights, at every position `0 ≤ weight ≤ total_weight` after any history of calls
(of whatever arguments); so the normalised weight is in [0, 1]. -/
theorem C13_probability_bounds {dx dy : K} {xo yo : Option K} {f0 f : PField K} {cs : List (PField.Call K)}
    (h0 : PField.new dx dy xo yo = .ok f0) (hw : ∀ w, PField.Call.register w ∈ cs → 0 ≤ w)
    (h : f0.run cs = some f) :
    ∀ X Y, 0 ≤ f.weightAt X Y ∧ f.weightAt X Y ≤ f.total ∧
      (0 < f.total → 0 ≤ f.weightAt X Y / f.total ∧ f.weightAt X Y / f.total ≤ 1) := by
  have key : ∀ (cs : List (PField.Call K)) (f0 : PField K), f0.WF → (∀ w, PField.Call.register w ∈ cs → 0 ≤ w) →
      (∀ X Y, 0 ≤ f0.weightAt X Y ∧ f0.weightAt X Y ≤ f0.total) → f0.run cs = some f →
      ∀ X Y, 0 ≤ f.weightAt X Y ∧ f.weightAt X Y ≤ f.total := by
    intro cs
    induction cs with
    | nil => intro f0 _ _ hI h; simp only [run, Option.some.injEq] at h; rw [← h]; exact hI
    | cons c cs ih =>
      intro f0 wf hw hI h
      obtain ⟨f1, r, e, i⟩ := step_inv f0 wf c
      simp only [run, e] at h
      refine ih f1 i.wf (fun w m => hw w (by simp [m])) ?_ h
      intro X Y
      cases c with
      | expand x0 x1 y0 y1 =>
        by_cases hbox : x1 < x0 ∨ y1 < y0
        · simp only [step, expand_error f0 x0 x1 y0 y1 hbox, lift, Option.map_some, Option.some.injEq,
            Prod.mk.injEq] at e
          rw [← e.1]; exact hI X Y
        · push Not at hbox
          obtain ⟨f', e', v⟩ := expand_view f0 wf x0 x1 y0 y1 hbox.1 hbox.2
          simp only [step, e', lift, Option.map_some, Option.some.injEq, Prod.mk.injEq] at e
          rw [← e.1, v.weight, v.total]; exact hI X Y
      | insert ax ay bx by' u =>
        by_cases hb : f0.body = none
        · simp only [step, PField.insert, hb, lift, Option.some.injEq, Prod.mk.injEq] at e
          rw [← e.1]; exact hI X Y
        · obtain ⟨f', e', _, _, _, t, w, _⟩ := insert_view f0 wf hb ax ay bx by' u
          simp only [step, e', lift, Option.some.injEq, Prod.mk.injEq] at e
          rw [← e.1, w, t]; exact hI X Y
      | rasterize x y u =>
        by_cases hx : x = [] ∨ y = []
        · simp only [step, rasterize_empty f0 x y u hx, Option.some.injEq, Prod.mk.injEq] at e
          rw [← e.1]; exact hI X Y
        · push Not at hx
          by_cases hlen : x.length ≤ y.length
          · obtain ⟨f', e', v, _⟩ := rasterize_view f0 wf x y u hx.1 hlen
            simp only [step, e', Option.some.injEq, Prod.mk.injEq] at e
            rw [← e.1, v.weight, v.total]; exact hI X Y
          · obtain ⟨f', e', v⟩ := rasterize_short f0 wf x y u hx.2 (by omega)
            simp only [step, e', Option.some.injEq, Prod.mk.injEq] at e
            rw [← e.1, v.weight, v.total]; exact hI X Y
      | register w =>
        by_cases hb : f0.body = none
        · simp only [step, register, hb, lift, Option.some.injEq, Prod.mk.injEq] at e
          rw [← e.1]; exact hI X Y
        · obtain ⟨f', e', _, _, _, t, ww, _⟩ := register_view f0 wf hb w
          simp only [step, e', lift, Option.some.injEq, Prod.mk.injEq] at e
          have hw0 := hw w (by simp)
          have := hI X Y
          rw [← e.1, ww, t]
          split_ifs
          · constructor <;> linarith
          · constructor <;> linarith
      | reset =>
        by_cases hb : f0.body = none
        · simp only [step, PField.reset, hb, lift, Option.some.injEq, Prod.mk.injEq] at e
          rw [← e.1]; exact hI X Y
        · obtain ⟨f', e', _, _, _, t, w, _⟩ := reset_view f0 wf hb
          simp only [step, e', lift, Option.some.injEq, Prod.mk.injEq] at e
          rw [← e.1, w, t]; exact hI X Y
  have init : ∀ X Y, 0 ≤ f0.weightAt X Y ∧ f0.weightAt X Y ≤ f0.total := by
    intro X Y
    have wf0 := (new_wf h0).1
    have : f0.weightAt X Y = 0 ∧ f0.total = 0 := by
      cases hb : f0.body with
      | none => exact ⟨weightAt_none f0 hb X Y, by unfold PField.total; rw [hb]⟩
      | some b =>
        have hz : b.totalWeight = 0 ∧ ∀ i j, b.pgrid.val i j = 0 := by
          unfold PField.new at h0
          split_ifs at h0
          cases xo with
          | none => simp only [Except.ok.injEq] at h0; subst h0; simp at hb
          | some xo =>
            cases yo with
            | none => simp only [Except.ok.injEq] at h0; subst h0; simp at hb
            | some yo =>
              simp only [Except.ok.injEq] at h0; subst h0
              obtain rfl := Option.some.inj hb
              exact ⟨rfl, fun _ _ => rfl⟩
        refine ⟨?_, by unfold PField.total; rw [hb]; exact hz.1⟩
        unfold PField.weightAt
        rcases lookAt_cases f0 b wf0.dx_pos wf0.dy_pos hb Body.pgrid 0 X Y with ⟨i, j, _, _, _, _, hv⟩ | ⟨_, hv⟩
        · rw [hv, hz.2]
        · exact hv
    rw [this.1, this.2]; exact ⟨le_refl _, le_refl _⟩
  intro X Y
  have hb := key cs f0 (new_wf h0).1 hw init h X Y
  exact ⟨hb.1, hb.2, fun ht => ⟨div_nonneg hb.1 ht.le, (div_le_one ht).mpr hb.2⟩⟩

example : ∃ f, demo.run [.rasterize [0, 1] [0, 1] 1, .register 2, .insert 0 0 1 1 7, .register 3] = some f ∧
    ∀ X Y, f.weightAt X Y ≤ f.total :=
  let ⟨f, h1, _⟩ := C01_geometry demo_new [.rasterize [0, 1] [0, 1] 1, .register 2, .insert 0 0 1 1 7, .register 3]
  ⟨f, h1, fun X Y => (C13_probability_bounds demo_new (by simp) h1 X Y).2.1⟩

/-! ## C14: reset -/

/-- **C14.** Drawing anything and then `reset` leaves no mark, and total weight and the weight at every position are what they
were before the drawing. -/
theorem C14_reset {f : PField K} (hf : f.Reachable) (cs : List (PField.Call K)) (hc : ∀ c ∈ cs, Drawing c) :
    ∃ f', f.run (cs ++ [.reset]) = some f' ∧ (∀ X Y, ¬ f'.markedAt X Y) ∧
      f'.total = f.total ∧ ∀ X Y, f'.weightAt X Y = f.weightAt X Y := by
  have key : ∀ (cs : List (PField.Call K)) (f : PField K), f.WF → (∀ c ∈ cs, Drawing c) →
      ∃ f', f.run cs = some f' ∧ f'.WF ∧ f'.total = f.total ∧ ∀ X Y, f'.weightAt X Y = f.weightAt X Y := by
    intro cs
    induction cs with
    | nil => intro f wf _; exact ⟨f, rfl, wf, rfl, fun _ _ => rfl⟩
    | cons c cs ih =>
      intro f wf hc
      have one : ∃ f1 r, f.step c = some (f1, r) ∧ f1.WF ∧ f1.total = f.total ∧
          ∀ X Y, f1.weightAt X Y = f.weightAt X Y := by
        cases c with
        | expand x0 x1 y0 y1 =>
          by_cases hbox : x1 < x0 ∨ y1 < y0
          · exact ⟨f, .error .rangeError, by simp [step, expand_error f x0 x1 y0 y1 hbox, lift], wf, rfl, fun _ _ => rfl⟩
          · push Not at hbox
            obtain ⟨f', e', v⟩ := expand_view f wf x0 x1 y0 y1 hbox.1 hbox.2
            exact ⟨f', .ok (), by simp [step, e', lift], v.wf, v.total, v.weight⟩
        | insert ax ay bx by' u =>
          by_cases hb : f.body = none
          · exact ⟨f, .error .attributeError, by simp [step, PField.insert, hb, lift], wf, rfl, fun _ _ => rfl⟩
          · obtain ⟨f', e', wf', _, _, t, w, _⟩ := insert_view f wf hb ax ay bx by' u
            exact ⟨f', .ok (), by simp [step, e', lift], wf', t, w⟩
        | rasterize x y u =>
          by_cases hx : x = [] ∨ y = []
          · exact ⟨f, _, rasterize_empty f x y u hx, wf, rfl, fun _ _ => rfl⟩
          · push Not at hx
            by_cases hlen : x.length ≤ y.length
            · obtain ⟨f', e', v, _⟩ := rasterize_view f wf x y u hx.1 hlen
              exact ⟨f', _, e', v.wf, v.total, v.weight⟩
            · obtain ⟨f', e', v⟩ := rasterize_short f wf x y u hx.2 (by omega)
              exact ⟨f', _, e', v.wf, v.total, v.weight⟩
        | register w => exact (hc (.register w) (by simp)).elim
        | reset => exact (hc .reset (by simp)).elim
      obtain ⟨f1, r, e, wf1, t1, w1⟩ := one
      obtain ⟨f2, e2, wf2, t2, w2⟩ := ih f1 wf1 (fun c m => hc c (by simp [m]))
      exact ⟨f2, by simp [run, e, e2], wf2, t2.trans t1, fun X Y => (w2 X Y).trans (w1 X Y)⟩
  obtain ⟨f1, e1, wf1, t1, w1⟩ := key cs f (reachable_wf hf) hc
  by_cases hb : f1.body = none
  · refine ⟨f1, ?_, fun X Y => markedAt_none f1 hb X Y, t1, w1⟩
    rw [run_append, e1]
    simp [run, step, PField.reset, hb, lift]
  · obtain ⟨f', e', _, _, _, t, w, m, _⟩ := reset_view f1 wf1 hb
    refine ⟨f', ?_, m, t.trans t1, fun X Y => (w X Y).trans (w1 X Y)⟩
    rw [run_append, e1]
    simp [run, step, e', lift]

example : ∃ f', demo.run ([.rasterize [0, 9] [0, 9] 4, .insert 0 0 1 1 1] ++ [.reset]) = some f' ∧
    ∀ X Y, ¬ f'.markedAt X Y :=
  let ⟨f', h1, h2, _⟩ := C14_reset demo_reachable [.rasterize [0, 9] [0, 9] 4, .insert 0 0 1 1 1]
    (by simp [Drawing])
  ⟨f', h1, h2⟩

/-- **C14.** A discarded realization leaves no trace in later results: with and without the discarded tracks `ds`, the history
ends with the same total weight, and the same weights and marks at every position that was a node from the start — or
everywhere if no umbra exceeds the spacing. -/
theorem C14_discard_leaves_no_trace {dx dy xo yo : K} {f0 : PField K}
    (h0 : PField.new dx dy (some xo) (some yo) = .ok f0) (es ds later : List (Event K))
    (hv : ∀ e ∈ es ++ ds ++ [Event.reset] ++ later, e.Valid) (hd : ∀ e ∈ ds, ∃ vs u, e = .track vs u) :
    ∃ f g, f0.run ((es ++ ds ++ [Event.reset] ++ later).map Event.call) = some f ∧
      f0.run ((es ++ [Event.reset] ++ later).map Event.call) = some g ∧ f.total = g.total ∧
      ∀ X Y, (f0.IsNode X Y ∨ ∀ e ∈ es ++ ds ++ [Event.reset] ++ later, e.Narrow dx dy) →
        f.weightAt X Y = g.weightAt X Y ∧ (f.markedAt X Y ↔ g.markedAt X Y) := by
  have hsub : ∀ e : Event K, e ∈ es ++ [Event.reset] ++ later → e ∈ es ++ ds ++ [Event.reset] ++ later := by
    intro e he
    simp only [List.mem_append, List.mem_singleton] at he ⊢
    tauto
  obtain ⟨f, ef, tf, wf, of⟩ := C12_accumulation h0 _ hv
  obtain ⟨g, eg, tg, wg, og⟩ := C12_accumulation h0 (es ++ [Event.reset] ++ later) (fun e he => hv e (hsub e he))
  have hds : ∀ p, registered ds p = [] := by
    clear hv hsub wf wg of og ef eg tf tg
    induction ds with
    | nil => intro p; rfl
    | cons e ds ih =>
      intro p
      obtain ⟨vs, u, rfl⟩ := hd e (by simp)
      exact ih (fun e he => hd e (by simp [he])) _
  have hreg : registered (es ++ ds ++ [Event.reset] ++ later) [] = registered (es ++ [Event.reset] ++ later) [] ∧
      pending (es ++ ds ++ [Event.reset] ++ later) [] = pending (es ++ [Event.reset] ++ later) [] := by
    simp only [registered_append, hds, pending, List.append_assoc, List.nil_append]
    simp only [List.nil_append, registered, and_self]
  refine ⟨f, g, ef, eg, by rw [tf, tg, hreg.1], fun X Y hc => ?_⟩
  by_cases hL : OnLattice xo yo dx dy X Y
  · obtain ⟨a1, a2⟩ := wf X Y hL hc
    obtain ⟨b1, b2⟩ := wg X Y hL (hc.imp_right (fun h e he => h e (hsub e he)))
    rw [a1, b1, a2, b2, hreg.1, hreg.2]
    exact ⟨rfl, Iff.rfl⟩
  · obtain ⟨a1, a2⟩ := of X Y hL
    obtain ⟨b1, b2⟩ := og X Y hL
    exact ⟨by rw [a1, b1], by simp [a2, b2]⟩

example : ∃ f g, demo.run (([.track [(0,0),(1,1)] 1, .register 2] ++ [.track [(5,5),(6,6)] 1] ++ [Event.reset] ++
      [.track [(0,0),(2,0)] 1, .register 1] : List (Event ℚ)).map Event.call) = some f ∧
    demo.run (([.track [(0,0),(1,1)] 1, .register 2] ++ [Event.reset] ++
      [.track [(0,0),(2,0)] 1, .register 1] : List (Event ℚ)).map Event.call) = some g ∧ f.total = g.total :=
  let ⟨f, g, h1, h2, h3, _⟩ := C14_discard_leaves_no_trace demo_new [.track [(0,0),(1,1)] 1, .register 2]
    [.track [(5,5),(6,6)] 1] [.track [(0,0),(2,0)] 1, .register 1] (by simp [Event.Valid]) (by simp)
  ⟨f, g, h1, h2, h3⟩

/-! ## C15, C16: error behaviour -/

/-- **C15.** The constructor raises RangeError iff a spacing is not positive. -/
theorem C15_constructor (dx dy : K) (xo yo : Option K) :
    (dx ≤ 0 ∨ dy ≤ 0 → PField.new dx dy xo yo = .error .rangeError) ∧
    (¬ (dx ≤ 0 ∨ dy ≤ 0) → ∃ f, PField.new dx dy xo yo = .ok f) := by
  unfold PField.new
  constructor
  · intro h
    by_cases h1 : dx ≤ 0
    · rw [if_pos h1]
    · rw [if_neg h1, if_pos (h.resolve_left h1)]
  · intro h
    push Not at h
    rw [if_neg (not_le.mpr h.1), if_neg (not_le.mpr h.2)]
    cases xo with
    | none => exact ⟨_, rfl⟩
    | some xo => cases yo with
      | none => exact ⟨_, rfl⟩
      | some yo => exact ⟨_, rfl⟩

/-- **C15.** With an origin the grid is 3×3, zero, unmarked, centred on the origin. -/
theorem C15_origin {dx dy xo yo : K} {f : PField K} (h : PField.new dx dy (some xo) (some yo) = .ok f) :
    f.total = 0 ∧ (∀ X Y, f.weightAt X Y = 0 ∧ ¬ f.markedAt X Y) ∧
      ∀ X Y, f.IsNode X Y ↔ (X = xo - dx ∨ X = xo ∨ X = xo + dx) ∧ (Y = yo - dy ∨ Y = yo ∨ Y = yo + dy) := by
  obtain ⟨wf, hx, hy⟩ := new_wf h
  obtain ⟨f', b, hnew, hb, fx, fy, fr, fc, bx0, bx1, by0, by1, ht, hp, hr⟩ :=
    new_origin dx dy xo yo (hx ▸ wf.dx_pos) (hy ▸ wf.dy_pos)
  obtain rfl : f = f' := by rw [h] at hnew; simpa using hnew
  refine ⟨by unfold PField.total; rw [hb]; exact ht, fun X Y => ⟨?_, ?_⟩, fun X Y => ⟨?_, ?_⟩⟩
  · unfold PField.weightAt
    rcases lookAt_cases f b wf.dx_pos wf.dy_pos hb Body.pgrid 0 X Y with ⟨i, j, _, _, _, _, hv⟩ | ⟨_, hv⟩
    · rw [hv, hp]
    · exact hv
  · intro h
    rw [markedAt_iff f b wf hb] at h
    obtain ⟨i, j, _, _, _, _, h⟩ := h
    rw [hr] at h; simp at h
  · rintro ⟨b', hb', i, j, hi, hj, hX, hY⟩
    obtain rfl := Option.some.inj (hb.symm.trans hb')
    rw [fr] at hi
    rw [fc] at hj
    rw [bx0, fx] at hX
    rw [by0, fy] at hY
    constructor
    · interval_cases j
      · left; rw [hX]; simp
      · right; left; rw [hX]; push_cast; ring
      · right; right; rw [hX]; push_cast; ring
    · interval_cases i
      · left; rw [hY]; simp
      · right; left; rw [hY]; push_cast; ring
      · right; right; rw [hY]; push_cast; ring
  · rintro ⟨hX, hY⟩
    obtain ⟨j, hj, ej⟩ : ∃ j : ℕ, j < 3 ∧ X = b.xmin + j * f.deltax := by
      rw [bx0, fx]
      rcases hX with h | h | h
      · exact ⟨0, by omega, by rw [h]; simp⟩
      · exact ⟨1, by omega, by rw [h]; push_cast; ring⟩
      · exact ⟨2, by omega, by rw [h]; push_cast; ring⟩
    obtain ⟨i, hi, ei⟩ : ∃ i : ℕ, i < 3 ∧ Y = b.ymin + i * f.deltay := by
      rw [by0, fy]
      rcases hY with h | h | h
      · exact ⟨0, by omega, by rw [h]; simp⟩
      · exact ⟨1, by omega, by rw [h]; push_cast; ring⟩
      · exact ⟨2, by omega, by rw [h]; push_cast; ring⟩
    exact ⟨b, hb, i, j, by omega, by omega, ej, ei⟩

example : ∀ X Y, demo.IsNode X Y ↔ (X = 0 - 1 ∨ X = 0 ∨ X = 0 + 1) ∧ (Y = 0 - 1 ∨ Y = 0 ∨ Y = 0 + 1) :=
  (C15_origin demo_new).2.2

/-- **C15.** Without an origin the field has no grid; `insert`, `register` and `reset` raise AttributeError and change nothing,
the first `expand` or `rasterize` creates a grid. -/
theorem C15_empty {dx dy : K} {xo yo : Option K} {f : PField K} (ho : xo = none ∨ yo = none)
    (h : PField.new dx dy xo yo = .ok f) :
    f.body = none ∧
      (∀ ax ay bx «by» u, f.step (.insert ax ay bx «by» u) = some (f, .error .attributeError)) ∧
      (∀ w, f.step (.register w) = some (f, .error .attributeError)) ∧
      f.step .reset = some (f, .error .attributeError) ∧
      (∀ x0 x1 y0 y1, x0 ≤ x1 → y0 ≤ y1 → ∃ f', f.step (.expand x0 x1 y0 y1) = some (f', .ok ()) ∧ f'.body ≠ none) ∧
      ∀ x y u, x ≠ [] → x.length = y.length → ∃ f', f.step (.rasterize x y u) = some (f', .ok ()) ∧ f'.body ≠ none := by
  have wf := (new_wf h).1
  have hb : f.body = none := by
    unfold PField.new at h
    split_ifs at h
    rcases ho with rfl | rfl
    · simp only [Except.ok.injEq] at h; rw [← h]
    · cases xo <;> · simp only [Except.ok.injEq] at h; rw [← h]
  refine ⟨hb, fun ax ay bx by' u => ?_, fun w => ?_, ?_, fun x0 x1 y0 y1 hx hy => ?_, fun x y u hx hl => ?_⟩
  · simp [step, PField.insert, hb, lift]
  · simp [step, register, hb, lift]
  · simp [step, PField.reset, hb, lift]
  · obtain ⟨f', e, v⟩ := expand_view f wf x0 x1 y0 y1 hx hy
    obtain ⟨b, hb', _⟩ := v.inside
    exact ⟨f', by simp [step, e, lift], by rw [hb']; simp⟩
  · obtain ⟨f', e, v, _⟩ := rasterize_view f wf x y u hx hl.le
    exact ⟨f', e, v.body⟩

example : demoEmpty.step .reset = some (demoEmpty, .error .attributeError) :=
  (C15_empty (dx := 1) (dy := 1) (xo := none) (yo := none) (Or.inl rfl)
    (by unfold PField.new; rw [if_neg (by norm_num), if_neg (by norm_num)]; rfl)).2.2.2.1

/-- **C16.** An empty list: ValueError, nothing changes. `y` shorter than `x`: IndexError, after the segments for which both
coordinates exist have been drawn (and only those), weights unchanged. Otherwise: returns. -/
theorem C16_rasterize_errors {f : PField K} (hf : f.Reachable) (x y : List K) (u : K) :
    (x = [] ∨ y = [] → f.step (.rasterize x y u) = some (f, .error .valueError)) ∧
    (y ≠ [] → y.length < x.length → 0 ≤ u → ∃ f', f.step (.rasterize x y u) = some (f', .error .indexError) ∧
      f'.total = f.total ∧ (∀ X Y, f'.weightAt X Y = f.weightAt X Y) ∧
      ∀ X Y, f'.IsNode X Y → (f'.markedAt X Y ↔ f.markedAt X Y ∨ NearTrack (x.zip y) u X Y)) ∧
    (x ≠ [] → x.length ≤ y.length → ∃ f', f.step (.rasterize x y u) = some (f', .ok ())) := by
  refine ⟨rasterize_empty f x y u, fun hy hl hu => ?_, fun hx hl => ?_⟩
  · obtain ⟨f', e, v⟩ := rasterize_short f (reachable_wf hf) x y u hy hl
    refine ⟨f', e, v.total, v.weight, fun X Y hn => ⟨fun h => (v.marked_of X Y h).imp_right And.right, ?_⟩⟩
    rintro (h | h)
    · exact v.marked_mono X Y h
    · exact v.marked_near hu X Y hn h
  · obtain ⟨f', e, _⟩ := rasterize_view f (reachable_wf hf) x y u hx hl
    exact ⟨f', e⟩

example : demo.step (.rasterize [] [1] 1) = some (demo, .error .valueError) ∧
    (∃ f', demo.step (.rasterize [0, 1, 2] [0, 1] 1) = some (f', .error .indexError)) ∧
    ∃ f', demo.step (.rasterize [0, 1] [0, 1] 1) = some (f', .ok ()) :=
  ⟨(C16_rasterize_errors demo_reachable _ _ _).1 (by simp),
   let ⟨f', h, _⟩ := (C16_rasterize_errors demo_reachable [0, 1, 2] [0, 1] 1).2.1 (by simp) (by simp) (by norm_num)
   ⟨f', h⟩,
   (C16_rasterize_errors demo_reachable _ _ _).2.2 (by simp) (by simp)⟩

end Oneka
