import Verif.Lemmas.FlExample

/-!
# C87, C88, C89: the probability field in floating-point arithmetic

C01 to C16 and C73 are about exact numbers. Here every operation of `ProbabilityField` is rounded to 53 binary digits, as in the computer. C87: the bounds on
the weights hold all the same. C88: a grid keeps its contents and ends up around the box, and calls return, as long as one spacing is visible at
the coordinates in question; otherwise a call hangs. C89: with ordinary coordinates the layout is exact and the weights are those of the tracks within
the umbra, give or take the last digits.
-/

namespace Oneka

open PField

/-! ## C87 -/

/-- **C87.** After any history of calls on a field constructed in any way (any arguments; exceptions are caught), with weights that are not negative:
the arrays have the announced shapes, no entry is negative or exceeds the total weight, and the normalised entries, rounded, are in [0, 1]. -/
theorem C87_bounds {dx dy : Fl} {xo yo : Option Fl} {f0 f : PField Fl} {cs : List (Call Fl)} (h0 : new dx dy xo yo = .ok f0)
    (hw : ∀ w, Call.register w ∈ cs → 0 ≤ w.val) (h : f0.run cs = some f) {b : Body Fl} (hb : f.body = some b) :
    3 ≤ f.nrows ∧ 3 ≤ f.ncols ∧ b.pgrid.rows = f.nrows ∧ b.pgrid.cols = f.ncols ∧ b.rgrid.rows = f.nrows ∧ b.rgrid.cols = f.ncols ∧
    0 ≤ b.totalWeight.val ∧ ∀ i j, i < f.nrows → j < f.ncols →
      0 ≤ (b.pgrid.val i j).val ∧ (b.pgrid.val i j).val ≤ b.totalWeight.val ∧
      (0 < b.totalWeight.val → 0 ≤ (b.pgrid.val i j / b.totalWeight).val ∧ (b.pgrid.val i j / b.totalWeight).val ≤ 1) := by
  obtain ⟨hf, -⟩ := run_held (P := True) cs f0 (new_held h0) (fun _ => hw) h
  obtain ⟨s1, s2, s3, s4, s5, s6⟩ := hf.shaped.grid b hb
  obtain ⟨t, p⟩ := hf.body trivial b hb
  refine ⟨s1, s2, s3, s4, s5, s6, t, fun i j hi hj => ?_⟩
  obtain ⟨p1, p2⟩ := p i j hi hj
  refine ⟨p1, p2, fun t0 => ⟨?_, ?_⟩⟩
  · rw [Fl.val_div, ← round53_zero]; exact round53_mono (by positivity)
  · have one : round53 1 = 1 := by simpa using round53_zpow 0
    rw [Fl.val_div, ← one]; exact round53_mono ((div_le_one t0).mpr p2)

/-- **C87.** The total weight never decreases. -/
theorem C87_total {dx dy : Fl} {xo yo : Option Fl} {f0 f f' : PField Fl} {cs cs' : List (Call Fl)} (h0 : new dx dy xo yo = .ok f0)
    (hw : ∀ w, Call.register w ∈ cs ++ cs' → 0 ≤ w.val) (h : f0.run cs = some f) (h' : f.run cs' = some f') : f.exact.total ≤ f'.exact.total :=
  (run_held cs' f (run_held (P := True) cs f0 (new_held h0) (fun _ w m => hw w (by simp [m])) h).1 (fun _ w m => hw w (by simp [m])) h').2 trivial

/-- **C87.** The only exceptions are those a caller provokes: `expand` with reversed limits, `insert`, `register` or `reset` before there is a grid,
`rasterize` with an empty list or with fewer y than x. In particular no index ever falls outside an array. -/
theorem C87_exceptions {dx dy : Fl} {xo yo : Option Fl} {f0 f f' : PField Fl} {cs : List (Call Fl)} {c : Call Fl} {e : PyErr} (h0 : new dx dy xo yo = .ok f0)
    (h : f0.run cs = some f) (hs : f.step c = some (f', .error e)) : f.MayRaise c e :=
  (step_held (run_held (P := False) cs f0 (new_held h0) (fun h => h.elim) h).1 c (fun h => h.elim) hs).2.2 e rfl

/-- `reset` on a field without a grid. -/
example : ∃ f0 : PField Fl, new (flt 10) (flt 10) none none = .ok f0 ∧ f0.run [] = some f0 ∧ f0.step .reset = some (f0, .error .attributeError) := by
  have h0 : new (flt 10) (flt 10) none none = .ok (⟨flt 10, flt 10, 0, 0, none⟩ : PField Fl) := by
    unfold new
    rw [if_neg (by rw [Fl.le_iff]; simp [flt_val]), if_neg (by rw [Fl.le_iff]; simp [flt_val])]
  exact ⟨_, h0, rfl, rfl⟩

/-! ## C88 -/

/-- **C88.** If `expand` returns on a field with a grid, the box lies strictly inside the new grid, the total weight is unchanged, the old entries and
marks are where they were relative to each other and everything around them is zero. No assumption on the numbers. -/
theorem C88_expand {dx dy : Fl} {xo yo : Option Fl} {f0 f : PField Fl} {cs : List (Call Fl)} (h0 : new dx dy xo yo = .ok f0) (h : f0.run cs = some f)
    {b : Body Fl} (hb : f.body = some b) {x0 x1 y0 y1 : Fl} (hx : x0.val ≤ x1.val) (hy : y0.val ≤ y1.val)
    {R : Except PyErr (PField Fl)} (he : f.expand x0 x1 y0 y1 = some R) :
    ∃ f' b', R = .ok f' ∧ f'.body = some b' ∧ b'.xmin.val < x0.val ∧ x1.val < b'.xmax.val ∧ b'.ymin.val < y0.val ∧ y1.val < b'.ymax.val ∧
      b'.totalWeight = b.totalWeight ∧ ∃ r c, r + f.nrows ≤ f'.nrows ∧ c + f.ncols ≤ f'.ncols ∧
        (∀ i j, i < f.nrows → j < f.ncols → b'.pgrid.val (r + i) (c + j) = b.pgrid.val i j ∧ b'.rgrid.val (r + i) (c + j) = b.rgrid.val i j) ∧
        ∀ i j, i < f'.nrows → j < f'.ncols → ¬ (r ≤ i ∧ i < r + f.nrows ∧ c ≤ j ∧ j < c + f.ncols) →
          b'.pgrid.val i j = 0 ∧ b'.rgrid.val i j = false := by
  have hf := (run_held (P := False) cs f0 (new_held h0) (fun h => h.elim) h).1
  obtain ⟨f', b', r, c, e, g⟩ := expand_grown f b hf.shaped hb x0 x1 y0 y1 (Fl.not_lt_of_le hx) (Fl.not_lt_of_le hy) he
  refine ⟨f', b', e, g.body, not_le.mp g.left, not_le.mp g.right, not_le.mp g.bottom, not_le.mp g.top, g.total, r, c, g.rows, g.cols, ?_, ?_⟩
  · intro i j hi hj
    have := g.rows
    have := g.cols
    rw [g.pval _ _ (by omega) (by omega), g.rval _ _ (by omega) (by omega), if_pos (by omega), if_pos (by omega)]
    simp
  · intro i j hi hj hn
    rw [g.pval _ _ hi hj, g.rval _ _ hi hj, if_neg hn, if_neg hn]
    exact ⟨rfl, rfl⟩

/-- The box [499000, 500700] × [4999000, 5000500] on the field around (500000, 5000000). -/
example : ∃ f0 b R, new (flt 10) (flt 10) (some (flt 500000)) (some (flt 5000000)) = .ok f0 ∧ f0.run [] = some f0 ∧ f0.body = some b ∧
    f0.expand (flt 499000) (flt 500700) (flt 4999000) (flt 5000500) = some R := by
  have e : eps = 1 / 9007199254740992 := by unfold eps; norm_num
  obtain ⟨f0, h0, b, hb⟩ : ∃ f0, new (flt 10) (flt 10) (some (flt 500000)) (some (flt 5000000)) = .ok f0 ∧ ∃ b, f0.body = some b := by
    unfold new
    rw [if_neg (by rw [Fl.le_iff]; simp [flt_val]), if_neg (by rw [Fl.le_iff]; simp [flt_val])]
    exact ⟨_, rfl, _, rfl⟩
  have near : f0.Near 10000000 10000000 := new_near h0 (by rintro x ⟨⟩; rw [flt_val _ (by norm_num)]; norm_num)
    (by rintro x ⟨⟩; rw [flt_val _ (by norm_num)]; norm_num) (by rw [flt_val _ (by norm_num), e]; norm_num) (by rw [flt_val _ (by norm_num), e]; norm_num)
  obtain ⟨R, hR, -⟩ := expand_near near (x0 := flt 499000) (x1 := flt 500700) (y0 := flt 4999000) (y1 := flt 5000500) (by simp [flt_val]; norm_num)
    (by simp [flt_val]; norm_num) (by simp [flt_val]; norm_num) (by simp [flt_val]; norm_num)
  exact ⟨f0, b, R, h0, rfl, hb, hR⟩

/-- **C88.** Every history of calls returns if the coordinates (of the origin, of the boxes and of the tracks) are at most `Qx` and `Qy` and the
spacings exceed 16 rounding units of these. -/
theorem C88_returns {dx dy : Fl} {xo yo : Option Fl} {f0 : PField Fl} (h0 : new dx dy xo yo = .ok f0) {Qx Qy : ℝ} (hx : ∀ x, xo = some x → |x.val| ≤ Qx)
    (hy : ∀ y, yo = some y → |y.val| ≤ Qy) (sx : 16 * (eps * (Qx + 8 * dx.val)) ≤ dx.val) (sy : 16 * (eps * (Qy + 8 * dy.val)) ≤ dy.val)
    (cs : List (Call Fl)) (hc : ∀ c ∈ cs, c.Within Qx Qy) : ∃ f, f0.run cs = some f := by
  obtain ⟨f, e, -⟩ := run_near cs f0 (new_near h0 hx hy sx sy) hc
  exact ⟨f, e⟩

/-- Coordinates up to ten million with spacings 10 and 1: boxes, single points, reversed limits and a track with more x than y. -/
example : ∃ f0 f, new (flt 10) (flt 1) none (some (flt 5000000)) = .ok f0 ∧
    f0.run [.expand (flt 500000) (flt 600000) (flt 5000000) (flt 5000000), .expand (flt 3) (flt 2) (flt 0) (flt 0), .register (flt 2),
      .rasterize [flt 0, flt 7, flt 10000000] [flt 1, flt 2] (flt 100), .reset] = some f := by
  have e : eps = 1 / 9007199254740992 := by unfold eps; norm_num
  obtain ⟨f0, h0⟩ : ∃ f0, new (flt 10) (flt 1) none (some (flt 5000000)) = .ok f0 := by
    unfold new
    rw [if_neg (by rw [Fl.le_iff]; simp [flt_val]), if_neg (by rw [Fl.le_iff]; simp [flt_val])]
    exact ⟨_, rfl⟩
  obtain ⟨f, h⟩ := C88_returns h0 (Qx := 10000000) (Qy := 10000000) (by simp) (by rintro y ⟨⟩; rw [flt_val _ (by norm_num)]; norm_num)
    (by rw [flt_val _ (by norm_num), e]; norm_num) (by rw [flt_val _ (by norm_num), e]; norm_num)
    [.expand (flt 500000) (flt 600000) (flt 5000000) (flt 5000000), .expand (flt 3) (flt 2) (flt 0) (flt 0), .register (flt 2),
      .rasterize [flt 0, flt 7, flt 10000000] [flt 1, flt 2] (flt 100), .reset] (by
      intro c hc
      simp only [List.mem_cons, List.not_mem_nil, or_false] at hc
      rcases hc with rfl | rfl | rfl | rfl | rfl <;> simp [Call.Within, flt_val, abs_of_pos] <;> norm_num)
  exact ⟨f0, f, h0, h⟩

/-- **C88.** If the spacing is lost in the digits of the origin, a field is constructed, but `expand` never returns for any box reaching to
the left of the origin, or just to it. -/
theorem C88_hangs_at_large_coordinates {dx dy xo yo : Fl} {f0 : PField Fl} (h0 : new dx dy (some xo) (some yo) = .ok f0) (lost : xo - dx = xo)
    {x0 x1 y0 y1 : Fl} (h : x0.val ≤ xo.val) (hx : x0.val ≤ x1.val) (hy : y0.val ≤ y1.val) : f0.step (.expand x0 x1 y0 y1) = none := by
  unfold new at h0
  split_ifs at h0
  obtain rfl := Except.ok.inj h0
  simp only [step]
  unfold expand
  rw [if_neg (Fl.not_lt_of_le hx), if_neg (Fl.not_lt_of_le hy), if_neg (by simp)]
  simp only [lost, growLow_stuck (x := x0) (d := dx) (g := xo) h lost, Option.map_none]

/-- **C88.** In the same way a track that passes through the origin is never drawn. -/
theorem C88_hangs_for_a_track_through_the_origin {dx dy xo yo : Fl} {f0 : PField Fl} (h0 : new dx dy (some xo) (some yo) = .ok f0) (lost : xo - dx = xo)
    (vs : List (Fl × Fl)) (u : Fl) (h : (xo, yo) ∈ vs) : f0.step (.rasterize (vs.map Prod.fst) (vs.map Prod.snd) u) = none := by
  have n : vs ≠ [] := by rintro rfl; simp at h
  obtain ⟨x0, ex0, mx0, lx0⟩ := pyMin_val (vs.map Prod.fst) (by simpa using n)
  obtain ⟨x1, ex1, mx1, lx1⟩ := pyMax_val (vs.map Prod.fst) (by simpa using n)
  obtain ⟨y0, ey0, my0, ly0⟩ := pyMin_val (vs.map Prod.snd) (by simpa using n)
  obtain ⟨y1, ey1, my1, ly1⟩ := pyMax_val (vs.map Prod.snd) (by simpa using n)
  have := C88_hangs_at_large_coordinates h0 lost (x0 := x0) (x1 := x1) (y0 := y0) (y1 := y1)
    (lx0 _ (List.mem_map.mpr ⟨xo, List.mem_map.mpr ⟨_, h, rfl⟩, rfl⟩)) (lx0 _ mx1) (ly0 _ my1)
  simp only [step, Option.map_eq_none_iff] at this
  simp only [step]
  unfold rasterize
  rw [ex0, ex1, ey0, ey1]
  simp only [this]

/-- `ProbabilityField(1, 1, 2.0**60, 0)`: a track from its origin to (2^60, 5) is never drawn. -/
example : ∃ f0, new (flt 1) (flt 1) (some (Fl.of (2 ^ 60))) (some (flt 0)) = .ok f0 ∧
    f0.step (.rasterize [Fl.of (2 ^ 60), Fl.of (2 ^ 60)] [flt 0, flt 5] (flt 1)) = none := by
  obtain ⟨f0, h0⟩ : ∃ f0, new (flt 1) (flt 1) (some (Fl.of (2 ^ 60))) (some (flt 0)) = .ok f0 := by
    unfold new
    rw [if_neg (by rw [Fl.le_iff]; simp [flt_val]), if_neg (by rw [Fl.le_iff]; simp [flt_val])]
    exact ⟨_, rfl⟩
  exact ⟨f0, h0, C88_hangs_for_a_track_through_the_origin h0 lost_at_large [(Fl.of (2 ^ 60), flt 0), (Fl.of (2 ^ 60), flt 5)] (flt 1) (by simp)⟩

/-- **C88.** For the first box shown to a field without origin, if the spacing is lost there, the call returns, with the box on the edge of the grid. -/
theorem C88_first_box_on_the_edge {dx dy : Fl} {f0 : PField Fl} (h0 : new dx dy none none = .ok f0) {x0 x1 y0 y1 : Fl} (lost : x0 - dx = x0)
    (hx : x0.val ≤ x1.val) (hy : y0.val ≤ y1.val) : ∃ f b, f0.expand x0 x1 y0 y1 = some (.ok f) ∧ f.body = some b ∧ b.xmin = x0 := by
  have s := new_shaped h0
  have e0 : f0.body = none ∧ f0.deltax = dx := by
    unfold new at h0
    split_ifs at h0
    obtain rfl := Except.ok.inj h0
    exact ⟨rfl, rfl⟩
  obtain ⟨f, b, e, hb, hm, _⟩ := expand_fresh f0 s e0.1 x0 x1 y0 y1 (Fl.not_lt_of_le hx) (Fl.not_lt_of_le hy)
  exact ⟨f, b, e, hb, by rw [hm, e0.2, lost]⟩

example : ∃ f0 f b, new (flt 1) (flt 1) none none = .ok f0 ∧ f0.expand (Fl.of (2 ^ 60)) (Fl.of (2 ^ 60)) (flt 0) (flt 5) = some (.ok f) ∧ f.body = some b ∧
    ¬ b.xmin.val < (Fl.of (2 ^ 60)).val := by
  obtain ⟨f0, h0⟩ : ∃ f0, new (flt 1) (flt 1) none none = .ok f0 := by
    unfold new
    rw [if_neg (by rw [Fl.le_iff]; simp [flt_val]), if_neg (by rw [Fl.le_iff]; simp [flt_val])]
    exact ⟨_, rfl⟩
  obtain ⟨f, b, e, hb, hm⟩ := C88_first_box_on_the_edge h0 lost_at_large (le_refl _) (y0 := flt 0) (y1 := flt 5) (by simp [flt_val])
  exact ⟨f0, f, b, h0, e, hb, by rw [hm]; exact lt_irrefl _⟩

/-! ## C89 -/

/-- **C89.** Let origin and spacings fit the axes, and let a history of tracks, boxes, `register` and `reset` stay within them. Then it returns; the nodes
are exactly the lattice positions at most one spacing outside the positions shown; and up to one rounding per `register` the total is the sum of the
weights and the weight of a lattice position is at least that of the tracks passing within the umbra less `η` and at most that of those within the umbra
plus `η`. -/
theorem C89_accuracy {A B : Axis} {S η : ℝ} {dx dy xo yo : Fl} (d1 : 0 < dx.val) (d2 : 0 < dy.val) (hA : A.Fits xo.val dx.val) (hB : B.Fits yo.val dy.val)
    (η0 : 0 ≤ η) (es : List (Event Fl)) (hm : ∀ e ∈ es, e.Moderate A B S η) :
    ∃ f0 f, new dx dy (some xo) (some yo) = .ok f0 ∧ f0.run (es.map Event.call) = some f ∧
      (∀ X Y, f.exact.IsNode X Y ↔ OnLattice xo.val yo.val dx.val dy.val X Y ∧
        Reached xo.val yo.val dx.val dy.val ((es.map (Event.exact 0)).flatMap Event.points) X Y) ∧
      (1 - eps) ^ (registeredWeights es).length * ((registeredWeights es).map Fl.val).sum ≤ f.exact.total ∧
      f.exact.total ≤ (1 + eps) ^ (registeredWeights es).length * ((registeredWeights es).map Fl.val).sum ∧
      ∀ X Y, OnLattice xo.val yo.val dx.val dy.val X Y →
        (1 - eps) ^ (registeredWeights es).length * recordedWeight xo.val yo.val dx.val dy.val (drawnGroups (es.map (Event.exact (-η))) [] []) X Y ≤ f.exact.weightAt X Y ∧
        f.exact.weightAt X Y ≤ (1 + eps) ^ (registeredWeights es).length * recordedWeight xo.val yo.val dx.val dy.val (drawnGroups (es.map (Event.exact η)) [] []) X Y := by
  obtain ⟨f0, h0, g0, fx, fy, t0, w0, m0⟩ := new_good d1 d2 hA hB
  have nn := registered_nonneg hm
  have e0 := eps_pos
  have e1 := eps_small
  have hist := fun X Y (hL : OnLattice xo.val yo.val dx.val dy.val X Y) => fl_history η0 es f0 [] [] [] X Y g0 hm (by rw [fx, fy]; exact hL)
    (by simp [Records]) (by simp [m0 X Y])
  obtain ⟨f, e, g, kx, ky, t, -⟩ := hist xo.val yo.val ⟨0, 0, by simp, by simp⟩
  rw [fx] at kx
  rw [fy] at ky
  refine ⟨f0, f, h0, e, ?_, ?_, ?_, ?_⟩
  · intro X Y
    have := g.spans.isNode X Y
    rw [show f.exact.deltax = dx.val from kx, show f.exact.deltay = dy.val from ky, List.nil_append] at this
    exact this
  all_goals
    have flags : flagged ((registeredWeights es).map fun x => (true, x.val)) = ((registeredWeights es).map Fl.val).sum := by
      simp [flagged, Function.comp_def]
    have acc := accumulate_near ((registeredWeights es).map fun x => (true, x.val)) 0 (le_refl _)
      (fun m hm => by obtain ⟨x, hx, rfl⟩ := List.mem_map.mp hm; exact nn x hx)
    rw [flags, zero_add, List.length_map] at acc
    rw [t0] at t
  · rw [t]; exact acc.1
  · rw [t]; exact acc.2
  · intro X Y hL
    obtain ⟨f', e', -, -, -, -, l, w, l1, l2, l3⟩ := hist X Y hL
    obtain rfl := Option.some.inj (e.symm.trans e')
    rw [fx, fy] at l2 l3
    have l0 : ∀ m ∈ l, 0 ≤ m.2 := fun m hm => by
      have : m.2 ∈ (registeredWeights es).map Fl.val := by rw [← l1]; exact List.mem_map.mpr ⟨m, hm, rfl⟩
      obtain ⟨x, hx, h⟩ := List.mem_map.mp this
      rw [← h]; exact nn x hx
    have len : l.length = (registeredWeights es).length := by
      have := congrArg List.length l1
      simpa using this
    have acc' := accumulate_near l 0 (le_refl _) l0
    rw [zero_add, len] at acc'
    rw [w, w0 X Y]
    have lo := recorded_le_flagged _ _ _ _ _ _ _ _ l2 l0
    have hi := flagged_le_recorded _ _ _ _ _ _ _ _ l3 l0
    exact ⟨(mul_le_mul_of_nonneg_left lo (pow_nonneg (by linarith) _)).trans acc'.1,
      acc'.2.trans (mul_le_mul_of_nonneg_left hi (pow_nonneg (by linarith) _))⟩

/-- **C89.** If moreover the weights are multiples of a power of two and their sum has 53 digits (for instance, up to 2^53 registrations of
weight 1.0, as `create_deterministic_capturezone` and `create_stochastic_capturezone` make them), no digit of any weight is lost. -/
theorem C89_exact_weights {A B : Axis} {S η : ℝ} {dx dy xo yo : Fl} (d1 : 0 < dx.val) (d2 : 0 < dy.val) (hA : A.Fits xo.val dx.val) (hB : B.Fits yo.val dy.val)
    (η0 : 0 ≤ η) (es : List (Event Fl)) (hm : ∀ e ∈ es, e.Moderate A B S η) {w : ℤ} (hw : ∀ x ∈ registeredWeights es, MultipleOf w x.val)
    (hs : ((registeredWeights es).map Fl.val).sum ≤ 2 ^ 53 * 2 ^ w) :
    ∃ f0 f, new dx dy (some xo) (some yo) = .ok f0 ∧ f0.run (es.map Event.call) = some f ∧
      f.exact.total = ((registeredWeights es).map Fl.val).sum ∧
      ∀ X Y, OnLattice xo.val yo.val dx.val dy.val X Y →
        recordedWeight xo.val yo.val dx.val dy.val (drawnGroups (es.map (Event.exact (-η))) [] []) X Y ≤ f.exact.weightAt X Y ∧
        f.exact.weightAt X Y ≤ recordedWeight xo.val yo.val dx.val dy.val (drawnGroups (es.map (Event.exact η)) [] []) X Y := by
  obtain ⟨f0, h0, g0, fx, fy, t0, w0, m0⟩ := new_good d1 d2 hA hB
  have nn := registered_nonneg hm
  have hist := fun X Y (hL : OnLattice xo.val yo.val dx.val dy.val X Y) => fl_history η0 es f0 [] [] [] X Y g0 hm (by rw [fx, fy]; exact hL)
    (by simp [Records]) (by simp [m0 X Y])
  obtain ⟨f, e, g, kx, ky, t, -⟩ := hist xo.val yo.val ⟨0, 0, by simp, by simp⟩
  refine ⟨f0, f, h0, e, ?_, ?_⟩
  · rw [t, t0, accumulate_exact (w := w) _ 0 (le_refl _) (.zero w)
      (fun m hm => by obtain ⟨x, hx, rfl⟩ := List.mem_map.mp hm; exact ⟨nn x hx, hw x hx⟩) (by simpa [Function.comp_def] using hs)]
    simp [flagged, Function.comp_def]
  · intro X Y hL
    obtain ⟨f', e', -, -, -, -, l, wt, l1, l2, l3⟩ := hist X Y hL
    obtain rfl := Option.some.inj (e.symm.trans e')
    rw [fx, fy] at l2 l3
    have l0 : ∀ m ∈ l, 0 ≤ m.2 ∧ MultipleOf w m.2 := fun m hm => by
      have : m.2 ∈ (registeredWeights es).map Fl.val := by rw [← l1]; exact List.mem_map.mpr ⟨m, hm, rfl⟩
      obtain ⟨x, hx, h⟩ := List.mem_map.mp this
      rw [← h]; exact ⟨nn x hx, hw x hx⟩
    rw [wt, w0 X Y, accumulate_exact (w := w) l 0 (le_refl _) (.zero w) l0 (by rw [l1, zero_add]; exact hs), zero_add]
    exact ⟨recorded_le_flagged _ _ _ _ _ _ _ _ l2 (fun m hm => (l0 m hm).1), flagged_le_recorded _ _ _ _ _ _ _ _ l3 (fun m hm => (l0 m hm).1)⟩

/-- **C89.** Hence, wherever no track passes at a distance of the umbra give or take `η`, the field computed with rounding has the same weight as
the field computed exactly by the same calls, and the same total weight and the same nodes. -/
theorem C89_same_as_exact {A B : Axis} {S η : ℝ} {dx dy xo yo : Fl} (d1 : 0 < dx.val) (d2 : 0 < dy.val) (hA : A.Fits xo.val dx.val) (hB : B.Fits yo.val dy.val)
    (η0 : 0 ≤ η) (es : List (Event Fl)) (hm : ∀ e ∈ es, e.Moderate A B S η) {w : ℤ} (hw : ∀ x ∈ registeredWeights es, MultipleOf w x.val)
    (hs : ((registeredWeights es).map Fl.val).sum ≤ 2 ^ 53 * 2 ^ w) :
    ∃ f0 f g0 g, new dx dy (some xo) (some yo) = .ok f0 ∧ f0.run (es.map Event.call) = some f ∧
      new dx.val dy.val (some xo.val) (some yo.val) = .ok g0 ∧ g0.run ((es.map (Event.exact 0)).map Event.call) = some g ∧
      (∀ X Y, f.exact.IsNode X Y ↔ g.IsNode X Y) ∧ f.exact.total = ((registeredWeights es).map Fl.val).sum ∧
      ∀ X Y, OnLattice xo.val yo.val dx.val dy.val X Y →
        (∀ vs u, Event.track vs u ∈ es → NearTrack (vs.map fun v => (v.1.val, v.2.val)) (u.val + η) X Y →
          NearTrack (vs.map fun v => (v.1.val, v.2.val)) (u.val - η) X Y) →
        f.exact.weightAt X Y = g.weightAt X Y := by
  obtain ⟨f0, f, h0, e, nodes, -⟩ := C89_accuracy d1 d2 hA hB η0 es hm
  obtain ⟨f0', f', h0', e', tot, wts⟩ := C89_exact_weights d1 d2 hA hB η0 es hm hw hs
  obtain rfl := Except.ok.inj (h0.symm.trans h0')
  obtain rfl := Option.some.inj (e.symm.trans e')
  obtain ⟨g0, b0, hg0, -⟩ := new_origin dx.val dy.val xo.val yo.val d1 d2
  have hv : ∀ ev ∈ es.map (Event.exact 0), ev.Valid := by
    intro ev hev
    obtain ⟨e', he', rfl⟩ := List.mem_map.mp hev
    have := hm e' he'
    cases e' with
    | track vs u =>
      obtain ⟨n, _, _, u1, _⟩ := this
      exact ⟨by simpa using n, by simp; linarith⟩
    | register x => trivial
    | reset => trivial
    | expand a b c d => exact ⟨this.1, this.2.1⟩
  obtain ⟨wf0, gx, gy⟩ := new_wf hg0
  have hist := fun X Y (hL : OnLattice xo.val yo.val dx.val dy.val X Y) => history_records (es.map (Event.exact 0)) g0 [] [] xo.val yo.val X Y (.start hg0) hv
    (by rw [gx, gy]; exact hL) (by simp [(weight_zero hg0 X Y).2, Records])
  obtain ⟨g, eg, s, sx, sy, -⟩ := hist xo.val yo.val ⟨0, 0, by simp, by simp⟩
  refine ⟨f0, f, g0, g, h0, e, hg0, eg, fun X Y => ?_, tot, fun X Y hL hsep => ?_⟩
  · rw [nodes, s.isNode X Y, sx, sy, gx, gy, List.nil_append]
  · obtain ⟨g', eg', -, -, -, wg, -⟩ := hist X Y hL
    obtain rfl := Option.some.inj (eg.symm.trans eg')
    rw [(weight_zero hg0 X Y).1, zero_add, gx, gy] at wg
    obtain ⟨lo, hi⟩ := wts X Y hL
    have nn := registered_nonneg hm
    have near : ∀ {track : List (ℝ × ℝ)} {u v : ℝ}, 0 ≤ u → u ≤ v → NearTrack track u X Y → NearTrack track v X Y := by
      rintro track u v u0 huv ⟨a, c, h1, h2, h3⟩
      obtain ⟨t, t0, t1, h3⟩ := h3
      exact ⟨a, c, h1, h2, t, t0, t1, h3.trans_le (pow_le_pow_left₀ u0 huv 2)⟩
    have umb : ∀ vs u, Event.track vs u ∈ es → η ≤ u.val := fun vs u h => (hm _ h).2.2.2.1
    have a1 := recordedWeight_mono dx.val dy.val xo.val yo.val X Y _ _ (drawnGroups_shift dx.val dy.val xo.val yo.val X Y 0 (-η) es [] [] []
      (fun vs u h hn => by
        have := hsep vs u h (near (by have := umb vs u h; linarith) (by linarith) hn)
        rw [← sub_eq_add_neg]; exact this) id) (drawnGroups_nonneg 0 es [] [] nn)
    have a2 := recordedWeight_mono dx.val dy.val xo.val yo.val X Y _ _ (drawnGroups_shift dx.val dy.val xo.val yo.val X Y η 0 es [] [] []
      (fun vs u h hn => near (by have := umb vs u h; linarith) (by linarith) (hsep vs u h hn)) id) (drawnGroups_nonneg η es [] [] nn)
    rw [wg]
    exact le_antisymm (hi.trans a2) (a1.trans lo)

/-- **C89.** Which origins fit: every floating-point origin from `2^(e-1)` up to one spacing short of `2^e`, with any spacing that is a multiple of `2^m`,
`m ≥ e - 52`, as long as the coordinates stay one spacing short of `2^e`. -/
theorem C89_origins (xo d : Fl) (e m : ℤ) (hd : MultipleOf m d.val) (hm : e ≤ m + 52) (h1 : (2 : ℝ) ^ (e - 1) ≤ |xo.val|) (h2 : |xo.val| ≤ 2 ^ e - d.val) :
    (⟨e - 53, m, 2 ^ e - d.val⟩ : Axis).Fits xo.val d.val := by
  have two : (2 : ℝ) ≠ 0 := by norm_num
  refine ⟨float_multiple xo h1, hd, by dsimp only; omega, h2, ?_, ?_⟩
  · have : (2 : ℝ) ^ 53 * 2 ^ (e - 53) = 2 ^ e := by rw [← zpow_natCast, ← zpow_add₀ two]; congr 1; push_cast; ring
    rw [this]; dsimp only; linarith
  · have h : (2 : ℝ) ^ 53 * 2 ^ m = 2 ^ (53 + m) := by rw [← zpow_natCast, ← zpow_add₀ two]; norm_num
    rw [h]
    have : (2 : ℝ) ^ (e + 1) ≤ 2 ^ (53 + m) := zpow_le_zpow_right₀ (by norm_num) (by omega)
    rw [zpow_add₀ two, zpow_one] at this
    dsimp only
    linarith

/-- Origins 500000 and 5000000 with spacing 10. -/
theorem sample_fits : sampleX.Fits (flt 500000).val (flt 10).val ∧ sampleY.Fits (flt 5000000).val (flt 10).val := by
  refine ⟨C89_origins (flt 500000) (flt 10) 19 1 ⟨5, ?_⟩ (by norm_num) ?_ ?_, C89_origins (flt 5000000) (flt 10) 23 1 ⟨5, ?_⟩ (by norm_num) ?_ ?_⟩ <;>
    simp [flt_val, abs_of_pos] <;> norm_num

example : ∃ f0 f, new (flt 10) (flt 10) (some (flt 500000)) (some (flt 5000000)) = .ok f0 ∧ f0.run (sampleEvents.map Event.call) = some f ∧ f.exact.total = 4 := by
  obtain ⟨f0, f, h0, h, t, -⟩ := C89_exact_weights (w := 0) (by simp [flt_val]) (by simp [flt_val]) sample_fits.1 sample_fits.2 (by norm_num) sampleEvents sample_moderate
    sample_weights.1 (by rw [sample_weights.2]; norm_num)
  exact ⟨f0, f, h0, h, t.trans sample_weights.2⟩

/-- The hypotheses of C87_bounds, after this history; the total weight is positive. -/
example : ∃ f0 f b, new (flt 10) (flt 10) (some (flt 500000)) (some (flt 5000000)) = .ok f0 ∧ f0.run (sampleEvents.map Event.call) = some f ∧ f.body = some b ∧
    (∀ w, Call.register w ∈ sampleEvents.map Event.call → 0 ≤ w.val) ∧ 0 < b.totalWeight.val := by
  obtain ⟨f0, f, h0, h, t, -⟩ := C89_exact_weights (w := 0) (by simp [flt_val]) (by simp [flt_val]) sample_fits.1 sample_fits.2 (by norm_num) sampleEvents sample_moderate
    sample_weights.1 (by rw [sample_weights.2]; norm_num)
  rw [sample_weights.2] at t
  cases hb : f.body with
  | none => simp [total, exact, hb] at t
  | some b =>
    refine ⟨f0, f, b, h0, h, hb, ?_, ?_⟩
    · intro w hw
      simp [sampleEvents, Event.call] at hw
      rcases hw with rfl | rfl <;> simp [flt_val]
    · simp only [total, exact_body hb, Body.exact] at t
      rw [t]; norm_num

/-- The hypothesis of C89_same_as_exact at the node (500010, 5000000), which is 8 from the first track (umbra 10) and 3 from the last (umbra 30). -/
example : OnLattice (flt 500000).val (flt 5000000).val (flt 10).val (flt 10).val 500010 5000000 ∧
    ∀ vs u, Event.track vs u ∈ sampleEvents → NearTrack (vs.map fun v => (v.1.val, v.2.val)) (u.val + 1 / 1000000) 500010 5000000 →
      NearTrack (vs.map fun v => (v.1.val, v.2.val)) (u.val - 1 / 1000000) 500010 5000000 := by
  refine ⟨⟨1, 0, by simp [flt_val]; norm_num, by simp [flt_val]⟩, ?_⟩
  intro vs u h
  simp only [sampleEvents, List.mem_cons, List.not_mem_nil, or_false, Event.track.injEq, reduceCtorEq, false_or] at h
  rcases h with ⟨rfl, rfl⟩ | ⟨rfl, rfl⟩ | ⟨rfl, rfl⟩
  · intro _
    refine ⟨(500000, 5000000), (500300, 5000400), ⟨[], [(500310, 5000400)], by simp [flt_val]⟩, by norm_num, 12 / 1000, by norm_num, by norm_num, ?_⟩
    simp [flt_val]; norm_num
  · rintro ⟨a, b, ⟨s, t, hst⟩, -⟩
    have := congrArg List.length hst
    simp at this
    omega
  · intro _
    refine ⟨(500007, 5000000), (500107, 5000003), ⟨[], [], by simp [flt_val]⟩, by norm_num, 0, by norm_num, by norm_num, ?_⟩
    simp [flt_val]; norm_num

end Oneka
