import Verif.Lemmas.View
import Mathlib.Data.List.Infix

set_option linter.unusedSectionVars false

namespace Oneka
variable {K : Type} [Field K] [LinearOrder K] [IsStrictOrderedRing K] [FloorRing K]

theorem pair_infix_iff {α : Type} (l : List α) (a b : α) :
    [a, b] <:+: l ↔ ∃ i, l[i]? = some a ∧ l[i+1]? = some b := by
  constructor
  · rintro ⟨s, t, rfl⟩
    refine ⟨s.length, ?_, ?_⟩ <;> simp
  · rintro ⟨i, h1, h2⟩
    obtain ⟨hi, rfl⟩ := List.getElem?_eq_some_iff.mp h1
    obtain ⟨hi', rfl⟩ := List.getElem?_eq_some_iff.mp h2
    refine ⟨l.take i, l.drop (i+2), ?_⟩
    conv_rhs => rw [← List.take_append_drop i l, List.drop_eq_getElem_cons hi, List.drop_eq_getElem_cons hi']
    simp

namespace PField

theorem rasterLoop_spec (x y : List K) (u : K) (is : List ℕ) : ∀ (f : PField K) (b : Body K), f.WF →
    f.body = some b → (∀ i ∈ is, i + 1 < x.length ∧ i + 1 < y.length) →
    ∃ g', rasterLoop x y u is f = ({ f with body := some { b with rgrid := g' } }, .ok ()) ∧
      g'.rows = f.nrows ∧ g'.cols = f.ncols ∧
      (∀ p q, g'.val p q = true → b.rgrid.val p q = true ∨
        ∃ i ∈ is, ∃ a c : K × K, (x.zip y)[i]? = some a ∧ (x.zip y)[i+1]? = some c ∧
          f.Hits b a.1 a.2 c.1 c.2 u p q) ∧
      (∀ p q, b.rgrid.val p q = true → g'.val p q = true) ∧
      (0 ≤ u → ∀ p q, p < f.nrows → q < f.ncols →
        (∃ i ∈ is, ∃ a c : K × K, (x.zip y)[i]? = some a ∧ (x.zip y)[i+1]? = some c ∧
          f.Hits b a.1 a.2 c.1 c.2 u p q) → g'.val p q = true) := by
  induction is with
  | nil =>
    intro f b hf hb _
    obtain ⟨_, _, _, _, _, _, hrr, hrc⟩ := hf.grid b hb
    refine ⟨b.rgrid, ?_, hrr, hrc, fun p q h => Or.inl h, fun p q h => h, ?_⟩
    · simp only [rasterLoop]
      cases f
      simp only at hb
      subst hb
      rfl
    · rintro _ p q _ _ ⟨i, hi, _⟩
      simp at hi
  | cons i is ih =>
    intro f b hf hb hlen
    obtain ⟨hi1, hi2⟩ := hlen i (by simp)
    obtain ⟨g1, e1, r1, c1, fw1, mono1, bw1⟩ :=
      insert_spec f b hf hb (x[i]) (y[i]) (x[i+1]) (y[i+1]) u
    obtain ⟨g2, e2, r2, c2, fw2, mono2, bw2⟩ :=
      ih _ { b with rgrid := g1 } (wf_rgrid hf hb g1 r1 c1) rfl (fun k hk => hlen k (by simp [hk]))
    have z1 : (x.zip y)[i]? = some (x[i], y[i]) := by
      rw [List.getElem?_eq_some_iff]; exact ⟨by simp; omega, by simp⟩
    have z2 : (x.zip y)[i+1]? = some (x[i+1], y[i+1]) := by
      rw [List.getElem?_eq_some_iff]; exact ⟨by simp; omega, by simp⟩
    refine ⟨g2, ?_, r2, c2, fun p q h => ?_, fun p q h => mono2 p q (mono1 p q h), fun hu p q hp hq h => ?_⟩
    · simp only [rasterLoop]
      have hi1' : i < x.length := by omega
      have hi2' : i < y.length := by omega
      simp only [List.getElem?_eq_getElem hi1, List.getElem?_eq_getElem hi2,
        List.getElem?_eq_getElem hi1', List.getElem?_eq_getElem hi2']
      rw [e1]
      exact e2
    · rcases fw2 p q h with h | ⟨k, hk, rest⟩
      · rcases fw1 p q h with h | h
        · exact Or.inl h
        · exact Or.inr ⟨i, by simp, _, _, z1, z2, h⟩
      · exact Or.inr ⟨k, by simp [hk], rest⟩
    · obtain ⟨k, hk, a, c, ha, hc, hh⟩ := h
      rcases List.mem_cons.mp hk with rfl | hk
      · rw [z1] at ha; rw [z2] at hc
        obtain rfl := Option.some.inj ha
        obtain rfl := Option.some.inj hc
        exact mono2 p q (bw1 hu p q hp hq hh)
      · exact bw2 hu p q hp hq ⟨k, hk, a, c, ha, hc, hh⟩

theorem markedAt_iff (f : PField K) (b : Body K) (hf : f.WF) (hb : f.body = some b) (X Y : K) :
    f.markedAt X Y ↔ ∃ i j : ℕ, i < f.nrows ∧ j < f.ncols ∧ X = b.xmin + j * f.deltax ∧
      Y = b.ymin + i * f.deltay ∧ b.rgrid.val i j = true := by
  unfold markedAt
  constructor
  · intro h
    rcases lookAt_cases f b hf.dx_pos hf.dy_pos hb Body.rgrid false X Y with
      ⟨i, j, hi, hj, hX, hY, hv⟩ | ⟨_, hv⟩
    · exact ⟨i, j, hi, hj, hX, hY, by rw [← hv, h]⟩
    · rw [hv] at h; simp at h
  · rintro ⟨i, j, hi, hj, rfl, rfl, hv⟩
    rw [lookAt_node f b hf.dx_pos hf.dy_pos hb Body.rgrid false i j hi hj, hv]

theorem markedAt_none (f : PField K) (hb : f.body = none) (X Y : K) : ¬ f.markedAt X Y := by
  unfold markedAt
  rw [lookAt_not]
  · simp
  · rintro ⟨b, hb', _⟩; rw [hb] at hb'; simp at hb'

theorem weightAt_none (f : PField K) (hb : f.body = none) (X Y : K) : f.weightAt X Y = 0 := by
  unfold weightAt
  rw [lookAt_not]
  rintro ⟨b, hb', _⟩; rw [hb] at hb'; simp at hb'

/-- Replacing only the registration array changes neither weights nor nodes. -/
theorem weightAt_rgrid (f : PField K) (b : Body K) (hf : f.WF) (hb : f.body = some b) (g : Grid Bool) (X Y : K) :
    ({ f with body := some { b with rgrid := g } } : PField K).weightAt X Y = f.weightAt X Y := by
  unfold weightAt
  rcases lookAt_cases f b hf.dx_pos hf.dy_pos hb Body.pgrid 0 X Y with
    ⟨i, j, hi, hj, hX, hY, hv⟩ | ⟨hn, hv⟩
  · rw [hv, hX, hY]
    exact lookAt_node { f with body := some { b with rgrid := g } } { b with rgrid := g }
      hf.dx_pos hf.dy_pos rfl Body.pgrid 0 i j hi hj
  · rw [hv, lookAt_not]
    rintro ⟨c, hc, i, j, hi, hj, hX, hY⟩
    obtain rfl := Option.some.inj hc
    exact hn ⟨b, hb, i, j, hi, hj, hX, hY⟩

theorem isNode_rgrid (f : PField K) (b : Body K) (hb : f.body = some b) (g : Grid Bool) (X Y : K) :
    ({ f with body := some { b with rgrid := g } } : PField K).IsNode X Y ↔ f.IsNode X Y := by
  constructor
  · rintro ⟨c, hc, i, j, hi, hj, hX, hY⟩
    obtain rfl := Option.some.inj hc
    exact ⟨b, hb, i, j, hi, hj, hX, hY⟩
  · rintro ⟨c, hc, i, j, hi, hj, hX, hY⟩
    obtain rfl := Option.some.inj (hb.symm.trans hc)
    exact ⟨_, rfl, i, j, hi, hj, hX, hY⟩

/-- The box is strictly inside the extents of the field. -/
def BoxInside (f : PField K) (x0 x1 y0 y1 : K) : Prop :=
  ∃ b, f.body = some b ∧ b.xmin < x0 ∧ x1 < b.xmax ∧ b.ymin < y0 ∧ y1 < b.ymax

/-- Everything observable about one `expand`, for fields with or without a grid. -/
structure ExpandView (f f' : PField K) (x0 x1 y0 y1 : K) : Prop where
  wf : f'.WF
  dx : f'.deltax = f.deltax
  dy : f'.deltay = f.deltay
  inside : f'.BoxInside x0 x1 y0 y1
  total : f'.total = f.total
  weight : ∀ X Y, f'.weightAt X Y = f.weightAt X Y
  marked : ∀ X Y, f'.markedAt X Y ↔ f.markedAt X Y
  nodes : ∀ X Y, f.IsNode X Y → f'.IsNode X Y
  lattice : ∀ b, f.body = some b → ∃ b', f'.body = some b' ∧
    OnLattice b.xmin b.ymin f.deltax f.deltay b'.xmin b'.ymin
  covers : ∀ b, f.body = some b → ∀ u X Y, u ≤ f.deltax → u ≤ f.deltay →
    OnLattice b.xmin b.ymin f.deltax f.deltay X Y →
    x0 - u < X → X < x1 + u → y0 - u < Y → Y < y1 + u → f'.IsNode X Y

theorem expand_view (f : PField K) (hf : f.WF) (x0 x1 y0 y1 : K) (hx : x0 ≤ x1) (hy : y0 ≤ y1) :
    ∃ f', f.expand x0 x1 y0 y1 = some (.ok f') ∧ ExpandView f f' x0 x1 y0 y1 := by
  cases hb : f.body with
  | none =>
    obtain ⟨f', b', e, wf', dx, dy, hb', hx', hy', hx1, hy1, ht, hp, hr⟩ :=
      expand_empty f hf hb x0 x1 y0 y1 hx hy
    refine ⟨f', e, wf', dx, dy, ⟨b', hb', ?_, hx1, ?_, hy1⟩, ?_, ?_, ?_, ?_, ?_, ?_⟩
    · rw [hx']; linarith [hf.dx_pos]
    · rw [hy']; linarith [hf.dy_pos]
    · unfold total; rw [hb, hb']; exact ht
    · intro X Y
      rw [weightAt_none f hb]
      rcases lookAt_cases f' b' wf'.dx_pos wf'.dy_pos hb' Body.pgrid 0 X Y with
        ⟨i, j, _, _, _, _, hv⟩ | ⟨_, hv⟩
      · rw [weightAt, hv, hp]
      · exact hv
    · intro X Y
      rw [markedAt_iff f' b' wf' hb']
      constructor
      · rintro ⟨i, j, _, _, _, _, h⟩; rw [hr] at h; simp at h
      · intro h; exact absurd h (markedAt_none f hb X Y)
    · rintro X Y ⟨b, hb1, _⟩; rw [hb] at hb1; simp at hb1
    · intro b h; rw [hb] at h; exact absurd h (by simp)
    · intro b h; rw [hb] at h; exact absurd h (by simp)
  | some b =>
    obtain ⟨f', b', ml, mr, mb, mt, e, h⟩ := expand_grid f b hf hb x0 x1 y0 y1 hx hy
    refine ⟨f', e, h.wf hf hb, h.dx, h.dy, ⟨b', h.body, ?_, ?_, ?_, ?_⟩, ?_, ?_, ?_, ?_, ?_, ?_⟩
    · rw [h.xmin_eq]; exact h.l_stop
    · rw [h.xmax_eq]; exact h.r_stop
    · rw [h.ymin_eq]; exact h.b_stop
    · rw [h.ymax_eq]; exact h.t_stop
    · unfold total; rw [hb, h.body]; exact h.total
    · exact fun X Y => h.lookAt hf hb Body.pgrid 0 h.pval X Y
    · intro X Y
      unfold markedAt
      rw [h.lookAt hf hb Body.rgrid false h.rval X Y]
    · exact fun X Y hn => h.isNode_mono hb hn
    · rintro c hc
      obtain rfl : b = c := by simpa [hb] using hc
      refine ⟨b', h.body, -(ml : ℤ), -(mb : ℤ), ?_, ?_⟩
      · rw [h.xmin_eq]; push_cast; ring
      · rw [h.ymin_eq]; push_cast; ring
    · rintro c hc u X Y hux huy hL h1 h2 h3 h4
      obtain rfl : b = c := by simpa [hb] using hc
      exact h.covers hf hb hux huy hL h1 h2 h3 h4

/-- Everything observable about one successful `rasterize`. -/
structure RasterView (f f' : PField K) (track : List (K × K)) (u : K) : Prop where
  wf : f'.WF
  dx : f'.deltax = f.deltax
  dy : f'.deltay = f.deltay
  body : f'.body ≠ none
  total : f'.total = f.total
  weight : ∀ X Y, f'.weightAt X Y = f.weightAt X Y
  nodes : ∀ X Y, f.IsNode X Y → f'.IsNode X Y
  marked_of : ∀ X Y, f'.markedAt X Y → f.markedAt X Y ∨ (f'.IsNode X Y ∧ NearTrack track u X Y)
  marked_mono : ∀ X Y, f.markedAt X Y → f'.markedAt X Y
  marked_near : 0 ≤ u → ∀ X Y, f'.IsNode X Y → NearTrack track u X Y → f'.markedAt X Y
  lattice : ∀ b, f.body = some b → ∃ b', f'.body = some b' ∧
    OnLattice b.xmin b.ymin f.deltax f.deltay b'.xmin b'.ymin

theorem isNode_of_markedAt (f : PField K) {X Y : K} (h : f.markedAt X Y) : f.IsNode X Y := by
  by_contra hn
  unfold markedAt at h
  rw [lookAt_not f _ _ X Y hn] at h
  simp at h

/-- The loop of `rasterize` run over the first `n` segments. -/
theorem rasterLoop_view (f : PField K) (hf : f.WF) (hb : f.body ≠ none) (x y : List K) (u : K) (n : ℕ)
    (hx : n + 1 ≤ x.length) (hy : n + 1 ≤ y.length) :
    ∃ f', rasterLoop x y u (List.range n) f = (f', .ok ()) ∧
      RasterView f f' ((x.zip y).take (n + 1)) u ∧ ∀ X Y, f'.IsNode X Y ↔ f.IsNode X Y := by
  obtain ⟨b, hb⟩ := Option.ne_none_iff_exists'.mp hb
  obtain ⟨g', e, r, c, fw, mono, bw⟩ := rasterLoop_spec x y u (List.range n) f b hf hb
    (fun i hi => by rw [List.mem_range] at hi; omega)
  have near : ∀ p q : ℕ,
      (∃ i ∈ List.range n, ∃ a c : K × K, (x.zip y)[i]? = some a ∧ (x.zip y)[i+1]? = some c ∧
          f.Hits b a.1 a.2 c.1 c.2 u p q) ↔
        NearTrack ((x.zip y).take (n + 1)) u (b.xmin + q * f.deltax) (b.ymin + p * f.deltay) := by
    intro p q
    unfold NearTrack Hits
    constructor
    · rintro ⟨i, hi, a, c, ha, hc, hne, hh⟩
      rw [List.mem_range] at hi
      refine ⟨a, c, ?_, hne, hh⟩
      rw [pair_infix_iff]
      exact ⟨i, by rw [List.getElem?_take_of_lt (by omega), ha],
        by rw [List.getElem?_take_of_lt (by omega), hc]⟩
    · rintro ⟨a, c, hac, hne, hh⟩
      rw [pair_infix_iff] at hac
      obtain ⟨i, ha, hc⟩ := hac
      have hi : i + 1 < n + 1 := by
        by_contra hcon
        rw [List.getElem?_take_eq_none (by omega)] at hc
        simp at hc
      rw [List.getElem?_take_of_lt (by omega)] at ha
      rw [List.getElem?_take_of_lt (by omega)] at hc
      exact ⟨i, by rw [List.mem_range]; omega, a, c, ha, hc, hne, hh⟩
  have wf' := wf_rgrid hf hb g' r c
  refine ⟨_, e, ⟨wf', rfl, rfl, by simp, ?_, weightAt_rgrid f b hf hb g', ?_, ?_, ?_, ?_, ?_⟩,
    isNode_rgrid f b hb g'⟩
  · unfold total; rw [hb]
  · exact fun X Y h => (isNode_rgrid f b hb g' X Y).mpr h
  · intro X Y h
    have hn := isNode_of_markedAt _ h
    rw [markedAt_iff _ _ wf' rfl] at h
    obtain ⟨i, j, hi, hj, hX, hY, hv⟩ := h
    rcases fw i j hv with hv | hv
    · left
      rw [markedAt_iff f b hf hb]
      exact ⟨i, j, hi, hj, hX, hY, hv⟩
    · right
      refine ⟨hn, ?_⟩
      rw [hX, hY]
      exact (near i j).mp hv
  · intro X Y h
    rw [markedAt_iff f b hf hb] at h
    obtain ⟨i, j, hi, hj, hX, hY, hv⟩ := h
    rw [markedAt_iff _ _ wf' rfl]
    exact ⟨i, j, hi, hj, hX, hY, mono i j hv⟩
  · intro hu X Y hn hnear
    obtain ⟨c', hc', i, j, hi, hj, hX, hY⟩ := hn
    obtain rfl := Option.some.inj hc'
    rw [markedAt_iff _ _ wf' rfl]
    refine ⟨i, j, hi, hj, hX, hY, bw hu i j hi hj ((near i j).mpr ?_)⟩
    dsimp only at hX hY
    rw [← hX, ← hY]
    exact hnear
  · intro c' hc'
    rw [hb] at hc'
    obtain rfl := Option.some.inj hc'
    exact ⟨_, rfl, 0, 0, by simp, by simp⟩

/-- `expand` to a box followed by the segment loop over the first `n` segments. -/
theorem rasterView_of_expand {f f1 f' : PField K} {track : List (K × K)} {u x0 x1 y0 y1 : K}
    (h1 : ExpandView f f1 x0 x1 y0 y1) (h2 : RasterView f1 f' track u) : RasterView f f' track u where
  wf := h2.wf
  dx := h2.dx.trans h1.dx
  dy := h2.dy.trans h1.dy
  body := h2.body
  total := h2.total.trans h1.total
  weight X Y := (h2.weight X Y).trans (h1.weight X Y)
  nodes X Y h := h2.nodes X Y (h1.nodes X Y h)
  marked_of X Y h := (h2.marked_of X Y h).imp_left (h1.marked X Y).mp
  marked_mono X Y h := h2.marked_mono X Y ((h1.marked X Y).mpr h)
  marked_near := h2.marked_near
  lattice b hb := by
    obtain ⟨b1, hb1, p, q, hp, hq⟩ := h1.lattice b hb
    obtain ⟨b2, hb2, p', q', hp', hq'⟩ := h2.lattice b1 hb1
    refine ⟨b2, hb2, p + p', q + q', ?_, ?_⟩
    · rw [hp', hp, h1.dx]; push_cast; ring
    · rw [hq', hq, h1.dy]; push_cast; ring

theorem rasterize_view (f : PField K) (hf : f.WF) (x y : List K) (u : K) (hx : x ≠ [])
    (hlen : x.length ≤ y.length) :
    ∃ f', f.rasterize x y u = some (f', .ok ()) ∧ RasterView f f' (x.zip y) u ∧
      ∃ f1 x0 x1 y0 y1, f.expand x0 x1 y0 y1 = some (.ok f1) ∧ ExpandView f f1 x0 x1 y0 y1 ∧
        (∀ X Y, f'.IsNode X Y ↔ f1.IsNode X Y) ∧ (x0 ∈ x ∧ x1 ∈ x ∧ y0 ∈ y ∧ y1 ∈ y) ∧
        (∀ z ∈ x, x0 ≤ z ∧ z ≤ x1) ∧ (∀ z ∈ y, y0 ≤ z ∧ z ≤ y1) := by
  have hy : y ≠ [] := by
    intro h; apply hx; rw [h] at hlen; exact List.length_eq_zero_iff.mp (by simpa using hlen)
  have hxl : 0 < x.length := List.length_pos_iff.mpr hx
  obtain ⟨x0, ex0, mx0, bx0⟩ := pyMin_spec x hx
  obtain ⟨x1, ex1, mx1, bx1⟩ := pyMax_spec x hx
  obtain ⟨y0, ey0, my0, by0⟩ := pyMin_spec y hy
  obtain ⟨y1, ey1, my1, by1⟩ := pyMax_spec y hy
  obtain ⟨f1, e1, v1⟩ := expand_view f hf x0 x1 y0 y1 (bx0 x1 mx1) (by0 y1 my1)
  obtain ⟨b1, hb1, _⟩ := v1.inside
  obtain ⟨f', e2, v2, hn⟩ := rasterLoop_view f1 v1.wf (by rw [hb1]; simp) x y u (x.length - 1)
    (by omega) (by omega)
  refine ⟨f', ?_, ?_, f1, x0, x1, y0, y1, e1, v1, hn, ⟨mx0, mx1, my0, my1⟩,
    fun z hz => ⟨bx0 z hz, bx1 z hz⟩, fun z hz => ⟨by0 z hz, by1 z hz⟩⟩
  · unfold rasterize
    simp only [ex0, ex1, ey0, ey1, e1, e2]
  · have : (x.zip y).take (x.length - 1 + 1) = x.zip y := by
      rw [List.take_of_length_le]; simp; omega
    rw [this] at v2
    exact rasterView_of_expand v1 v2

end PField
end Oneka
