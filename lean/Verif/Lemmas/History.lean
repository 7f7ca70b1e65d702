import Verif.Lemmas.Raster

set_option linter.unusedSectionVars false

namespace Oneka
variable {K : Type} [Field K] [LinearOrder K] [IsStrictOrderedRing K] [FloorRing K]

namespace PField

theorem rasterLoop_append (x y : List K) (u : K) (is js : List ℕ) : ∀ f f1 : PField K,
    rasterLoop x y u is f = (f1, .ok ()) → rasterLoop x y u (is ++ js) f = rasterLoop x y u js f1 := by
  induction is with
  | nil => intro f f1 h; simp only [rasterLoop, Prod.mk.injEq] at h; rw [← h.1]; rfl
  | cons i is ih =>
    intro f f1 h
    simp only [List.cons_append, rasterLoop] at h ⊢
    split at h
    · split at h
      · simp at h
      · exact ih _ _ h
    · simp at h

/-- `y` too short: IndexError after the available segments. -/
theorem rasterize_short (f : PField K) (hf : f.WF) (x y : List K) (u : K) (hy : y ≠ [])
    (hlen : y.length < x.length) :
    ∃ f', f.rasterize x y u = some (f', .error .indexError) ∧ RasterView f f' (x.zip y) u := by
  have hyl : 0 < y.length := List.length_pos_iff.mpr hy
  have hx : x ≠ [] := by intro h; rw [h] at hlen; simp at hlen
  obtain ⟨x0, ex0, mx0, bx0⟩ := pyMin_spec x hx
  obtain ⟨x1, ex1, mx1, bx1⟩ := pyMax_spec x hx
  obtain ⟨y0, ey0, my0, by0⟩ := pyMin_spec y hy
  obtain ⟨y1, ey1, my1, by1⟩ := pyMax_spec y hy
  obtain ⟨f1, e1, v1⟩ := expand_view f hf x0 x1 y0 y1 (bx0 x1 mx1) (by0 y1 my1)
  obtain ⟨b1, hb1, _⟩ := v1.inside
  obtain ⟨f', e2, v2, hn⟩ := rasterLoop_view f1 v1.wf (by rw [hb1]; simp) x y u (y.length - 1)
    (by omega) (by omega)
  refine ⟨f', ?_, ?_⟩
  · unfold rasterize
    simp only [ex0, ex1, ey0, ey1, e1]
    obtain ⟨k, hk⟩ : ∃ k, x.length - 1 = (y.length - 1) + (k + 1) := ⟨x.length - 1 - y.length, by omega⟩
    rw [hk, List.range_add, rasterLoop_append x y u _ _ f1 f' e2, List.range_succ_eq_map, List.map_cons]
    simp only [rasterLoop]
    have : y[y.length - 1 + 0 + 1]? = none := by rw [List.getElem?_eq_none]; omega
    rw [this]
    congr 1
    split
    · simp_all
    · rfl
  · have : (x.zip y).take (y.length - 1 + 1) = x.zip y := by
      rw [List.take_of_length_le]; simp; omega
    rw [this] at v2
    exact rasterView_of_expand v1 v2

theorem rasterize_empty (f : PField K) (x y : List K) (u : K) (h : x = [] ∨ y = []) :
    f.rasterize x y u = some (f, .error .valueError) := by
  unfold rasterize
  rcases h with rfl | rfl
  · simp [pyMin]
  · cases x <;> simp [pyMin, pyMax]

theorem isNode_body {f : PField K} {b : Body K} (hb : f.body = some b) (b' : Body K)
    (hx : b'.xmin = b.xmin) (hy : b'.ymin = b.ymin) (X Y : K) :
    ({ f with body := some b' } : PField K).IsNode X Y ↔ f.IsNode X Y := by
  constructor
  · rintro ⟨c, hc, i, j, hi, hj, hX, hY⟩
    obtain rfl := Option.some.inj hc
    exact ⟨b, hb, i, j, hi, hj, hx ▸ hX, hy ▸ hY⟩
  · rintro ⟨c, hc, i, j, hi, hj, hX, hY⟩
    obtain rfl := Option.some.inj (hb.symm.trans hc)
    exact ⟨b', rfl, i, j, hi, hj, by rw [hx]; exact hX, by rw [hy]; exact hY⟩

open Classical in
theorem register_view (f : PField K) (hf : f.WF) (hb : f.body ≠ none) (w : K) :
    ∃ f', f.register w = .ok f' ∧ f'.WF ∧ f'.deltax = f.deltax ∧ f'.deltay = f.deltay ∧
      f'.total = f.total + w ∧
      (∀ X Y, f'.weightAt X Y = f.weightAt X Y + if f.markedAt X Y then w else 0) ∧
      (∀ X Y, ¬ f'.markedAt X Y) ∧ (∀ X Y, f'.IsNode X Y ↔ f.IsNode X Y) ∧
      (∀ b, f.body = some b → ∃ b', f'.body = some b' ∧ b'.xmin = b.xmin ∧ b'.ymin = b.ymin ∧
        b'.xmax = b.xmax ∧ b'.ymax = b.ymax) := by
  obtain ⟨b, hb⟩ := Option.ne_none_iff_exists'.mp hb
  obtain ⟨hr3, hc3, hxm, hym, hpr, hpc, hrr, hrc⟩ := hf.grid b hb
  set b' : Body K := { b with
        totalWeight := b.totalWeight + w,
        pgrid := { b.pgrid with
          val := fun i j => if b.rgrid.val i j then b.pgrid.val i j + w else b.pgrid.val i j },
        rgrid := { b.rgrid with val := fun _ _ => false } } with hb'
  have wf' : ({ f with body := some b' } : PField K).WF := by
    refine ⟨hf.dx_pos, hf.dy_pos, fun h => by simp at h, fun c hc => ?_⟩
    obtain rfl := Option.some.inj hc
    exact ⟨hr3, hc3, hxm, hym, hpr, hpc, hrr, hrc⟩
  refine ⟨{ f with body := some b' }, ?_, wf', rfl, rfl, ?_, ?_, ?_, isNode_body hb b' rfl rfl, ?_⟩
  · unfold register
    rw [hb]
    exact if_pos ⟨hrr.trans hpr.symm, hrc.trans hpc.symm⟩
  · unfold total; rw [hb]
  · intro X Y
    rcases lookAt_cases f b hf.dx_pos hf.dy_pos hb Body.pgrid 0 X Y with
      ⟨i, j, hi, hj, hX, hY, hv⟩ | ⟨hn, hv⟩
    · have h1 := lookAt_node { f with body := some b' } b' hf.dx_pos hf.dy_pos rfl Body.pgrid 0 i j hi hj
      have h2 := lookAt_node f b hf.dx_pos hf.dy_pos hb Body.rgrid false i j hi hj
      unfold weightAt markedAt
      rw [hv, hX, hY, h2]
      refine h1.trans ?_
      simp only [hb']
      split_ifs <;> simp_all
    · have hm : ¬ f.markedAt X Y := fun h => hn (isNode_of_markedAt f h)
      unfold weightAt
      rw [hv, if_neg hm, add_zero, lookAt_not]
      rw [isNode_body hb b' rfl rfl]; exact hn
  · intro X Y h
    rw [markedAt_iff _ b' wf' rfl] at h
    obtain ⟨i, j, _, _, _, _, h⟩ := h
    simp [hb'] at h
  · intro c hc
    obtain rfl := Option.some.inj (hb.symm.trans hc)
    exact ⟨b', rfl, rfl, rfl, rfl, rfl⟩

theorem reset_view (f : PField K) (hf : f.WF) (hb : f.body ≠ none) :
    ∃ f', f.reset = .ok f' ∧ f'.WF ∧ f'.deltax = f.deltax ∧ f'.deltay = f.deltay ∧
      f'.total = f.total ∧ (∀ X Y, f'.weightAt X Y = f.weightAt X Y) ∧
      (∀ X Y, ¬ f'.markedAt X Y) ∧ (∀ X Y, f'.IsNode X Y ↔ f.IsNode X Y) ∧
      (∀ b, f.body = some b → ∃ b', f'.body = some b' ∧ b'.xmin = b.xmin ∧ b'.ymin = b.ymin ∧
        b'.xmax = b.xmax ∧ b'.ymax = b.ymax) := by
  obtain ⟨b, hb⟩ := Option.ne_none_iff_exists'.mp hb
  obtain ⟨hr3, hc3, hxm, hym, hpr, hpc, hrr, hrc⟩ := hf.grid b hb
  have wf' := wf_rgrid hf hb { b.rgrid with val := fun _ _ => false } hrr hrc
  refine ⟨_, by unfold reset; rw [hb], wf', rfl, rfl, ?_, weightAt_rgrid f b hf hb _, ?_,
    isNode_rgrid f b hb _, ?_⟩
  · unfold total; rw [hb]
  · intro X Y h
    rw [markedAt_iff _ _ wf' rfl] at h
    obtain ⟨i, j, _, _, _, _, h⟩ := h
    simp at h
  · intro c hc
    obtain rfl := Option.some.inj (hb.symm.trans hc)
    exact ⟨_, rfl, rfl, rfl, rfl, rfl⟩

theorem insert_view (f : PField K) (hf : f.WF) (hb : f.body ≠ none) (ax ay bx «by» u : K) :
    ∃ f', f.insert ax ay bx «by» u = .ok f' ∧ f'.WF ∧ f'.deltax = f.deltax ∧ f'.deltay = f.deltay ∧
      f'.total = f.total ∧ (∀ X Y, f'.weightAt X Y = f.weightAt X Y) ∧
      (∀ X Y, f'.markedAt X Y → f.markedAt X Y ∨
        (f'.IsNode X Y ∧ (ax, ay) ≠ (bx, «by») ∧ NearSegment ax ay bx «by» u X Y)) ∧
      (∀ X Y, f.markedAt X Y → f'.markedAt X Y) ∧
      (0 ≤ u → (ax, ay) ≠ (bx, «by») → ∀ X Y, f'.IsNode X Y → NearSegment ax ay bx «by» u X Y →
        f'.markedAt X Y) ∧
      (∀ X Y, f'.IsNode X Y ↔ f.IsNode X Y) ∧
      (∀ b, f.body = some b → ∃ g, f' = { f with body := some { b with rgrid := g } } ) := by
  obtain ⟨b, hb⟩ := Option.ne_none_iff_exists'.mp hb
  obtain ⟨g', e, r, c, fw, mono, bw⟩ := insert_spec f b hf hb ax ay bx «by» u
  have wf' := wf_rgrid hf hb g' r c
  refine ⟨_, e, wf', rfl, rfl, ?_, weightAt_rgrid f b hf hb _, ?_, ?_, ?_, isNode_rgrid f b hb _, ?_⟩
  · unfold total; rw [hb]
  · intro X Y h
    have hn := isNode_of_markedAt _ h
    rw [markedAt_iff _ _ wf' rfl] at h
    obtain ⟨i, j, hi, hj, hX, hY, hv⟩ := h
    rcases fw i j hv with hv | hv
    · left; rw [markedAt_iff f b hf hb]; exact ⟨i, j, hi, hj, hX, hY, hv⟩
    · right; refine ⟨hn, hv.1, ?_⟩; rw [hX, hY]; exact hv.2
  · intro X Y h
    rw [markedAt_iff f b hf hb] at h
    obtain ⟨i, j, hi, hj, hX, hY, hv⟩ := h
    rw [markedAt_iff _ _ wf' rfl]
    exact ⟨i, j, hi, hj, hX, hY, mono i j hv⟩
  · intro hu hne X Y hn hnear
    obtain ⟨c', hc', i, j, hi, hj, hX, hY⟩ := hn
    obtain rfl := Option.some.inj hc'
    rw [markedAt_iff _ _ wf' rfl]
    refine ⟨i, j, hi, hj, hX, hY, bw hu i j hi hj ⟨hne, ?_⟩⟩
    dsimp only at hX hY
    rw [← hX, ← hY]
    exact hnear
  · intro c hc
    obtain rfl := Option.some.inj (hb.symm.trans hc)
    exact ⟨g', rfl⟩

theorem expand_error (f : PField K) (x0 x1 y0 y1 : K) (h : x1 < x0 ∨ y1 < y0) :
    f.expand x0 x1 y0 y1 = some (.error .rangeError) := by
  unfold expand
  by_cases hx : x1 < x0
  · rw [if_pos hx]
  · rw [if_neg hx, if_pos (h.resolve_left hx)]

/-- What every call preserves, whether it raises or not; and every call returns. -/
structure StepInv (f f' : PField K) : Prop where
  wf : f'.WF
  dx : f'.deltax = f.deltax
  dy : f'.deltay = f.deltay
  nodes : ∀ X Y, f.IsNode X Y → f'.IsNode X Y
  lattice : ∀ b, f.body = some b → ∃ b', f'.body = some b' ∧
    OnLattice b.xmin b.ymin f.deltax f.deltay b'.xmin b'.ymin

theorem onLattice_self (b : Body K) (dx dy : K) : OnLattice b.xmin b.ymin dx dy b.xmin b.ymin :=
  ⟨0, 0, by simp, by simp⟩

theorem StepInv.refl {f : PField K} (hf : f.WF) : StepInv f f :=
  ⟨hf, rfl, rfl, fun _ _ h => h, fun b hb => ⟨b, hb, onLattice_self b _ _⟩⟩

theorem StepInv.trans {f g h : PField K} (h1 : StepInv f g) (h2 : StepInv g h) : StepInv f h where
  wf := h2.wf
  dx := h2.dx.trans h1.dx
  dy := h2.dy.trans h1.dy
  nodes X Y hn := h2.nodes X Y (h1.nodes X Y hn)
  lattice b hb := by
    obtain ⟨b1, hb1, p, q, hp, hq⟩ := h1.lattice b hb
    obtain ⟨b2, hb2, p', q', hp', hq'⟩ := h2.lattice b1 hb1
    refine ⟨b2, hb2, p + p', q + q', ?_, ?_⟩
    · rw [hp', hp, h1.dx]; push_cast; ring
    · rw [hq', hq, h1.dy]; push_cast; ring

theorem step_inv (f : PField K) (hf : f.WF) (c : Call K) :
    ∃ f' r, f.step c = some (f', r) ∧ StepInv f f' := by
  cases c with
  | expand x0 x1 y0 y1 =>
    by_cases h : x1 < x0 ∨ y1 < y0
    · exact ⟨f, .error .rangeError, by simp [step, expand_error f x0 x1 y0 y1 h, lift], .refl hf⟩
    · push Not at h
      obtain ⟨f', e, v⟩ := expand_view f hf x0 x1 y0 y1 h.1 h.2
      exact ⟨f', .ok (), by simp [step, e, lift], v.wf, v.dx, v.dy, v.nodes, v.lattice⟩
  | insert ax ay bx by' u =>
    by_cases hb : f.body = none
    · exact ⟨f, .error .attributeError, by simp [step, insert, hb, lift], .refl hf⟩
    · obtain ⟨f', e, wf', dx, dy, _, _, _, _, _, hn, hg⟩ := insert_view f hf hb ax ay bx by' u
      refine ⟨f', .ok (), by simp [step, e, lift], wf', dx, dy, fun X Y h => (hn X Y).mpr h, ?_⟩
      intro b hb
      obtain ⟨g, rfl⟩ := hg b hb
      exact ⟨_, rfl, onLattice_self b _ _⟩
  | rasterize x y u =>
    by_cases hx : x = [] ∨ y = []
    · exact ⟨f, .error .valueError, by simp only [step]; exact rasterize_empty f x y u hx, .refl hf⟩
    · push Not at hx
      by_cases hlen : x.length ≤ y.length
      · obtain ⟨f', e, v, _⟩ := rasterize_view f hf x y u hx.1 hlen
        exact ⟨f', .ok (), e, v.wf, v.dx, v.dy, v.nodes, v.lattice⟩
      · obtain ⟨f', e, v⟩ := rasterize_short f hf x y u hx.2 (by omega)
        exact ⟨f', .error .indexError, e, v.wf, v.dx, v.dy, v.nodes, v.lattice⟩
  | register w =>
    by_cases hb : f.body = none
    · exact ⟨f, .error .attributeError, by simp [step, register, hb, lift], .refl hf⟩
    · obtain ⟨f', e, wf', dx, dy, _, _, _, hn, hl⟩ := register_view f hf hb w
      refine ⟨f', .ok (), by simp [step, e, lift], wf', dx, dy, fun X Y h => (hn X Y).mpr h, ?_⟩
      intro b hb
      obtain ⟨b', hb', h1, h2, _⟩ := hl b hb
      exact ⟨b', hb', 0, 0, by rw [h1]; simp, by rw [h2]; simp⟩
  | reset =>
    by_cases hb : f.body = none
    · exact ⟨f, .error .attributeError, by simp [step, reset, hb, lift], .refl hf⟩
    · obtain ⟨f', e, wf', dx, dy, _, _, _, hn, hl⟩ := reset_view f hf hb
      refine ⟨f', .ok (), by simp [step, e, lift], wf', dx, dy, fun X Y h => (hn X Y).mpr h, ?_⟩
      intro b hb
      obtain ⟨b', hb', h1, h2, _⟩ := hl b hb
      exact ⟨b', hb', 0, 0, by rw [h1]; simp, by rw [h2]; simp⟩

theorem run_inv (cs : List (Call K)) : ∀ f : PField K, f.WF → ∃ f', f.run cs = some f' ∧ StepInv f f' := by
  induction cs with
  | nil => exact fun f hf => ⟨f, rfl, .refl hf⟩
  | cons c cs ih =>
    intro f hf
    obtain ⟨f1, r, e1, i1⟩ := step_inv f hf c
    obtain ⟨f2, e2, i2⟩ := ih f1 i1.wf
    exact ⟨f2, by simp [run, e1, e2], i1.trans i2⟩

theorem run_append (cs ds : List (Call K)) : ∀ f : PField K,
    f.run (cs ++ ds) = (f.run cs).bind (fun f' => f'.run ds) := by
  induction cs with
  | nil => intro f; rfl
  | cons c cs ih =>
    intro f
    simp only [List.cons_append, run]
    cases f.step c with
    | none => rfl
    | some p => exact ih p.1

theorem new_wf {dx dy : K} {xo yo : Option K} {f : PField K} (h : new dx dy xo yo = .ok f) :
    f.WF ∧ f.deltax = dx ∧ f.deltay = dy := by
  unfold new at h
  split_ifs at h with h1 h2
  push Not at h1 h2
  cases xo with
  | none => simp only [Except.ok.injEq] at h; subst h; exact ⟨⟨h1, h2, by simp, by simp⟩, rfl, rfl⟩
  | some xo =>
    cases yo with
    | none => simp only [Except.ok.injEq] at h; subst h; exact ⟨⟨h1, h2, by simp, by simp⟩, rfl, rfl⟩
    | some yo =>
      simp only [Except.ok.injEq] at h; subst h
      refine ⟨⟨h1, h2, by simp, ?_⟩, rfl, rfl⟩
      intro b hb
      obtain rfl := Option.some.inj hb
      refine ⟨le_refl _, le_refl _, ?_, ?_, rfl, rfl, rfl, rfl⟩ <;> · push_cast; ring

end PField
end Oneka
