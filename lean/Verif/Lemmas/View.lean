import Verif.Lemmas.Insert

set_option linter.unusedSectionVars false

namespace Oneka
variable {K : Type} [Field K] [LinearOrder K] [IsStrictOrderedRing K] [FloorRing K]

/-! ### `min`/`max` of a list -/

omit [Field K] [IsStrictOrderedRing K] [FloorRing K] in
theorem foldl_min_spec (l : List K) : ∀ a : K,
    (l.foldl (fun m b => if b < m then b else m) a ∈ a :: l) ∧
    ∀ z ∈ a :: l, l.foldl (fun m b => if b < m then b else m) a ≤ z := by
  induction l with
  | nil => intro a; simp
  | cons c l ih =>
    intro a
    simp only [List.foldl_cons]
    split_ifs with h
    · obtain ⟨h1, h2⟩ := ih c
      refine ⟨by simp only [List.mem_cons] at h1 ⊢; tauto, fun z hz => ?_⟩
      rcases List.mem_cons.mp hz with rfl | hz
      · exact (h2 c (by simp)).trans h.le
      · exact h2 z hz
    · obtain ⟨h1, h2⟩ := ih a
      refine ⟨by simp only [List.mem_cons] at h1 ⊢; tauto, fun z hz => ?_⟩
      simp only [List.mem_cons] at hz
      rcases hz with rfl | rfl | hz
      · exact h2 _ (by simp)
      · exact (h2 a (by simp)).trans (not_lt.mp h)
      · exact h2 z (by simp [hz])

omit [Field K] [IsStrictOrderedRing K] [FloorRing K] in
theorem foldl_max_spec (l : List K) : ∀ a : K,
    (l.foldl (fun m b => if m < b then b else m) a ∈ a :: l) ∧
    ∀ z ∈ a :: l, z ≤ l.foldl (fun m b => if m < b then b else m) a := by
  induction l with
  | nil => intro a; simp
  | cons c l ih =>
    intro a
    simp only [List.foldl_cons]
    split_ifs with h
    · obtain ⟨h1, h2⟩ := ih c
      refine ⟨by simp only [List.mem_cons] at h1 ⊢; tauto, fun z hz => ?_⟩
      rcases List.mem_cons.mp hz with rfl | hz
      · exact h.le.trans (h2 c (by simp))
      · exact h2 z hz
    · obtain ⟨h1, h2⟩ := ih a
      refine ⟨by simp only [List.mem_cons] at h1 ⊢; tauto, fun z hz => ?_⟩
      simp only [List.mem_cons] at hz
      rcases hz with rfl | rfl | hz
      · exact h2 _ (by simp)
      · exact (not_lt.mp h).trans (h2 a (by simp))
      · exact h2 z (by simp [hz])

omit [Field K] [IsStrictOrderedRing K] [FloorRing K] in
theorem pyMin_spec (l : List K) (h : l ≠ []) : ∃ m, pyMin l = some m ∧ m ∈ l ∧ ∀ z ∈ l, m ≤ z := by
  cases l with
  | nil => exact absurd rfl h
  | cons a l => exact ⟨_, rfl, foldl_min_spec l a⟩

omit [Field K] [IsStrictOrderedRing K] [FloorRing K] in
theorem pyMax_spec (l : List K) (h : l ≠ []) : ∃ m, pyMax l = some m ∧ m ∈ l ∧ ∀ z ∈ l, z ≤ m := by
  cases l with
  | nil => exact absurd rfl h
  | cons a l => exact ⟨_, rfl, foldl_max_spec l a⟩

namespace PField

/-! ### looking up by world position -/

omit [FloorRing K] in
theorem lookAt_node {α : Type} (f : PField K) (b : Body K) (hx : 0 < f.deltax) (hy : 0 < f.deltay)
    (hb : f.body = some b) (g : Body K → Grid α) (d : α) (i j : ℕ) (hi : i < f.nrows) (hj : j < f.ncols) :
    f.lookAt g d (b.xmin + j * f.deltax) (b.ymin + i * f.deltay) = (g b).val i j := by
  have h : ∃ v : α, ∃ (b' : Body K) (i' j' : ℕ), f.body = some b' ∧ i' < f.nrows ∧ j' < f.ncols ∧
      b.xmin + j * f.deltax = b'.xmin + j' * f.deltax ∧ b.ymin + i * f.deltay = b'.ymin + i' * f.deltay ∧
      v = (g b').val i' j' :=
    ⟨_, b, i, j, hb, hi, hj, rfl, rfl, rfl⟩
  unfold lookAt
  rw [dif_pos h]
  obtain ⟨b', i', j', h1, _, _, h4, h5, h6⟩ := h.choose_spec
  obtain rfl : b' = b := Option.some.inj (h1.symm.trans hb)
  have hjj : j' = j := by
    have : (j : K) * f.deltax = j' * f.deltax := by linarith
    exact_mod_cast (mul_right_cancel₀ hx.ne' this).symm
  have hii : i' = i := by
    have : (i : K) * f.deltay = i' * f.deltay := by linarith
    exact_mod_cast (mul_right_cancel₀ hy.ne' this).symm
  rw [h6, hjj, hii]

omit [IsStrictOrderedRing K] [FloorRing K] in
theorem lookAt_not {α : Type} (f : PField K) (g : Body K → Grid α) (d : α) (X Y : K)
    (h : ¬ f.IsNode X Y) : f.lookAt g d X Y = d := by
  unfold lookAt
  rw [dif_neg]
  rintro ⟨v, b, i, j, hb, hi, hj, hx, hy, _⟩
  exact h ⟨b, hb, i, j, hi, hj, hx, hy⟩

omit [FloorRing K] in
theorem lookAt_cases {α : Type} (f : PField K) (b : Body K) (hx : 0 < f.deltax) (hy : 0 < f.deltay)
    (hb : f.body = some b) (g : Body K → Grid α) (d : α) (X Y : K) :
    (∃ i j : ℕ, i < f.nrows ∧ j < f.ncols ∧ X = b.xmin + j * f.deltax ∧ Y = b.ymin + i * f.deltay ∧
      f.lookAt g d X Y = (g b).val i j) ∨ (¬ f.IsNode X Y ∧ f.lookAt g d X Y = d) := by
  by_cases h : f.IsNode X Y
  · obtain ⟨b', hb', i, j, hi, hj, rfl, rfl⟩ := h
    obtain rfl : b' = b := Option.some.inj (hb'.symm.trans hb)
    exact Or.inl ⟨i, j, hi, hj, rfl, rfl, lookAt_node f b' hx hy hb' g d i j hi hj⟩
  · exact Or.inr ⟨h, lookAt_not f g d X Y h⟩

/-! ### geometry -/

omit [FloorRing K] in
theorem wf_rgrid {f : PField K} {b : Body K} (hf : f.WF) (hb : f.body = some b) (g : Grid Bool)
    (hr : g.rows = f.nrows) (hc : g.cols = f.ncols) :
    ({ f with body := some { b with rgrid := g } } : PField K).WF := by
  obtain ⟨hr3, hc3, hxm, hym, hpr, hpc, hrr, hrc⟩ := hf.grid b hb
  refine ⟨hf.dx_pos, hf.dy_pos, fun h => by simp at h, fun b' hb' => ?_⟩
  obtain rfl := Option.some.inj hb'
  exact ⟨hr3, hc3, hxm, hym, hpr, hpc, hr, hc⟩

namespace Expanded
variable {f : PField K} {b : Body K} {x0 x1 y0 y1 : K} {f' : PField K} {b' : Body K} {ml mr mb mt : ℕ}

omit [IsStrictOrderedRing K] [FloorRing K] in
theorem wf (h : Expanded f b x0 x1 y0 y1 f' b' ml mr mb mt) (hf : f.WF) (hb : f.body = some b) : f'.WF := by
  obtain ⟨hr3, hc3, hxm, hym, hpr, hpc, hrr, hrc⟩ := hf.grid b hb
  refine ⟨h.dx ▸ hf.dx_pos, h.dy ▸ hf.dy_pos, fun h' => by rw [h.body] at h'; simp at h', fun c hc => ?_⟩
  obtain rfl := Option.some.inj (h.body.symm.trans hc)
  refine ⟨by rw [h.nrows]; omega, by rw [h.ncols]; omega, ?_, ?_, h.prows, h.pcols, h.rrows, h.rcols⟩
  · rw [h.xmax_eq, h.xmin_eq, h.dx, h.ncols, hxm]; push_cast; ring
  · rw [h.ymax_eq, h.ymin_eq, h.dy, h.nrows, hym]; push_cast; ring

omit [IsStrictOrderedRing K] [FloorRing K] in
theorem isNode_mono (h : Expanded f b x0 x1 y0 y1 f' b' ml mr mb mt) (hb : f.body = some b) {X Y : K}
    (hn : f.IsNode X Y) : f'.IsNode X Y := by
  obtain ⟨c, hc, i, j, hi, hj, rfl, rfl⟩ := hn
  obtain rfl := Option.some.inj (hb.symm.trans hc)
  refine ⟨b', h.body, i + mb, j + ml, by rw [h.nrows]; omega, by rw [h.ncols]; omega, ?_, ?_⟩
  · rw [h.xmin_eq, h.dx]; push_cast; ring
  · rw [h.ymin_eq, h.dy]; push_cast; ring

omit [FloorRing K] in
theorem lookAt {α : Type} (h : Expanded f b x0 x1 y0 y1 f' b' ml mr mb mt) (hf : f.WF)
    (hb : f.body = some b) (g : Body K → Grid α) (d : α)
    (hval : ∀ i j, i < f'.nrows → j < f'.ncols → (g b').val i j =
      if mb ≤ i ∧ i < mb + f.nrows ∧ ml ≤ j ∧ j < ml + f.ncols then (g b).val (i - mb) (j - ml) else d)
    (X Y : K) : f'.lookAt g d X Y = f.lookAt g d X Y := by
  have hf' := h.wf hf hb
  rcases lookAt_cases f' b' hf'.dx_pos hf'.dy_pos h.body g d X Y with
    ⟨i, j, hi, hj, hX, hY, hv⟩ | ⟨hn, hv⟩
  · rw [hv, hval i j hi hj]
    split_ifs with hr
    · have := lookAt_node f b hf.dx_pos hf.dy_pos hb g d (i - mb) (j - ml) (by omega) (by omega)
      rw [← this]
      congr 1
      · rw [hX, h.xmin_eq, h.dx, Nat.cast_sub hr.2.2.1]; ring
      · rw [hY, h.ymin_eq, h.dy, Nat.cast_sub hr.1]; ring
    · rw [lookAt_not]
      rintro ⟨c, hc, i', j', hi', hj', hX', hY'⟩
      obtain rfl := Option.some.inj (hb.symm.trans hc)
      apply hr
      rw [hX, h.xmin_eq, h.dx] at hX'
      rw [hY, h.ymin_eq, h.dy] at hY'
      have e1 : (j : K) = (j' + ml : ℕ) := by
        push_cast
        apply mul_right_cancel₀ hf.dx_pos.ne'
        linarith
      have e2 : (i : K) = (i' + mb : ℕ) := by
        push_cast
        apply mul_right_cancel₀ hf.dy_pos.ne'
        linarith
      have e1 : j = j' + ml := by exact_mod_cast e1
      have e2 : i = i' + mb := by exact_mod_cast e2
      omega
  · rw [hv, lookAt_not f g d X Y (fun hn' => hn (h.isNode_mono hb hn'))]

/-- Lattice nodes at most `u ≤ spacing` away from the box are in the expanded grid. -/
theorem covers (h : Expanded f b x0 x1 y0 y1 f' b' ml mr mb mt) (hf : f.WF) (hb : f.body = some b)
    {X Y u : K} (hux : u ≤ f.deltax) (huy : u ≤ f.deltay)
    (hL : OnLattice b.xmin b.ymin f.deltax f.deltay X Y)
    (hX0 : x0 - u < X) (hX1 : X < x1 + u) (hY0 : y0 - u < Y) (hY1 : Y < y1 + u) : f'.IsNode X Y := by
  obtain ⟨hr3, hc3, hxm, hym, _⟩ := hf.grid b hb
  obtain ⟨p, q, rfl, rfl⟩ := hL
  have dxp := hf.dx_pos
  have dyp := hf.dy_pos
  have a1 : (-1 : K) < p + ml := by
    by_contra hc; push Not at hc
    have := mul_le_mul_of_nonneg_right hc dxp.le
    have := h.l_stop
    linarith
  have a2 : (p : K) + ml < f'.ncols := by
    by_contra hc; push Not at hc
    have := mul_le_mul_of_nonneg_right hc dxp.le
    have h1 := h.r_stop
    rw [h.ncols] at this
    push_cast at this
    rw [hxm] at h1
    linarith
  have b1 : (-1 : K) < q + mb := by
    by_contra hc; push Not at hc
    have := mul_le_mul_of_nonneg_right hc dyp.le
    have := h.b_stop
    linarith
  have b2 : (q : K) + mb < f'.nrows := by
    by_contra hc; push Not at hc
    have := mul_le_mul_of_nonneg_right hc dyp.le
    have h1 := h.t_stop
    rw [h.nrows] at this
    push_cast at this
    rw [hym] at h1
    linarith
  have a1' : (-1 : ℤ) < p + ml := by exact_mod_cast a1
  have a2' : p + (ml : ℤ) < f'.ncols := by exact_mod_cast a2
  have b1' : (-1 : ℤ) < q + mb := by exact_mod_cast b1
  have b2' : q + (mb : ℤ) < f'.nrows := by exact_mod_cast b2
  refine ⟨b', h.body, (q + mb).toNat, (p + ml).toNat, by omega, by omega, ?_, ?_⟩
  · have : (((p + ml).toNat : ℕ) : K) = (p : K) + ml := by
      rw [← Int.cast_natCast, Int.toNat_of_nonneg (by omega)]; push_cast; rfl
    rw [this, h.xmin_eq, h.dx]; ring
  · have : (((q + mb).toNat : ℕ) : K) = (q : K) + mb := by
      rw [← Int.cast_natCast, Int.toNat_of_nonneg (by omega)]; push_cast; rfl
    rw [this, h.ymin_eq, h.dy]; ring

end Expanded

/-! ### first expansion of an empty field -/

theorem expand_empty (f : PField K) (hf : f.WF) (hb : f.body = none) (x0 x1 y0 y1 : K)
    (hx : x0 ≤ x1) (hy : y0 ≤ y1) :
    ∃ f' b', f.expand x0 x1 y0 y1 = some (.ok f') ∧ f'.WF ∧ f'.deltax = f.deltax ∧ f'.deltay = f.deltay ∧
      f'.body = some b' ∧ b'.xmin = x0 - f.deltax ∧ b'.ymin = y0 - f.deltay ∧
      x1 < b'.xmax ∧ y1 < b'.ymax ∧ b'.totalWeight = 0 ∧
      (∀ i j, b'.pgrid.val i j = 0) ∧ ∀ i j, b'.rgrid.val i j = false := by
  obtain ⟨hn, hc⟩ := hf.empty hb
  unfold expand
  rw [if_neg (not_lt.mpr hx), if_neg (not_lt.mpr hy), if_pos (Or.inl hc)]
  have key : ∀ (z w d : K), 0 < d → z ≤ w →
      w < z - d + (((max 3 (⌈(w - (z - d)) / d⌉ + 2)).toNat : ℕ) - 1 : K) * d := by
    intro z w d hd _
    have h1 : (⌈(w - (z - d)) / d⌉ + 2 : ℤ) ≤ ((max 3 (⌈(w - (z - d)) / d⌉ + 2)).toNat : ℕ) := by omega
    have h2 : ((⌈(w - (z - d)) / d⌉ : ℤ) : K) + 2 ≤ ((max 3 (⌈(w - (z - d)) / d⌉ + 2)).toNat : ℕ) := by
      exact_mod_cast h1
    have h3 := Int.le_ceil ((w - (z - d)) / d)
    rw [div_le_iff₀ hd] at h3
    have h4 := mul_le_mul_of_nonneg_right h2 hd.le
    nlinarith
  simp only [PyFloor.ceil, Int.cast_sub, Int.cast_natCast, Int.cast_one]
  refine ⟨_, _, rfl, ⟨hf.dx_pos, hf.dy_pos, fun h => by simp at h, fun c hc' => ?_⟩, rfl, rfl, rfl, rfl, rfl,
    key _ _ _ hf.dx_pos hx, key _ _ _ hf.dy_pos hy, rfl, fun _ _ => rfl, fun _ _ => rfl⟩
  obtain rfl := Option.some.inj hc'
  exact ⟨by dsimp only; omega, by dsimp only; omega, rfl, rfl, rfl, rfl, rfl, rfl⟩

end PField
end Oneka
