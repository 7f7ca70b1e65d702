import Verif.Lemmas.Dist

namespace Oneka
variable {K : Type} [Field K] [LinearOrder K] [IsStrictOrderedRing K] [FloorRing K]

theorem mem_intRange (l r i : ℤ) : i ∈ intRange l r ↔ l ≤ i ∧ i < r := by
  unfold intRange
  simp only [List.mem_map, List.mem_range]
  constructor
  · rintro ⟨k, hk, rfl⟩; omega
  · rintro ⟨h1, h2⟩
    exact ⟨(i - l).toNat, by omega, by omega⟩

theorem pyIndex_ok (n : ℕ) (i : ℤ) (h0 : 0 ≤ i) (h1 : i < n) : pyIndex n i = .ok i.toNat := by
  unfold pyIndex; rw [if_pos h0, if_pos h1]

namespace PField

/-- What `insert` marks: nodes near a non-degenerate segment. -/
def Hits (f : PField K) (b : Body K) (ax ay bx «by» u : K) (p q : ℕ) : Prop :=
  (ax, ay) ≠ (bx, «by») ∧ NearSegment ax ay bx «by» u (b.xmin + q * f.deltax) (b.ymin + p * f.deltay)

omit [FloorRing K] in
theorem insertCell_spec (f : PField K) (b : Body K) (ax ay bx «by» u : K) (g : Grid Bool) (i j : ℤ)
    (i0 : 0 ≤ i) (i1 : i < g.rows) (j0 : 0 ≤ j) (j1 : j < g.cols) :
    ∃ g', f.insertCell b ax ay bx «by» (u * u) g i j = .ok g' ∧ g'.rows = g.rows ∧ g'.cols = g.cols ∧
      ∀ p q, g'.val p q = true ↔
        g.val p q = true ∨ (p = i.toNat ∧ q = j.toNat ∧ f.Hits b ax ay bx «by» u p q) := by
  have ij : ((i.toNat : ℕ) : K) = (i : K) := by
    rw [← Int.cast_natCast, Int.toNat_of_nonneg i0]
  have jj : ((j.toNat : ℕ) : K) = (j : K) := by
    rw [← Int.cast_natCast, Int.toNat_of_nonneg j0]
  unfold insertCell
  simp only [Grid.get, pyIndex_ok _ _ i0 i1, pyIndex_ok _ _ j0 j1]
  cases hv : g.val i.toNat j.toNat with
  | true =>
    refine ⟨g, rfl, rfl, rfl, fun p q => ⟨Or.inl, ?_⟩⟩
    rintro (h | ⟨rfl, rfl, _⟩)
    · exact h
    · exact hv
  | false =>
    by_cases hab : (ax, ay) = (bx, «by»)
    · have : distancesquared true ax ay bx «by» (b.xmin + j * f.deltax) (b.ymin + i * f.deltay)
          = .ok none := by
        simp only [Prod.mk.injEq] at hab
        obtain ⟨rfl, rfl⟩ := hab
        simp [distancesquared]
      rw [this]
      refine ⟨g, rfl, rfl, rfl, fun p q => ⟨Or.inl, ?_⟩⟩
      rintro (h | ⟨_, _, h, _⟩)
      · exact h
      · exact absurd hab h
    · obtain ⟨d2, e, hl⟩ := distancesquared_isLeast true ax ay bx «by»
        (b.xmin + j * f.deltax) (b.ymin + i * f.deltay) hab
      rw [e]
      have hn := near_iff_of_isLeast (u := u) hl
      dsimp only
      split_ifs with hd
      · simp only [Grid.set, pyIndex_ok _ _ i0 i1, pyIndex_ok _ _ j0 j1]
        refine ⟨_, rfl, rfl, rfl, fun p q => ?_⟩
        dsimp only
        split_ifs with hpq
        · obtain ⟨rfl, rfl⟩ := hpq
          simp only [true_iff]
          exact Or.inr ⟨trivial, trivial, hab, by rw [ij, jj]; exact hn.mp hd⟩
        · constructor
          · exact Or.inl
          · rintro (h | ⟨rfl, rfl, _⟩)
            · exact h
            · exact absurd ⟨rfl, rfl⟩ hpq
      · refine ⟨g, rfl, rfl, rfl, fun p q => ⟨Or.inl, ?_⟩⟩
        rintro (h | ⟨rfl, rfl, _, h⟩)
        · exact h
        · rw [ij, jj] at h
          exact absurd (hn.mpr h) hd

omit [FloorRing K] in
theorem insertCol_spec (f : PField K) (b : Body K) (ax ay bx «by» u : K) (j : ℤ) (j0 : 0 ≤ j)
    (l : List ℤ) : ∀ (g : Grid Bool), j < g.cols → (∀ i ∈ l, 0 ≤ i ∧ i < g.rows) →
    ∃ g', l.foldlM (fun g i => f.insertCell b ax ay bx «by» (u * u) g i j) g = .ok g' ∧
      g'.rows = g.rows ∧ g'.cols = g.cols ∧
      ∀ p q, g'.val p q = true ↔
        g.val p q = true ∨ ((p : ℤ) ∈ l ∧ (q : ℤ) = j ∧ f.Hits b ax ay bx «by» u p q) := by
  induction l with
  | nil => intro g _ _; exact ⟨g, rfl, rfl, rfl, fun p q => by simp⟩
  | cons i l ih =>
    intro g hj hl
    obtain ⟨i0, i1⟩ := hl i (by simp)
    obtain ⟨g1, e1, r1, c1, v1⟩ := insertCell_spec f b ax ay bx «by» u g i j i0 i1 j0 hj
    obtain ⟨g2, e2, r2, c2, v2⟩ := ih g1 (by rw [c1]; exact hj)
      (fun k hk => by rw [r1]; exact hl k (by simp [hk]))
    refine ⟨g2, ?_, r2.trans r1, c2.trans c1, fun p q => ?_⟩
    · rw [List.foldlM_cons, e1]; exact e2
    · rw [v2, v1]
      simp only [List.mem_cons]
      constructor
      · rintro ((h | ⟨h1, h2, h3⟩) | ⟨h1, h2, h3⟩)
        · exact Or.inl h
        · exact Or.inr ⟨Or.inl (by omega), by omega, h3⟩
        · exact Or.inr ⟨Or.inr h1, h2, h3⟩
      · rintro (h | ⟨h1 | h1, h2, h3⟩)
        · exact Or.inl (Or.inl h)
        · exact Or.inl (Or.inr ⟨by omega, by omega, h3⟩)
        · exact Or.inr ⟨h1, h2, h3⟩

omit [FloorRing K] in
theorem insertAll_spec (f : PField K) (b : Body K) (ax ay bx «by» u : K) (li : List ℤ)
    (lj : List ℤ) : ∀ (g : Grid Bool), (∀ j ∈ lj, 0 ≤ j ∧ j < g.cols) → (∀ i ∈ li, 0 ≤ i ∧ i < g.rows) →
    ∃ g', lj.foldlM (fun g j => li.foldlM (fun g i => f.insertCell b ax ay bx «by» (u * u) g i j) g) g
        = .ok g' ∧
      g'.rows = g.rows ∧ g'.cols = g.cols ∧
      ∀ p q, g'.val p q = true ↔
        g.val p q = true ∨ ((p : ℤ) ∈ li ∧ (q : ℤ) ∈ lj ∧ f.Hits b ax ay bx «by» u p q) := by
  induction lj with
  | nil => intro g _ _; exact ⟨g, rfl, rfl, rfl, fun p q => by simp⟩
  | cons j lj ih =>
    intro g hj hl
    obtain ⟨j0, j1⟩ := hj j (by simp)
    obtain ⟨g1, e1, r1, c1, v1⟩ := insertCol_spec f b ax ay bx «by» u j j0 li g j1 hl
    obtain ⟨g2, e2, r2, c2, v2⟩ := ih g1
      (fun k hk => by rw [c1]; exact hj k (by simp [hk])) (fun k hk => by rw [r1]; exact hl k hk)
    refine ⟨g2, ?_, r2.trans r1, c2.trans c1, fun p q => ?_⟩
    · rw [List.foldlM_cons, e1]; exact e2
    · rw [v2, v1]
      simp only [List.mem_cons]
      constructor
      · rintro ((h | ⟨h1, h2, h3⟩) | ⟨h1, h2, h3⟩)
        · exact Or.inl h
        · exact Or.inr ⟨h1, Or.inl h2, h3⟩
        · exact Or.inr ⟨h1, Or.inr h2, h3⟩
      · rintro (h | ⟨h1, h2 | h2, h3⟩)
        · exact Or.inl (Or.inl h)
        · exact Or.inl (Or.inr ⟨h1, h2, h3⟩)
        · exact Or.inr ⟨h1, h2, h3⟩

omit [Field K] [IsStrictOrderedRing K] [FloorRing K] in
theorem pyMin2_eq (a b : K) : pyMin2 a b = min a b := by
  unfold pyMin2; split_ifs with h
  · exact (min_eq_right h.le).symm
  · exact (min_eq_left (not_lt.mp h)).symm

omit [Field K] [IsStrictOrderedRing K] [FloorRing K] in
theorem pyMax2_eq (a b : K) : pyMax2 a b = max a b := by
  unfold pyMax2; split_ifs with h
  · exact (max_eq_right h.le).symm
  · exact (max_eq_left (not_lt.mp h)).symm

omit [FloorRing K] in
/-- A point near a segment is within `u` of its bounding interval, in each coordinate. -/
theorem near_bounds (a b c d u X Y : K) (hu : 0 ≤ u) (h : NearSegment a c b d u X Y) :
    (min a b - u < X ∧ X < max a b + u) ∧ (min c d - u < Y ∧ Y < max c d + u) := by
  obtain ⟨t, t0, t1, ht⟩ := h
  have sq : ∀ z : K, z ^ 2 < u ^ 2 → -u < z ∧ z < u := fun z hz => abs_lt.mp (by
    have := sq_lt_sq.mp hz; rwa [abs_of_nonneg hu] at this)
  have conv : ∀ a b : K, min a b ≤ a + t * (b - a) ∧ a + t * (b - a) ≤ max a b := by
    intro a b
    have e : a + t * (b - a) = (1 - t) * a + t * b := by ring
    rw [e]
    constructor
    · calc min a b = (1 - t) * min a b + t * min a b := by ring
        _ ≤ _ := add_le_add (mul_le_mul_of_nonneg_left (min_le_left _ _) (by linarith))
                  (mul_le_mul_of_nonneg_left (min_le_right _ _) t0)
    · calc _ ≤ (1 - t) * max a b + t * max a b :=
              add_le_add (mul_le_mul_of_nonneg_left (le_max_left _ _) (by linarith))
                  (mul_le_mul_of_nonneg_left (le_max_right _ _) t0)
        _ = max a b := by ring
  have n1 := sq_nonneg (X - (a + t * (b - a)))
  have n2 := sq_nonneg (Y - (c + t * (d - c)))
  obtain ⟨x1, x2⟩ := sq _ (lt_of_le_of_lt (by linarith) ht : (X - (a + t * (b - a))) ^ 2 < u ^ 2)
  obtain ⟨y1, y2⟩ := sq _ (lt_of_le_of_lt (by linarith) ht : (Y - (c + t * (d - c))) ^ 2 < u ^ 2)
  have cx := conv a b
  have cy := conv c d
  refine ⟨⟨by linarith, by linarith⟩, by linarith, by linarith⟩

theorem in_limits (d lo hi g : K) (hd : 0 < d) (n q : ℕ) (hq : q < n)
    (h1 : lo < g + q * d) (h2 : g + q * d < hi) :
    max 0 ⌊(lo - g) / d⌋ ≤ (q : ℤ) ∧ (q : ℤ) < min (n : ℤ) (⌊(hi - g) / d⌋ + 1) := by
  constructor
  · apply max_le (by omega)
    apply Int.le_of_lt_add_one
    rw [Int.floor_lt, div_lt_iff₀ hd]
    push_cast
    nlinarith
  · apply lt_min (by omega)
    apply Int.lt_add_one_of_le
    rw [Int.le_floor, le_div_iff₀ hd]
    push_cast
    linarith

theorem insert_spec (f : PField K) (b : Body K) (hf : f.WF) (hb : f.body = some b)
    (ax ay bx «by» u : K) :
    ∃ g', f.insert ax ay bx «by» u = .ok { f with body := some { b with rgrid := g' } } ∧
      g'.rows = f.nrows ∧ g'.cols = f.ncols ∧
      (∀ p q, g'.val p q = true → b.rgrid.val p q = true ∨ f.Hits b ax ay bx «by» u p q) ∧
      (∀ p q, b.rgrid.val p q = true → g'.val p q = true) ∧
      (0 ≤ u → ∀ p q, p < f.nrows → q < f.ncols → f.Hits b ax ay bx «by» u p q → g'.val p q = true) := by
  obtain ⟨hr3, hc3, hxm, hym, hpr, hpc, hrr, hrc⟩ := hf.grid b hb
  unfold insert
  rw [hb]
  simp only [pyMin2_eq, pyMax2_eq]
  obtain ⟨g', e, r, c, v⟩ := insertAll_spec f b ax ay bx «by» u
    (intRange (max 0 ⌊(min ay «by» - u - b.ymin) / f.deltay⌋)
      (min (f.nrows : ℤ) (⌊(max ay «by» + u - b.ymin) / f.deltay⌋ + 1)))
    (intRange (max 0 ⌊(min ax bx - u - b.xmin) / f.deltax⌋)
      (min (f.ncols : ℤ) (⌊(max ax bx + u - b.xmin) / f.deltax⌋ + 1))) b.rgrid
    (by intro j hj; rw [mem_intRange] at hj; omega)
    (by intro j hj; rw [mem_intRange] at hj; omega)
  simp only [PyFloor.floor]
  rw [e]
  refine ⟨g', rfl, r.trans hrr, c.trans hrc, fun p q h => ?_, fun p q h => ?_, fun hu p q hp hq h => ?_⟩
  · rcases (v p q).mp h with h | ⟨_, _, h⟩
    · exact Or.inl h
    · exact Or.inr h
  · exact (v p q).mpr (Or.inl h)
  · rw [v]
    right
    obtain ⟨⟨x1, x2⟩, y1, y2⟩ := near_bounds _ _ _ _ _ _ _ hu h.2
    rw [mem_intRange, mem_intRange]
    exact ⟨in_limits f.deltay _ _ _ hf.dy_pos _ _ hp y1 y2,
           in_limits f.deltax _ _ _ hf.dx_pos _ _ hq x1 x2, h⟩

end PField
end Oneka
