import Verif.Lemmas.FlDist
import Verif.Lemmas.Reach

/-! # The probability field computed with rounding, compared with exact arithmetic -/

namespace Oneka

/-! ### multiples of a power of two -/

namespace MultipleOf
variable {k : ℤ} {x y : ℝ}

theorem add (h : MultipleOf k x) (g : MultipleOf k y) : MultipleOf k (x + y) := by
  obtain ⟨a, rfl⟩ := h; obtain ⟨b, rfl⟩ := g; exact ⟨a + b, by push_cast; ring⟩

theorem sub (h : MultipleOf k x) (g : MultipleOf k y) : MultipleOf k (x - y) := by
  obtain ⟨a, rfl⟩ := h; obtain ⟨b, rfl⟩ := g; exact ⟨a - b, by push_cast; ring⟩

theorem int_mul (n : ℤ) (h : MultipleOf k x) : MultipleOf k (n * x) := by
  obtain ⟨a, rfl⟩ := h; exact ⟨n * a, by push_cast; ring⟩

/-- Multiples of a larger power are multiples of a smaller one. -/
theorem coarse {m : ℤ} (hkm : k ≤ m) (h : MultipleOf m x) : MultipleOf k x := by
  obtain ⟨n, rfl⟩ := h
  refine ⟨n * 2 ^ (m - k).toNat, ?_⟩
  have e : (2 : ℝ) ^ m = 2 ^ (m - k).toNat * 2 ^ k := by
    rw [← zpow_natCast, ← zpow_add₀ (by norm_num : (2 : ℝ) ≠ 0)]
    congr 1
    omega
  rw [e]; push_cast; ring

theorem zero (k : ℤ) : MultipleOf k 0 := ⟨0, by simp⟩

/-- Such a number is not rounded. -/
theorem exact (h : MultipleOf k x) (hx : |x| ≤ 2 ^ 53 * 2 ^ k) : round53 x = x := by
  obtain ⟨n, rfl⟩ := h
  apply round53_exact
  have p : (0 : ℝ) < 2 ^ k := zpow_pos (by norm_num) _
  rw [abs_mul, abs_of_pos p] at hx
  have := le_of_mul_le_mul_right hx p
  exact_mod_cast this

end MultipleOf

theorem round53_nat (j : ℕ) (h : j ≤ 2 ^ 53) : round53 ((j : ℤ) : ℝ) = j := by
  have := round53_exact (j : ℤ) 0 (by rw [abs_of_nonneg (by omega)]; exact_mod_cast h)
  simpa using this

/-! ### the growth loops -/

section loops
variable {k : ℤ} {Q : ℝ} {x d : Fl}

theorem growLow_fl (hd : MultipleOf k d.val) (d0 : 0 < d.val) (hx : |x.val| ≤ Q) (hQ : Q + d.val ≤ 2 ^ 53 * 2 ^ k) (m : ℕ) : ∀ (g : Fl) (n s : ℕ),
    MultipleOf k g.val → |g.val| ≤ Q + d.val → g.val - m * d.val < x.val → (∀ j < m, x.val ≤ g.val - (j : ℝ) * d.val) →
    ∃ G : Fl, growLow x d g n s = some (G, n + m, s + m) ∧ G.val = g.val - m * d.val ∧ |G.val| ≤ Q + d.val := by
  obtain ⟨x1, x2⟩ := abs_le.mp hx
  induction m with
  | zero =>
    intro g n s hg hb hstop _
    rw [growLow, if_neg (by rw [Fl.le_iff]; simpa using hstop)]
    exact ⟨g, rfl, by simp, hb⟩
  | succ m ih =>
    intro g n s hg hb hstop hgo
    have h0 := hgo 0 (Nat.succ_pos _)
    simp only [Nat.cast_zero, zero_mul, sub_zero] at h0
    obtain ⟨b1, b2⟩ := abs_le.mp hb
    have hb' : |g.val - d.val| ≤ Q + d.val := by rw [abs_le]; constructor <;> linarith
    have hv : (g - d).val = g.val - d.val := (hg.sub hd).exact (hb'.trans hQ)
    obtain ⟨G, e, e', hG⟩ := ih (g - d) (n + 1) (s + 1) (by rw [hv]; exact hg.sub hd) (by rw [hv]; exact hb')
      (by rw [hv]; push_cast at hstop; linarith) (fun j hj => by
        have := hgo (j + 1) (by omega); rw [hv]; push_cast at this; linarith)
    refine ⟨G, ?_, by rw [e', hv]; push_cast; ring, hG⟩
    rw [growLow, if_pos (by rw [Fl.le_iff]; exact h0), e]
    congr 2
    simp only [Prod.mk.injEq]
    omega

theorem growHigh_fl (hd : MultipleOf k d.val) (d0 : 0 < d.val) (hx : |x.val| ≤ Q) (hQ : Q + d.val ≤ 2 ^ 53 * 2 ^ k) (m : ℕ) : ∀ (g : Fl) (n : ℕ),
    MultipleOf k g.val → |g.val| ≤ Q + d.val → x.val < g.val + m * d.val → (∀ j < m, g.val + (j : ℝ) * d.val ≤ x.val) →
    ∃ G : Fl, growHigh x d g n = some (G, n + m) ∧ G.val = g.val + m * d.val ∧ |G.val| ≤ Q + d.val := by
  obtain ⟨x1, x2⟩ := abs_le.mp hx
  induction m with
  | zero =>
    intro g n hg hb hstop _
    rw [growHigh, if_neg (by rw [Fl.le_iff]; simpa using hstop)]
    exact ⟨g, rfl, by simp, hb⟩
  | succ m ih =>
    intro g n hg hb hstop hgo
    have h0 := hgo 0 (Nat.succ_pos _)
    simp only [Nat.cast_zero, zero_mul, add_zero] at h0
    obtain ⟨b1, b2⟩ := abs_le.mp hb
    have hb' : |g.val + d.val| ≤ Q + d.val := by rw [abs_le]; constructor <;> linarith
    have hv : (g + d).val = g.val + d.val := (hg.add hd).exact (hb'.trans hQ)
    obtain ⟨G, e, e', hG⟩ := ih (g + d) (n + 1) (by rw [hv]; exact hg.add hd) (by rw [hv]; exact hb')
      (by rw [hv]; push_cast at hstop; linarith) (fun j hj => by
        have := hgo (j + 1) (by omega); rw [hv]; push_cast at this; linarith)
    refine ⟨G, ?_, by rw [e', hv]; push_cast; ring, hG⟩
    rw [growHigh, if_pos (by rw [Fl.le_iff]; exact h0), e]
    congr 2
    omega

end loops

/-! ### marking nodes -/

/-- One step of the double loop of `insert`: marks `[i, j]` if `H i j`. -/
theorem gridFold_spec (step : Grid Bool → ℤ → ℤ → Except PyErr (Grid Bool)) (H : ℕ → ℕ → Prop) (R C : ℕ)
    (hstep : ∀ (g : Grid Bool) (i j : ℤ), g.rows = R → g.cols = C → 0 ≤ i → i < R → 0 ≤ j → j < C →
      ∃ g', step g i j = .ok g' ∧ g'.rows = R ∧ g'.cols = C ∧
        ∀ p q, g'.val p q = true ↔ g.val p q = true ∨ (p = i.toNat ∧ q = j.toNat ∧ H p q))
    (li lj : List ℤ) (hi : ∀ i ∈ li, 0 ≤ i ∧ i < R) (hj : ∀ j ∈ lj, 0 ≤ j ∧ j < C) :
    ∀ g : Grid Bool, g.rows = R → g.cols = C →
    ∃ g', lj.foldlM (fun g j => li.foldlM (fun g i => step g i j) g) g = .ok g' ∧ g'.rows = R ∧ g'.cols = C ∧
      ∀ p q, g'.val p q = true ↔ g.val p q = true ∨ ((p : ℤ) ∈ li ∧ (q : ℤ) ∈ lj ∧ H p q) := by
  have col : ∀ j : ℤ, 0 ≤ j → j < C → ∀ li : List ℤ, (∀ i ∈ li, 0 ≤ i ∧ i < R) → ∀ g : Grid Bool, g.rows = R → g.cols = C →
      ∃ g', li.foldlM (fun g i => step g i j) g = .ok g' ∧ g'.rows = R ∧ g'.cols = C ∧
        ∀ p q, g'.val p q = true ↔ g.val p q = true ∨ ((p : ℤ) ∈ li ∧ (q : ℤ) = j ∧ H p q) := by
    intro j j0 j1 li
    induction li with
    | nil => intro _ g hr hc; exact ⟨g, rfl, hr, hc, fun p q => by simp⟩
    | cons i li ih =>
      intro hi g hr hc
      obtain ⟨i0, i1⟩ := hi i (by simp)
      obtain ⟨g1, e1, r1, c1, v1⟩ := hstep g i j hr hc i0 i1 j0 j1
      obtain ⟨g2, e2, r2, c2, v2⟩ := ih (fun k hk => hi k (by simp [hk])) g1 r1 c1
      refine ⟨g2, by rw [List.foldlM_cons, e1]; exact e2, r2, c2, fun p q => ?_⟩
      rw [v2, v1]
      simp only [List.mem_cons]
      constructor
      · rintro ((h | ⟨h1, h2, h3⟩) | ⟨h1, h2, h3⟩)
        · exact Or.inl h
        · exact Or.inr ⟨Or.inl (by omega), by omega, h3⟩
        · exact Or.inr ⟨Or.inr h1, h2, h3⟩
      · rintro (h | ⟨h1 | h1, h2, h3⟩)
        · exact Or.inl (Or.inl h)
        · exact Or.inl (Or.inr ⟨by omega, by omega, h3⟩)
        · exact Or.inr ⟨h1, h2, h3⟩
  induction lj with
  | nil => intro g hr hc; exact ⟨g, rfl, hr, hc, fun p q => by simp⟩
  | cons j lj ih =>
    intro g hr hc
    obtain ⟨j0, j1⟩ := hj j (by simp)
    obtain ⟨g1, e1, r1, c1, v1⟩ := col j j0 j1 li hi g hr hc
    obtain ⟨g2, e2, r2, c2, v2⟩ := ih (fun k hk => hj k (by simp [hk])) g1 r1 c1
    refine ⟨g2, by rw [List.foldlM_cons, e1]; exact e2, r2, c2, fun p q => ?_⟩
    rw [v2, v1]
    simp only [List.mem_cons]
    constructor
    · rintro ((h | ⟨h1, h2, h3⟩) | ⟨h1, h2, h3⟩)
      · exact Or.inl h
      · exact Or.inr ⟨h1, Or.inl h2, h3⟩
      · exact Or.inr ⟨h1, Or.inr h2, h3⟩
    · rintro (h | ⟨h1, h2 | h2, h3⟩)
      · exact Or.inl (Or.inl h)
      · exact Or.inl (Or.inr ⟨h1, h2, h3⟩)
      · exact Or.inr ⟨h1, h2, h3⟩

namespace PField

/-- What `insert` marks, in any arithmetic: nodes whose computed squared distance is below the squared umbra. -/
def Marks {F : Type} [Zero F] [Add F] [Sub F] [Mul F] [Div F] [NatCast F] [IntCast F] [LT F] [DecidableLT F] [DecidableEq F]
    (f : PField F) (b : Body F) (ax ay bx «by» u2 : F) (p q : ℕ) : Prop :=
  ∃ d2, distancesquared true ax ay bx «by» (b.xmin + ((q : ℤ) : F) * f.deltax) (b.ymin + ((p : ℤ) : F) * f.deltay) = .ok (some d2) ∧ d2 < u2

section anyArithmetic
variable {F : Type} [Zero F] [Add F] [Sub F] [Mul F] [Div F] [NatCast F] [IntCast F] [LT F] [LE F] [DecidableLT F] [DecidableLE F] [DecidableEq F]

theorem distancesquared_np (ax ay bx «by» cx cy : F) : ∃ o, distancesquared true ax ay bx «by» cx cy = .ok o := by
  unfold distancesquared
  simp only [if_true]
  split_ifs <;> exact ⟨_, rfl⟩

theorem insertCell_marks (f : PField F) (b : Body F) (ax ay bx «by» u2 : F) (g : Grid Bool) (i j : ℤ)
    (i0 : 0 ≤ i) (i1 : i < g.rows) (j0 : 0 ≤ j) (j1 : j < g.cols) :
    ∃ g', f.insertCell b ax ay bx «by» u2 g i j = .ok g' ∧ g'.rows = g.rows ∧ g'.cols = g.cols ∧
      ∀ p q, g'.val p q = true ↔ g.val p q = true ∨ (p = i.toNat ∧ q = j.toNat ∧ f.Marks b ax ay bx «by» u2 p q) := by
  have ij : ((i.toNat : ℕ) : ℤ) = i := Int.toNat_of_nonneg i0
  have jj : ((j.toNat : ℕ) : ℤ) = j := Int.toNat_of_nonneg j0
  obtain ⟨o, ho⟩ := distancesquared_np ax ay bx «by» (b.xmin + (j : F) * f.deltax) (b.ymin + (i : F) * f.deltay)
  unfold insertCell
  simp only [Grid.get, pyIndex_ok _ _ i0 i1, pyIndex_ok _ _ j0 j1, ho]
  cases hv : g.val i.toNat j.toNat with
  | true =>
    refine ⟨g, rfl, rfl, rfl, fun p q => ⟨Or.inl, ?_⟩⟩
    rintro (h | ⟨rfl, rfl, _⟩)
    · exact h
    · exact hv
  | false =>
    cases o with
    | none =>
      refine ⟨g, rfl, rfl, rfl, fun p q => ⟨Or.inl, ?_⟩⟩
      rintro (h | ⟨rfl, rfl, d2, h, _⟩)
      · exact h
      · rw [ij, jj, ho] at h; simp at h
    | some d2 =>
      dsimp only
      split_ifs with hd
      · simp only [Grid.set, pyIndex_ok _ _ i0 i1, pyIndex_ok _ _ j0 j1]
        refine ⟨_, rfl, rfl, rfl, fun p q => ?_⟩
        dsimp only
        split_ifs with hpq
        · obtain ⟨rfl, rfl⟩ := hpq
          simp only [true_iff]
          exact Or.inr ⟨trivial, trivial, d2, by rw [ij, jj]; exact ho, hd⟩
        · constructor
          · exact Or.inl
          · rintro (h | ⟨h1, h2, _⟩)
            · exact h
            · exact absurd ⟨h1, h2⟩ hpq
      · refine ⟨g, rfl, rfl, rfl, fun p q => ⟨Or.inl, ?_⟩⟩
        rintro (h | ⟨rfl, rfl, d3, h, h'⟩)
        · exact h
        · rw [ij, jj, ho] at h
          obtain rfl : d2 = d3 := by simpa using h
          exact absurd h' hd

/-- `insert` in any arithmetic. -/
theorem insert_marks [PyFloor F] (f : PField F) (b : Body F) (hb : f.body = some b) (hr : b.rgrid.rows = f.nrows) (hc : b.rgrid.cols = f.ncols)
    (ax ay bx «by» u : F) :
    ∃ g', f.insert ax ay bx «by» u = .ok { f with body := some { b with rgrid := g' } } ∧ g'.rows = f.nrows ∧ g'.cols = f.ncols ∧
      ∀ p q, g'.val p q = true ↔ b.rgrid.val p q = true ∨
        (((p : ℤ) ∈ intRange (max 0 (PyFloor.floor ((pyMin2 ay «by» - u - b.ymin) / f.deltay)))
            (min (f.nrows : ℤ) (PyFloor.floor ((pyMax2 ay «by» + u - b.ymin) / f.deltay) + 1))) ∧
          ((q : ℤ) ∈ intRange (max 0 (PyFloor.floor ((pyMin2 ax bx - u - b.xmin) / f.deltax)))
            (min (f.ncols : ℤ) (PyFloor.floor ((pyMax2 ax bx + u - b.xmin) / f.deltax) + 1))) ∧
          f.Marks b ax ay bx «by» (u * u) p q) := by
  obtain ⟨g', e, r, c, v⟩ := gridFold_spec (fun g i j => f.insertCell b ax ay bx «by» (u * u) g i j) (f.Marks b ax ay bx «by» (u * u)) f.nrows f.ncols
    (fun g i j hr hc i0 i1 j0 j1 => by
      obtain ⟨g', e, r, c, v⟩ := f.insertCell_marks b ax ay bx «by» (u * u) g i j i0 (by rw [hr]; exact i1) j0 (by rw [hc]; exact j1)
      exact ⟨g', e, r.trans hr, c.trans hc, v⟩)
    (intRange (max 0 (PyFloor.floor ((pyMin2 ay «by» - u - b.ymin) / f.deltay)))
      (min (f.nrows : ℤ) (PyFloor.floor ((pyMax2 ay «by» + u - b.ymin) / f.deltay) + 1)))
    (intRange (max 0 (PyFloor.floor ((pyMin2 ax bx - u - b.xmin) / f.deltax)))
      (min (f.ncols : ℤ) (PyFloor.floor ((pyMax2 ax bx + u - b.xmin) / f.deltax) + 1)))
    (by intro j hj; rw [mem_intRange] at hj; omega) (by intro j hj; rw [mem_intRange] at hj; omega) b.rgrid hr hc
  refine ⟨g', ?_, r, c, v⟩
  unfold insert
  rw [hb]
  simp only [e]

end anyArithmetic

/-! ### one segment, with rounding -/

theorem exact_body {f : PField Fl} {b : Body Fl} (hb : f.body = some b) : f.exact.body = some b.exact := by
  simp [exact, hb]

/-- The coordinates of the nodes of a grid are computed without rounding. -/
structure Crisp (k m : ℤ) (g d : ℝ) (n : ℕ) : Prop where
  d_pos : 0 < d
  g_mul : MultipleOf k g
  d_mul : MultipleOf m d
  units : k ≤ m
  small : |g| ≤ 2 ^ 53 * 2 ^ k
  node : ∀ q : ℕ, q < n → |g + q * d| ≤ 2 ^ 53 * 2 ^ k
  width : ∀ q : ℕ, q < n → (q : ℝ) * d ≤ 2 ^ 53 * 2 ^ m

namespace Crisp
variable {k m : ℤ} {g d : ℝ} {n : ℕ}

theorem d_ge (h : Crisp k m g d n) : (2 : ℝ) ^ m ≤ d := by
  obtain ⟨i, hm⟩ := h.d_mul
  have p : (0 : ℝ) < 2 ^ m := zpow_pos (by norm_num) _
  have d0 := h.d_pos
  rw [hm] at d0 ⊢
  have : (0 : ℝ) < i := pos_of_mul_pos_left d0 p.le
  have : (1 : ℝ) ≤ i := by exact_mod_cast this
  nlinarith

theorem count (h : Crisp k m g d n) {q : ℕ} (hq : q < n) : q ≤ 2 ^ 53 := by
  have p : (0 : ℝ) < 2 ^ m := zpow_pos (by norm_num) _
  have h1 := h.width q hq
  have h2 := mul_le_mul_of_nonneg_left h.d_ge (Nat.cast_nonneg (α := ℝ) q)
  have h3 : (q : ℝ) ≤ 2 ^ 53 := le_of_mul_le_mul_right (h2.trans h1) p
  exact_mod_cast h3

theorem index (h : Crisp k m g d n) {q : ℕ} (hq : q < n) : round53 (q : ℝ) = q := by
  have := round53_nat q (h.count hq)
  simpa using this

theorem shift (h : Crisp k m g d n) {q : ℕ} (hq : q < n) : round53 ((q : ℝ) * d) = q * d := by
  have := h.d_mul.int_mul q
  push_cast at this
  refine this.exact ?_
  rw [abs_of_nonneg (mul_nonneg (Nat.cast_nonneg _) h.d_pos.le)]
  exact h.width q hq

theorem at_node (h : Crisp k m g d n) {q : ℕ} (hq : q < n) : round53 (g + q * d) = g + q * d := by
  have := h.g_mul.add ((h.d_mul.coarse h.units).int_mul q)
  push_cast at this
  exact this.exact (h.node q hq)

/-- Every node strictly inside the interval is visited. -/
theorem window (h : Crisp k m g d n) {q : ℕ} (hq : q < n) {lo hi : ℝ} (h1 : lo ≤ g + q * d) (h2 : g + q * d ≤ hi) :
    max 0 ⌊round53 (round53 (round53 lo - g) / d)⌋ ≤ (q : ℤ) ∧ (q : ℤ) < min (n : ℤ) (⌊round53 (round53 (round53 hi - g) / d)⌋ + 1) := by
  have a1 : round53 lo ≤ g + q * d := by rw [← h.at_node hq]; exact round53_mono h1
  have a2 : round53 (round53 lo - g) ≤ q * d := by rw [← h.shift hq]; exact round53_mono (by linarith)
  have a3 : round53 (round53 (round53 lo - g) / d) ≤ q := by
    rw [← h.index hq]; exact round53_mono (by rw [div_le_iff₀ h.d_pos]; exact a2)
  have b1 : g + q * d ≤ round53 hi := by rw [← h.at_node hq]; exact round53_mono h2
  have b2 : q * d ≤ round53 (round53 hi - g) := by rw [← h.shift hq]; exact round53_mono (by linarith)
  have b3 : (q : ℝ) ≤ round53 (round53 (round53 hi - g) / d) := by
    rw [← h.index hq]; exact round53_mono (by rw [le_div_iff₀ h.d_pos]; exact b2)
  constructor
  · apply max_le (by omega)
    have : ((⌊round53 (round53 (round53 lo - g) / d)⌋ : ℤ) : ℝ) ≤ q := (Int.floor_le _).trans a3
    exact_mod_cast this
  · apply lt_min (by omega)
    apply Int.lt_add_one_of_le
    rw [Int.le_floor]
    exact_mod_cast b3

end Crisp

theorem pyMin2_val (a b : Fl) : (pyMin2 a b).val = min a.val b.val := by
  unfold pyMin2
  simp only [Fl.lt_iff]
  split_ifs with h
  · exact (min_eq_right h.le).symm
  · exact (min_eq_left (not_lt.mp h)).symm

theorem pyMax2_val (a b : Fl) : (pyMax2 a b).val = max a.val b.val := by
  unfold pyMax2
  simp only [Fl.lt_iff]
  split_ifs with h
  · exact (max_eq_right h.le).symm
  · exact (max_eq_left (not_lt.mp h)).symm

/-- Umbra and segment are of moderate size. -/
structure Sized (ax ay bx «by» u : Fl) (S η : ℝ) : Prop where
  len : (bx.val - ax.val) ^ 2 + (by.val - ay.val) ^ 2 ≤ S ^ 2
  η0 : 0 ≤ η
  ηu : η ≤ u.val
  uS : u.val ≤ S
  big : 2000 * (eps * S ^ 2) ≤ u.val * η

theorem insert_fl (f : PField Fl) (b : Body Fl) (hf : f.exact.WF) (hb : f.body = some b) {k m k' m' : ℤ} (cx : Crisp k m b.xmin.val f.deltax.val f.ncols)
    (cy : Crisp k' m' b.ymin.val f.deltay.val f.nrows) (ax ay bx «by» u : Fl) {S η : ℝ} (hs : Sized ax ay bx «by» u S η) :
    ∃ g', f.insert ax ay bx «by» u = .ok { f with body := some { b with rgrid := g' } } ∧ g'.rows = f.nrows ∧ g'.cols = f.ncols ∧
      (∀ p q, p < f.nrows → q < f.ncols → g'.val p q = true → b.rgrid.val p q = true ∨
        f.exact.Hits b.exact ax.val ay.val bx.val by.val (u.val + η) p q) ∧
      (∀ p q, b.rgrid.val p q = true → g'.val p q = true) ∧
      (∀ p q, p < f.nrows → q < f.ncols → f.exact.Hits b.exact ax.val ay.val bx.val by.val (u.val + -η) p q → g'.val p q = true) := by
  obtain ⟨hr3, hc3, hxm, hym, hpr, hpc, hrr, hrc⟩ := hf.grid b.exact (exact_body hb)
  obtain ⟨g', e, r, c, v⟩ := f.insert_marks b hb hrr hrc ax ay bx «by» u
  have node : ∀ p q, p < f.nrows → q < f.ncols →
      (b.xmin + ((q : ℤ) : Fl) * f.deltax).val = b.exact.xmin + q * f.exact.deltax ∧ (b.ymin + ((p : ℤ) : Fl) * f.deltay).val = b.exact.ymin + p * f.exact.deltay := by
    intro p q hp hq
    simp only [Fl.val_add, Fl.val_mul, Fl.val_int, Int.cast_natCast]
    rw [cx.index hq, cx.shift hq, cx.at_node hq, cy.index hp, cy.shift hp, cy.at_node hp]
    exact ⟨rfl, rfl⟩
  refine ⟨g', e, r, c, fun p q hp hq h => ?_, fun p q h => (v p q).mpr (Or.inl h), fun p q hp hq h => (v p q).mpr (Or.inr ?_)⟩
  · rcases (v p q).mp h with h | ⟨_, _, d2, hd, hlt⟩
    · exact Or.inl h
    · right
      obtain ⟨n1, n2⟩ := node p q hp hq
      by_cases hab : (ax.val, ay.val) = (bx.val, by.val)
      · simp only [Prod.mk.injEq] at hab
        obtain rfl := Fl.ext' hab.1
        obtain rfl := Fl.ext' hab.2
        rw [fl_degenerate] at hd
        simp at hd
      · refine ⟨hab, ?_⟩
        obtain ⟨d', e', hn, _⟩ := fl_near ax ay bx «by» (b.xmin + ((q : ℤ) : Fl) * f.deltax) (b.ymin + ((p : ℤ) : Fl) * f.deltay) u hab S η
          hs.len hs.η0 hs.ηu hs.uS hs.big
        rw [e'] at hd
        obtain rfl : d' = d2 := by simpa using hd
        rw [← n1, ← n2]
        exact hn hlt
  · obtain ⟨n1, n2⟩ := node p q hp hq
    obtain ⟨hab, hn⟩ := h
    have u0 : 0 ≤ u.val + -η := by linarith [hs.ηu]
    obtain ⟨⟨x1, x2⟩, y1, y2⟩ := near_bounds _ _ _ _ _ _ _ u0 hn
    have η0 := hs.η0
    rw [mem_intRange, mem_intRange]
    simp only [PyFloor.floor, Fl.val_div, Fl.val_sub, Fl.val_add, pyMin2_val, pyMax2_val]
    refine ⟨cy.window hp ?_ ?_, cx.window hq ?_ ?_, ?_⟩
    · have : min ay.val by.val - (u.val + -η) < b.ymin.val + p * f.deltay.val := y1
      linarith
    · have : b.ymin.val + p * f.deltay.val < max ay.val by.val + (u.val + -η) := y2
      linarith
    · have : min ax.val bx.val - (u.val + -η) < b.xmin.val + q * f.deltax.val := x1
      linarith
    · have : b.xmin.val + q * f.deltax.val < max ax.val bx.val + (u.val + -η) := x2
      linarith
    · obtain ⟨d', e', _, hn'⟩ := fl_near ax ay bx «by» (b.xmin + ((q : ℤ) : Fl) * f.deltax) (b.ymin + ((p : ℤ) : Fl) * f.deltay) u hab S η
          hs.len hs.η0 hs.ηu hs.uS hs.big
      exact ⟨d', e', hn' (by rw [n1, n2]; exact hn)⟩

end PField
end Oneka
