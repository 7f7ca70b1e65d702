import Verif.Lemmas.Binary64Grow

/-! # `ProbabilityField` in binary64 arithmetic (C117) -/

namespace Oneka

structure BodySame (nr nc : ℕ) (c : Body B64) (b : Body Fl) : Prop where
  xmin : Same 92 180 c.xmin b.xmin
  xmax : Same 92 180 c.xmax b.xmax
  ymin : Same 92 180 c.ymin b.ymin
  ymax : Same 92 180 c.ymax b.ymax
  cols : (nc : ℝ) * 2 ^ (-92 : ℤ) ≤ b.xmax.val - b.xmin.val + 2 ^ (50 : ℤ)
  rows : (nr : ℝ) * 2 ^ (-92 : ℤ) ≤ b.ymax.val - b.ymin.val + 2 ^ (50 : ℤ)
  total : Same 92 94 c.totalWeight b.totalWeight
  prows : c.pgrid.rows = b.pgrid.rows
  pcols : c.pgrid.cols = b.pgrid.cols
  pval : ∀ i j, Same 92 94 (c.pgrid.val i j) (b.pgrid.val i j)
  rgrid : c.rgrid = b.rgrid

structure FieldSame (c : PField B64) (f : PField Fl) : Prop where
  dx : Same 92 40 c.deltax f.deltax
  dx0 : 0 < f.deltax.val
  dy : Same 92 40 c.deltay f.deltay
  dy0 : 0 < f.deltay.val
  nrows : c.nrows = f.nrows
  ncols : c.ncols = f.ncols
  body : OptAlike (BodySame f.nrows f.ncols) c.body f.body

theorem FieldSame.is64 {c : PField B64} {f : PField Fl} (h : FieldSame c f) : c.Is64 f := by
  refine ⟨⟨h.dx.1, h.dy.1⟩, ⟨h.nrows, h.ncols⟩, ?_⟩
  have hb := h.body
  cases h1 : c.body with
  | none =>
    cases h2 : f.body with
    | none => trivial
    | some b => rw [h1, h2] at hb; exact hb.elim
  | some s =>
    cases h2 : f.body with
    | none => rw [h1, h2] at hb; exact hb.elim
    | some b =>
      rw [h1, h2] at hb
      exact ⟨⟨hb.xmin.1, hb.xmax.1, hb.ymin.1, hb.ymax.1⟩, hb.total.1, ⟨hb.prows, hb.pcols, fun i j => (hb.pval i j).1⟩, hb.rgrid⟩

/-- the corners of a new grid -/
theorem around {bx bd : B64} {x d : Fl} (hx : Same 92 40 bx x) (hd : Same 92 40 bd d) (d0 : 0 < d.val) :
    Same 92 180 (bx - bd) (x - d) ∧ Same 92 180 (bx + bd) (x + d) ∧ (x - d).val ≤ (x + d).val :=
  ⟨(hx.sub hd (by norm_num) (by norm_num)).mono (by norm_num) (by norm_num), (hx.add hd (by norm_num) (by norm_num)).mono (by norm_num) (by norm_num),
    round53_mono (by linarith)⟩

theorem not_nonpos {x : Fl} (h : ¬ x ≤ 0) : 0 < x.val := by
  have : ¬ x.val ≤ (0:Fl).val := h
  rw [Fl.val_zero] at this
  exact not_le.mp this

theorem new_same {dx dy : Fl} {xo yo : Option Fl} (hdx : dx.Ordinary) (hdy : dy.Ordinary) (hx : ∀ x, xo = some x → x.Ordinary) (hy : ∀ y, yo = some y → y.Ordinary) :
    Alike FieldSame (PField.new dx.to64 dy.to64 (xo.map Fl.to64) (yo.map Fl.to64)) (PField.new dx dy xo yo) := by
  have z : Same 0 0 (0 : B64) (0 : Fl) := Same.zero (by norm_num) (by norm_num)
  have z' : Same 92 94 (0 : B64) (0 : Fl) := Same.zero (by norm_num) (by norm_num)
  unfold PField.new
  by_cases c1 : dx ≤ 0
  · rw [if_pos c1, if_pos ((hdx.same.le_iff z).mpr c1)]
    rfl
  rw [if_neg c1, if_neg (fun h => c1 ((hdx.same.le_iff z).mp h))]
  by_cases c2 : dy ≤ 0
  · rw [if_pos c2, if_pos ((hdy.same.le_iff z).mpr c2)]
    rfl
  rw [if_neg c2, if_neg (fun h => c2 ((hdy.same.le_iff z).mp h))]
  cases xo with
  | none => exact ⟨hdx.same, not_nonpos c1, hdy.same, not_nonpos c2, rfl, rfl, trivial⟩
  | some xo =>
    cases yo with
    | none => exact ⟨hdx.same, not_nonpos c1, hdy.same, not_nonpos c2, rfl, rfl, trivial⟩
    | some yo =>
      obtain ⟨a1, a2, a3⟩ := around (hx xo rfl).same hdx.same (not_nonpos c1)
      obtain ⟨b1, b2, b3⟩ := around (hy yo rfl).same hdy.same (not_nonpos c2)
      have t : ((3 : ℕ) : ℝ) * 2 ^ (-92 : ℤ) ≤ 2 ^ (50 : ℤ) := by norm_num
      exact ⟨hdx.same, not_nonpos c1, hdy.same, not_nonpos c2, rfl, rfl, ⟨a1, a2, b1, b2, by simp only; linarith, by simp only; linarith, z', rfl, rfl, fun _ _ => z', rfl⟩⟩

/-- One axis of a grid around a box. -/
theorem around_box {bl bh bd : B64} {l h d : Fl} (hl : Same 92 40 bl l) (hh : Same 92 40 bh h) (hd : Same 92 40 bd d) (d0 : 0 < d.val) :
    (max 3 (PyFloor.ceil ((bh - (bl - bd)) / bd) + 2)).toNat = (max 3 (PyFloor.ceil ((h - (l - d)) / d) + 2)).toNat ∧ Same 92 180 (bl - bd) (l - d) ∧
    Same 92 180 (bl - bd + ((((max 3 (PyFloor.ceil ((h - (l - d)) / d) + 2)).toNat : ℤ) - 1 : ℤ) : B64) * bd) (l - d + ((((max 3 (PyFloor.ceil ((h - (l - d)) / d) + 2)).toNat : ℤ) - 1 : ℤ) : Fl) * d) ∧
    (((max 3 (PyFloor.ceil ((h - (l - d)) / d) + 2)).toNat : ℕ) : ℝ) * 2 ^ (-92 : ℤ) ≤
      (l - d + ((((max 3 (PyFloor.ceil ((h - (l - d)) / d) + 2)).toNat : ℤ) - 1 : ℤ) : Fl) * d).val - (l - d).val + 2 ^ (50 : ℤ) := by
  have s1 := hl.sub hd (by norm_num) (by norm_num)
  have s2 := ((hh.mono (g' := 92) (k' := 41) (by norm_num) (by norm_num)).sub s1 (by norm_num) (by norm_num)).div hd d0.ne' (by norm_num) (by norm_num)
  rw [s2.ceil_eq]
  have hc : |(PyFloor.ceil ((h - (l - d)) / d) : ℝ)| ≤ 2 ^ (134:ℤ) + 1 := by
    have b := s2.2.2
    have e : PyFloor.ceil ((h - (l - d)) / d) = ⌈((h - (l - d)) / d).val⌉ := rfl
    rw [e]
    have c1 := Int.le_ceil ((h - (l - d)) / d).val
    have c2 := Int.ceil_lt_add_one ((h - (l - d)) / d).val
    have b' : |((h - (l - d)) / d).val| ≤ 2 ^ (134:ℤ) := b.trans (two_zpow_le (by norm_num))
    rw [abs_le] at b' ⊢
    constructor <;> linarith
  generalize PyFloor.ceil ((h - (l - d)) / d) = c at hc ⊢
  have hn : (((max 3 (c + 2)).toNat : ℕ) : ℤ) = max 3 (c + 2) := Int.toNat_of_nonneg (by omega)
  have hn3 : (3:ℤ) ≤ max 3 (c + 2) := le_max_left _ _
  have hnR : ((max 3 (c + 2) : ℤ) : ℝ) ≤ 2 ^ (135:ℤ) := by
    have e : (2:ℝ) ^ (135:ℤ) = 2 ^ (134:ℤ) + 2 ^ (134:ℤ) := by norm_num
    have e3 : (4:ℝ) ≤ 2 ^ (134:ℤ) := by norm_num
    have := (abs_le.mp hc).2
    rcases max_cases 3 (c + 2) with ⟨h, -⟩ | ⟨h, -⟩
    · rw [h]; push_cast; linarith
    · rw [h]; push_cast; linarith
  have hnN : (((max 3 (c + 2)).toNat : ℕ) : ℝ) ≤ 2 ^ (135:ℤ) := by
    have : (((max 3 (c + 2)).toNat : ℕ) : ℝ) = ((max 3 (c + 2) : ℤ) : ℝ) := by exact_mod_cast congrArg (Int.cast (R := ℝ)) hn
    rw [this]; exact hnR
  have hk : |(((((max 3 (c + 2)).toNat : ℤ) - 1 : ℤ)) : ℝ)| ≤ 2 ^ (135:ℤ) := by
    have h3 : (3:ℝ) ≤ ((max 3 (c + 2) : ℤ) : ℝ) := by exact_mod_cast hn3
    rw [hn]
    push_cast at h3 hnR ⊢
    rw [abs_le]
    constructor <;> linarith
  have si := (Same.int _ hk (by norm_num)).mul hd (by norm_num) (by norm_num)
  have s3 := (s1.mono (g' := 92) (k' := 175) (by norm_num) (by norm_num)).add (si.mono (by norm_num) (by norm_num)) (by norm_num) (by norm_num)
  refine ⟨rfl, s1.mono (by norm_num) (by norm_num), s3.mono (by norm_num) (by norm_num), ?_⟩
  have inc : (l - d).val ≤ (l - d + ((((max 3 (c + 2)).toNat : ℤ) - 1 : ℤ) : Fl) * d).val := by
    have p : 0 ≤ (((((max 3 (c + 2)).toNat : ℤ) - 1 : ℤ) : Fl) * d).val := by
      have : 0 < ((((max 3 (c + 2)).toNat : ℤ) - 1 : ℤ) : ℝ) := by
        have : (0:ℤ) < ((max 3 (c + 2)).toNat : ℤ) - 1 := by omega
        exact_mod_cast this
      exact (round53_pos (mul_pos (round53_pos this) d0)).le
    have := round53_mono (a := (l - d).val) (b := (l - d).val + (((((max 3 (c + 2)).toNat : ℤ) - 1 : ℤ) : Fl) * d).val) (by linarith)
    rwa [(l - d).isFloat] at this
  have e : (2:ℝ) ^ (135:ℤ) * 2 ^ (-92:ℤ) ≤ 2 ^ (50:ℤ) := by norm_num
  have := mul_le_mul_of_nonneg_right hnN (two_zpow_pos (-92)).le
  linarith

theorem blit_same {big : Grid B64} {big' : Grid Fl} {s : Grid B64} {s' : Grid Fl} (h1 : big.rows = big'.rows) (h2 : big.cols = big'.cols) (h3 : ∀ i j, Same 92 94 (big.val i j) (big'.val i j))
    (h4 : s.rows = s'.rows) (h5 : s.cols = s'.cols) (h6 : ∀ i j, Same 92 94 (s.val i j) (s'.val i j)) (r0 h c0 w : ℕ) :
    Alike (fun a b => a.rows = b.rows ∧ a.cols = b.cols ∧ ∀ i j, Same 92 94 (a.val i j) (b.val i j)) (big.blit r0 h c0 w s) (big'.blit r0 h c0 w s') := by
  unfold Grid.blit
  rw [h1, h2, h4, h5]
  split_ifs with c
  · refine ⟨rfl, rfl, fun i j => ?_⟩
    simp only
    split_ifs
    · exact h6 _ _
    · exact h3 _ _
  · rfl

theorem expand_same {c : PField B64} {f : PField Fl} (hf : FieldSame c f) {x0 x1 y0 y1 : Fl} (hx0 : x0.Ordinary) (hx1 : x1.Ordinary) (hy0 : y0.Ordinary) (hy1 : y1.Ordinary) :
    OptAlike (Alike FieldSame) (c.expand x0.to64 x1.to64 y0.to64 y1.to64) (f.expand x0 x1 y0 y1) := by
  have z' : Same 92 94 (0 : B64) (0 : Fl) := Same.zero (by norm_num) (by norm_num)
  unfold PField.expand
  by_cases c1 : x1 < x0
  · rw [if_pos c1, if_pos ((hx1.same.lt_iff hx0.same).mpr c1)]
    rfl
  rw [if_neg c1, if_neg (fun h => c1 ((hx1.same.lt_iff hx0.same).mp h))]
  by_cases c2 : y1 < y0
  · rw [if_pos c2, if_pos ((hy1.same.lt_iff hy0.same).mpr c2)]
    rfl
  rw [if_neg c2, if_neg (fun h => c2 ((hy1.same.lt_iff hy0.same).mp h)), hf.nrows, hf.ncols]
  by_cases c3 : f.ncols = 0 ∨ f.nrows = 0
  · rw [if_pos c3, if_pos c3]
    obtain ⟨a1, a2, a3, a4⟩ := around_box hx0.same hx1.same hf.dx hf.dx0
    obtain ⟨b1, b2, b3, b4⟩ := around_box hy0.same hy1.same hf.dy hf.dy0
    simp only [a1, b1]
    exact ⟨hf.dx, hf.dx0, hf.dy, hf.dy0, rfl, rfl, ⟨a2, a3, b2, b3, a4, b4, z', rfl, rfl, fun _ _ => z', rfl⟩⟩
  rw [if_neg c3, if_neg c3]
  have hb := hf.body
  cases h1 : c.body with
  | none =>
    cases h2 : f.body with
    | none => rfl
    | some b => rw [h1, h2] at hb; exact hb.elim
  | some s =>
  cases h2 : f.body with
  | none => rw [h1, h2] at hb; exact hb.elim
  | some b =>
  rw [h1, h2] at hb
  have hb : BodySame f.nrows f.ncols s b := hb
  simp only
  have g1 := same_growLow hx0.same hf.dx hf.dx0 hb.xmin f.ncols 0
  cases e1 : growLow x0 f.deltax b.xmin f.ncols 0 with
  | none =>
    cases e2 : growLow x0.to64 c.deltax s.xmin f.ncols 0 with
    | none => trivial
    | some r => rw [e1, e2] at g1; exact g1.elim
  | some r1 =>
  cases e2 : growLow x0.to64 c.deltax s.xmin f.ncols 0 with
  | none => rw [e1, e2] at g1; exact g1.elim
  | some r1' =>
  rw [e1, e2] at g1
  obtain ⟨sx, q1, m1, w1, v1⟩ := g1
  obtain ⟨xl, n1⟩ := r1
  obtain ⟨xl', n1'⟩ := r1'
  obtain rfl : n1' = n1 := q1
  obtain rfl : n1' = (f.ncols + m1, 0 + m1) := w1
  simp only
  have g2 := same_growHigh hx1.same hf.dx hf.dx0 hb.xmax (f.ncols + m1)
  cases e3 : growHigh x1 f.deltax b.xmax (f.ncols + m1) with
  | none =>
    cases e4 : growHigh x1.to64 c.deltax s.xmax (f.ncols + m1) with
    | none => trivial
    | some r => rw [e3, e4] at g2; exact g2.elim
  | some r2 =>
  cases e4 : growHigh x1.to64 c.deltax s.xmax (f.ncols + m1) with
  | none => rw [e3, e4] at g2; exact g2.elim
  | some r2' =>
  rw [e3, e4] at g2
  obtain ⟨sX, q2, m2, w2, v2⟩ := g2
  obtain ⟨xh, n2⟩ := r2
  obtain ⟨xh', n2'⟩ := r2'
  obtain rfl : n2' = n2 := q2
  obtain rfl : n2' = f.ncols + m1 + m2 := w2
  simp only
  have g3 := same_growLow hy0.same hf.dy hf.dy0 hb.ymin f.nrows 0
  cases e5 : growLow y0 f.deltay b.ymin f.nrows 0 with
  | none =>
    cases e6 : growLow y0.to64 c.deltay s.ymin f.nrows 0 with
    | none => trivial
    | some r => rw [e5, e6] at g3; exact g3.elim
  | some r3 =>
  cases e6 : growLow y0.to64 c.deltay s.ymin f.nrows 0 with
  | none => rw [e5, e6] at g3; exact g3.elim
  | some r3' =>
  rw [e5, e6] at g3
  obtain ⟨sy, q3, m3, w3, v3⟩ := g3
  obtain ⟨yl, n3⟩ := r3
  obtain ⟨yl', n3'⟩ := r3'
  obtain rfl : n3' = n3 := q3
  obtain rfl : n3' = (f.nrows + m3, 0 + m3) := w3
  simp only
  have g4 := same_growHigh hy1.same hf.dy hf.dy0 hb.ymax (f.nrows + m3)
  cases e7 : growHigh y1 f.deltay b.ymax (f.nrows + m3) with
  | none =>
    cases e8 : growHigh y1.to64 c.deltay s.ymax (f.nrows + m3) with
    | none => trivial
    | some r => rw [e7, e8] at g4; exact g4.elim
  | some r4 =>
  cases e8 : growHigh y1.to64 c.deltay s.ymax (f.nrows + m3) with
  | none => rw [e7, e8] at g4; exact g4.elim
  | some r4' =>
  rw [e7, e8] at g4
  obtain ⟨sY, q4, m4, w4, v4⟩ := g4
  obtain ⟨yh, n4⟩ := r4
  obtain ⟨yh', n4'⟩ := r4'
  obtain rfl : n4' = n4 := q4
  obtain rfl : n4' = f.nrows + m3 + m4 := w4
  simp only at v1 v2 v3 v4 ⊢
  have hc := hb.cols
  have hr := hb.rows
  have hcols : ((f.ncols + m1 + m2 : ℕ) : ℝ) * 2 ^ (-92 : ℤ) ≤ xh.val - xl.val + 2 ^ (50 : ℤ) := by push_cast; linarith
  have hrows : ((f.nrows + m3 + m4 : ℕ) : ℝ) * 2 ^ (-92 : ℤ) ≤ yh.val - yl.val + 2 ^ (50 : ℤ) := by push_cast; linarith
  split_ifs with c4
  · have bl := blit_same (big := Grid.full (f.nrows + m3 + m4) (f.ncols + m1 + m2) (0 : B64)) (big' := Grid.full (f.nrows + m3 + m4) (f.ncols + m1 + m2) (0 : Fl)) rfl rfl (fun _ _ => z') hb.prows hb.pcols hb.pval
      (0 + m3) f.nrows (0 + m1) f.ncols
    rw [hb.rgrid]
    cases t1 : (Grid.full (f.nrows + m3 + m4) (f.ncols + m1 + m2) false).blit (0 + m3) f.nrows (0 + m1) f.ncols b.rgrid with
    | error e => rfl
    | ok rg =>
      cases t2 : (Grid.full (f.nrows + m3 + m4) (f.ncols + m1 + m2) (0 : Fl)).blit (0 + m3) f.nrows (0 + m1) f.ncols b.pgrid with
      | error e =>
        cases t3 : (Grid.full (f.nrows + m3 + m4) (f.ncols + m1 + m2) (0 : B64)).blit (0 + m3) f.nrows (0 + m1) f.ncols s.pgrid with
        | error e' => rw [t2, t3] at bl; exact bl
        | ok g => rw [t2, t3] at bl; exact bl.elim
      | ok pg =>
        cases t3 : (Grid.full (f.nrows + m3 + m4) (f.ncols + m1 + m2) (0 : B64)).blit (0 + m3) f.nrows (0 + m1) f.ncols s.pgrid with
        | error e' => rw [t2, t3] at bl; exact bl.elim
        | ok g =>
          rw [t2, t3] at bl
          exact ⟨hf.dx, hf.dx0, hf.dy, hf.dy0, rfl, rfl, ⟨sx, sX, sy, sY, hcols, hrows, hb.total, bl.1, bl.2.1, bl.2.2, rfl⟩⟩
  · push Not at c4
    refine ⟨hf.dx, hf.dx0, hf.dy, hf.dy0, rfl, rfl, ⟨sx, sX, sy, sY, ?_, ?_, hb.total, hb.prows, hb.pcols, hb.pval, hb.rgrid⟩⟩
    · rw [← c4.2]; exact hcols
    · rw [← c4.1]; exact hrows

theorem BodySame.small {nr nc : ℕ} {c : Body B64} {b : Body Fl} (h : BodySame nr nc c b) : (nc : ℝ) ≤ 2 ^ (274:ℤ) ∧ (nr : ℝ) ≤ 2 ^ (274:ℤ) := by
  have key : ∀ {n : ℕ} {u v : ℝ}, |u| ≤ 2 ^ (180:ℤ) → |v| ≤ 2 ^ (180:ℤ) → (n:ℝ) * 2 ^ (-92:ℤ) ≤ v - u + 2 ^ (50:ℤ) → (n:ℝ) ≤ 2 ^ (274:ℤ) := by
    intro n u v hu hv hn
    rw [abs_le] at hu hv
    have e : (2:ℝ) ^ (50:ℤ) ≤ 2 ^ (180:ℤ) := two_zpow_le (by norm_num)
    have e1 : (2:ℝ) ^ (182:ℤ) = 4 * 2 ^ (180:ℤ) := by norm_num
    have p := two_zpow_pos 180
    have : (n:ℝ) * 2 ^ (-92:ℤ) ≤ 2 ^ (182:ℤ) := by linarith
    have e2 : (2:ℝ) ^ (182:ℤ) = 2 ^ (274:ℤ) * 2 ^ (-92:ℤ) := by rw [← two_zpow_add]; norm_num
    rw [e2] at this
    exact le_of_mul_le_mul_right this (two_zpow_pos _)
  exact ⟨key h.xmin.2.2 h.xmax.2.2 h.cols, key h.ymin.2.2 h.ymax.2.2 h.rows⟩

theorem node_same {bm bd : B64} {m d : Fl} (hm : Same 92 180 bm m) (hd : Same 92 40 bd d) {n : ℕ} (hn : (n:ℝ) ≤ 2 ^ (274:ℤ)) {j : ℤ} (h0 : 0 ≤ j) (hj : j < n) :
    Same 92 315 (bm + j * bd) (m + j * d) := by
  have hk : |(j:ℝ)| ≤ 2 ^ (274:ℤ) := by
    have a : (0:ℝ) ≤ j := by exact_mod_cast h0
    have b : (j:ℝ) < n := by exact_mod_cast hj
    rw [abs_of_nonneg a]
    linarith
  have si := (Same.int j hk (by norm_num)).mul hd (by norm_num) (by norm_num)
  exact ((hm.mono (g' := 92) (k' := 314) (by norm_num) (by norm_num)).add (si.mono (by norm_num) (by norm_num)) (by norm_num) (by norm_num)).mono (by norm_num) (by norm_num)

theorem insertCell_same {c : PField B64} {f : PField Fl} (hf : FieldSame c f) {s : Body B64} {b : Body Fl} (hb : BodySame f.nrows f.ncols s b) {ax ay bx by' : Fl} {u2 : B64} {v2 : Fl}
    (hax : ax.Ordinary) (hay : ay.Ordinary) (hbx : bx.Ordinary) (hby : by'.Ordinary) (hu : Same 184 80 u2 v2) (g : Grid Bool) {i j : ℤ} (i0 : 0 ≤ i) (hi : i < f.nrows) (j0 : 0 ≤ j) (hj : j < f.ncols) :
    c.insertCell s ax.to64 ay.to64 bx.to64 by'.to64 u2 g i j = f.insertCell b ax ay bx by' v2 g i j := by
  have cx := node_same hb.xmin hf.dx hb.small.1 j0 hj
  have cy := node_same hb.ymin hf.dy hb.small.2 i0 hi
  have d := same_distancesquared true hax.same hay.same hbx.same hby.same cx cy
  unfold PField.insertCell
  cases g.get i j with
  | error e => rfl
  | ok v =>
    cases v with
    | true => rfl
    | false =>
      simp only
      cases e1 : distancesquared true ax ay bx by' (b.xmin + j * f.deltax) (b.ymin + i * f.deltay) with
      | error e =>
        cases e2 : distancesquared true ax.to64 ay.to64 bx.to64 by'.to64 (s.xmin + j * c.deltax) (s.ymin + i * c.deltay) with
        | error e' => rw [e1, e2] at d; obtain rfl : e' = e := d; rfl
        | ok r => rw [e1, e2] at d; exact d.elim
      | ok r =>
        cases e2 : distancesquared true ax.to64 ay.to64 bx.to64 by'.to64 (s.xmin + j * c.deltax) (s.ymin + i * c.deltay) with
        | error e' => rw [e1, e2] at d; exact d.elim
        | ok r' =>
          rw [e1, e2] at d
          cases r with
          | none =>
            cases r' with
            | none => rfl
            | some x => exact d.elim
          | some y =>
            cases r' with
            | none => exact d.elim
            | some x =>
              have d : Same 503 910 x y := d
              simp only
              by_cases t : y < v2
              · rw [if_pos t, if_pos ((d.lt_iff hu).mpr t)]
              · rw [if_neg t, if_neg (fun h => t ((d.lt_iff hu).mp h))]

theorem pyMin2_same {a b : Fl} (ha : a.Ordinary) (hb : b.Ordinary) : pyMin2 a.to64 b.to64 = (pyMin2 a b).to64 ∧ (pyMin2 a b).Ordinary := by
  unfold pyMin2
  by_cases h : b < a
  · rw [if_pos h, if_pos ((hb.same.lt_iff ha.same).mpr h)]; exact ⟨rfl, hb⟩
  · rw [if_neg h, if_neg (fun k => h ((hb.same.lt_iff ha.same).mp k))]; exact ⟨rfl, ha⟩

theorem pyMax2_same {a b : Fl} (ha : a.Ordinary) (hb : b.Ordinary) : pyMax2 a.to64 b.to64 = (pyMax2 a b).to64 ∧ (pyMax2 a b).Ordinary := by
  unfold pyMax2
  by_cases h : a < b
  · rw [if_pos h, if_pos ((ha.same.lt_iff hb.same).mpr h)]; exact ⟨rfl, hb⟩
  · rw [if_neg h, if_neg (fun k => h ((ha.same.lt_iff hb.same).mp k))]; exact ⟨rfl, ha⟩

theorem foldlM_congr64 {α β : Type} {l : List α} {φ ψ : β → α → Except PyErr β} (h : ∀ a ∈ l, ∀ g, φ g a = ψ g a) (g : β) : l.foldlM φ g = l.foldlM ψ g := by
  induction l generalizing g with
  | nil => rfl
  | cons a l ih =>
    rw [List.foldlM_cons, List.foldlM_cons, h a (by simp)]
    congr 1
    funext g'
    exact ih (fun b hb => h b (by simp [hb])) g'

theorem window_same {p bu bm bd : B64} {x u m d : Fl} (hx : Same 92 40 p x) (hu : Same 92 40 bu u) (hm : Same 92 180 bm m) (hd : Same 92 40 bd d) (d0 : 0 < d.val) :
    PyFloor.floor ((p - bu - bm) / bd) = PyFloor.floor ((x - u - m) / d) ∧ PyFloor.floor ((p + bu - bm) / bd) = PyFloor.floor ((x + u - m) / d) :=
  ⟨(((((hx.sub hu (by norm_num) (by norm_num)).mono (g' := 92) (k' := 180) (by norm_num) (by norm_num)).sub hm (by norm_num) (by norm_num)).div hd d0.ne' (by norm_num) (by norm_num)).floor_eq),
   (((((hx.add hu (by norm_num) (by norm_num)).mono (g' := 92) (k' := 180) (by norm_num) (by norm_num)).sub hm (by norm_num) (by norm_num)).div hd d0.ne' (by norm_num) (by norm_num)).floor_eq)⟩

theorem insert_same {c : PField B64} {f : PField Fl} (hf : FieldSame c f) {ax ay bx by' u : Fl}
    (hax : ax.Ordinary) (hay : ay.Ordinary) (hbx : bx.Ordinary) (hby : by'.Ordinary) (hu : u.Ordinary) :
    Alike FieldSame (c.insert ax.to64 ay.to64 bx.to64 by'.to64 u.to64) (f.insert ax ay bx by' u) := by
  have hb := hf.body
  unfold PField.insert
  cases h1 : c.body with
  | none =>
    cases h2 : f.body with
    | none => rfl
    | some b => rw [h1, h2] at hb; exact hb.elim
  | some s =>
  cases h2 : f.body with
  | none => rw [h1, h2] at hb; exact hb.elim
  | some b =>
  rw [h1, h2] at hb
  have hb : BodySame f.nrows f.ncols s b := hb
  obtain ⟨x1, x2⟩ := pyMin2_same hax hbx
  obtain ⟨x3, x4⟩ := pyMax2_same hax hbx
  obtain ⟨y1, y2⟩ := pyMin2_same hay hby
  obtain ⟨y3, y4⟩ := pyMax2_same hay hby
  have u2 : Same 184 80 (u.to64 * u.to64) (u * u) := hu.same.mul hu.same (by norm_num) (by norm_num)
  simp only [x1, x3, y1, y3, hf.nrows, hf.ncols, (window_same x2.same hu.same hb.xmin hf.dx hf.dx0).1, (window_same x4.same hu.same hb.xmin hf.dx hf.dx0).2,
    (window_same y2.same hu.same hb.ymin hf.dy hf.dy0).1, (window_same y4.same hu.same hb.ymin hf.dy hf.dy0).2, hb.rgrid]
  rw [foldlM_congr64 (ψ := fun g j => (intRange (max 0 (PyFloor.floor ((pyMin2 ay by' - u - b.ymin) / f.deltay))) (min (f.nrows : ℤ) (PyFloor.floor ((pyMax2 ay by' + u - b.ymin) / f.deltay) + 1))).foldlM
    (fun g i => f.insertCell b ax ay bx by' (u * u) g i j) g) (fun j hj g => foldlM_congr64 (fun i hi g => ?_) g)]
  · cases (intRange (max 0 (PyFloor.floor ((pyMin2 ax bx - u - b.xmin) / f.deltax))) (min (f.ncols : ℤ) (PyFloor.floor ((pyMax2 ax bx + u - b.xmin) / f.deltax) + 1))).foldlM
      (fun g j => (intRange (max 0 (PyFloor.floor ((pyMin2 ay by' - u - b.ymin) / f.deltay))) (min (f.nrows : ℤ) (PyFloor.floor ((pyMax2 ay by' + u - b.ymin) / f.deltay) + 1))).foldlM
        (fun g i => f.insertCell b ax ay bx by' (u * u) g i j) g) b.rgrid with
    | error e => rfl
    | ok g => exact ⟨hf.dx, hf.dx0, hf.dy, hf.dy0, rfl, rfl, ⟨hb.xmin, hb.xmax, hb.ymin, hb.ymax, hb.cols, hb.rows, hb.total, hb.prows, hb.pcols, hb.pval, rfl⟩⟩
  · have j' := (mem_intRange _ _ _).mp hj
    have i' := (mem_intRange _ _ _).mp hi
    have := insertCell_same hf hb hax hay hbx hby u2 g (i := i) (j := j) (by omega) (by omega) (by omega) (by omega)
    exact this

theorem register_same {c : PField B64} {f : PField Fl} (hf : FieldSame c f) {w : Fl} (hw : w.Ordinary) : Alike FieldSame (c.register w.to64) (f.register w) := by
  have hb := hf.body
  unfold PField.register
  cases h1 : c.body with
  | none =>
    cases h2 : f.body with
    | none => rfl
    | some b => rw [h1, h2] at hb; exact hb.elim
  | some s =>
  cases h2 : f.body with
  | none => rw [h1, h2] at hb; exact hb.elim
  | some b =>
  rw [h1, h2] at hb
  have hb : BodySame f.nrows f.ncols s b := hb
  simp only [hb.rgrid, hb.prows, hb.pcols]
  split_ifs with h
  · refine ⟨hf.dx, hf.dx0, hf.dy, hf.dy0, hf.nrows, hf.ncols, ⟨hb.xmin, hb.xmax, hb.ymin, hb.ymax, hb.cols, hb.rows, hb.total.addWeight hw.same, rfl, rfl, fun i j => ?_, rfl⟩⟩
    simp only
    split_ifs
    · exact (hb.pval i j).addWeight hw.same
    · exact hb.pval i j
  · rfl

theorem reset_same {c : PField B64} {f : PField Fl} (hf : FieldSame c f) : Alike FieldSame c.reset f.reset := by
  have hb := hf.body
  unfold PField.reset
  cases h1 : c.body with
  | none =>
    cases h2 : f.body with
    | none => rfl
    | some b => rw [h1, h2] at hb; exact hb.elim
  | some s =>
  cases h2 : f.body with
  | none => rw [h1, h2] at hb; exact hb.elim
  | some b =>
  rw [h1, h2] at hb
  have hb : BodySame f.nrows f.ncols s b := hb
  exact ⟨hf.dx, hf.dx0, hf.dy, hf.dy0, hf.nrows, hf.ncols, ⟨hb.xmin, hb.xmax, hb.ymin, hb.ymax, hb.cols, hb.rows, hb.total, hb.prows, hb.pcols, hb.pval, by simp only [hb.rgrid]⟩⟩

/-- the same outcome of a call -/
def OutcomeSame (a : PField B64 × Except PyErr Unit) (b : PField Fl × Except PyErr Unit) : Prop := FieldSame a.1 b.1 ∧ a.2 = b.2

theorem lift_same {c : PField B64} {f : PField Fl} (hf : FieldSame c f) {a : Except PyErr (PField B64)} {b : Except PyErr (PField Fl)} (h : Alike FieldSame a b) : OutcomeSame (c.lift a) (f.lift b) := by
  cases a with
  | error e =>
    cases b with
    | error e' => obtain rfl : e = e' := h; exact ⟨hf, rfl⟩
    | ok _ => exact h.elim
  | ok a =>
    cases b with
    | error e' => exact h.elim
    | ok b => exact ⟨h, rfl⟩

theorem rasterLoop_same (x y : List Fl) {u : Fl} (hx : ∀ a ∈ x, a.Ordinary) (hy : ∀ a ∈ y, a.Ordinary) (hu : u.Ordinary) (l : List ℕ) {c : PField B64} {f : PField Fl} (hf : FieldSame c f) :
    OutcomeSame (PField.rasterLoop (x.map Fl.to64) (y.map Fl.to64) u.to64 l c) (PField.rasterLoop x y u l f) := by
  induction l generalizing c f with
  | nil => exact ⟨hf, rfl⟩
  | cons i l ih =>
    unfold PField.rasterLoop
    simp only [List.getElem?_map]
    cases h1 : x[i]? with
    | none => exact ⟨hf, rfl⟩
    | some ax =>
    cases h2 : y[i]? with
    | none => exact ⟨hf, rfl⟩
    | some ay =>
    cases h3 : x[i+1]? with
    | none => exact ⟨hf, rfl⟩
    | some bx =>
    cases h4 : y[i+1]? with
    | none => exact ⟨hf, rfl⟩
    | some by' =>
    simp only [Option.map_some]
    have s := insert_same hf (hx ax (List.mem_of_getElem? h1)) (hy ay (List.mem_of_getElem? h2)) (hx bx (List.mem_of_getElem? h3)) (hy by' (List.mem_of_getElem? h4)) hu
    cases e1 : f.insert ax ay bx by' u with
    | error e =>
      cases e2 : c.insert ax.to64 ay.to64 bx.to64 by'.to64 u.to64 with
      | error e' => rw [e1, e2] at s; obtain rfl : e' = e := s; exact ⟨hf, rfl⟩
      | ok _ => rw [e1, e2] at s; exact s.elim
    | ok f' =>
      cases e2 : c.insert ax.to64 ay.to64 bx.to64 by'.to64 u.to64 with
      | error e' => rw [e1, e2] at s; exact s.elim
      | ok c' => rw [e1, e2] at s; exact ih s

theorem foldMin_same (l : List Fl) (h : ∀ a ∈ l, a.Ordinary) (a : Fl) (ha : a.Ordinary) :
    (l.map Fl.to64).foldl (fun m b => if b < m then b else m) a.to64 = (l.foldl (fun m b => if b < m then b else m) a).to64 ∧ (l.foldl (fun m b => if b < m then b else m) a).Ordinary := by
  induction l generalizing a with
  | nil => exact ⟨rfl, ha⟩
  | cons b l ih =>
    simp only [List.map_cons, List.foldl_cons]
    have hb := h b (by simp)
    by_cases c : b < a
    · rw [if_pos c, if_pos ((hb.same.lt_iff ha.same).mpr c)]; exact ih (fun x hx => h x (by simp [hx])) b hb
    · rw [if_neg c, if_neg (fun k => c ((hb.same.lt_iff ha.same).mp k))]; exact ih (fun x hx => h x (by simp [hx])) a ha

theorem foldMax_same (l : List Fl) (h : ∀ a ∈ l, a.Ordinary) (a : Fl) (ha : a.Ordinary) :
    (l.map Fl.to64).foldl (fun m b => if m < b then b else m) a.to64 = (l.foldl (fun m b => if m < b then b else m) a).to64 ∧ (l.foldl (fun m b => if m < b then b else m) a).Ordinary := by
  induction l generalizing a with
  | nil => exact ⟨rfl, ha⟩
  | cons b l ih =>
    simp only [List.map_cons, List.foldl_cons]
    have hb := h b (by simp)
    by_cases c : a < b
    · rw [if_pos c, if_pos ((ha.same.lt_iff hb.same).mpr c)]; exact ih (fun x hx => h x (by simp [hx])) b hb
    · rw [if_neg c, if_neg (fun k => c ((ha.same.lt_iff hb.same).mp k))]; exact ih (fun x hx => h x (by simp [hx])) a ha

theorem pyMin_same {l : List Fl} (h : ∀ a ∈ l, a.Ordinary) : pyMin (l.map Fl.to64) = (pyMin l).map Fl.to64 ∧ ∀ r, pyMin l = some r → r.Ordinary := by
  cases l with
  | nil => exact ⟨rfl, fun r hr => by cases hr⟩
  | cons a l =>
    have s := foldMin_same l (fun x hx => h x (by simp [hx])) a (h a (by simp))
    refine ⟨congrArg some s.1, fun r hr => ?_⟩
    obtain rfl := Option.some.inj hr
    exact s.2

theorem pyMax_same {l : List Fl} (h : ∀ a ∈ l, a.Ordinary) : pyMax (l.map Fl.to64) = (pyMax l).map Fl.to64 ∧ ∀ r, pyMax l = some r → r.Ordinary := by
  cases l with
  | nil => exact ⟨rfl, fun r hr => by cases hr⟩
  | cons a l =>
    have s := foldMax_same l (fun x hx => h x (by simp [hx])) a (h a (by simp))
    refine ⟨congrArg some s.1, fun r hr => ?_⟩
    obtain rfl := Option.some.inj hr
    exact s.2

theorem rasterize_same (x y : List Fl) {u : Fl} (hx : ∀ a ∈ x, a.Ordinary) (hy : ∀ a ∈ y, a.Ordinary) (hu : u.Ordinary) {c : PField B64} {f : PField Fl} (hf : FieldSame c f) :
    OptAlike OutcomeSame (c.rasterize (x.map Fl.to64) (y.map Fl.to64) u.to64) (f.rasterize x y u) := by
  unfold PField.rasterize
  rw [(pyMin_same hx).1, (pyMax_same hx).1, (pyMin_same hy).1, (pyMax_same hy).1]
  cases h1 : pyMin x with
  | none => exact ⟨hf, rfl⟩
  | some x0 =>
  cases h2 : pyMax x with
  | none => exact ⟨hf, rfl⟩
  | some x1 =>
  cases h3 : pyMin y with
  | none => exact ⟨hf, rfl⟩
  | some y0 =>
  cases h4 : pyMax y with
  | none => exact ⟨hf, rfl⟩
  | some y1 =>
  simp only [Option.map_some, List.length_map]
  have s := expand_same hf ((pyMin_same hx).2 x0 h1) ((pyMax_same hx).2 x1 h2) ((pyMin_same hy).2 y0 h3) ((pyMax_same hy).2 y1 h4)
  cases e1 : f.expand x0 x1 y0 y1 with
  | none =>
    cases e2 : c.expand x0.to64 x1.to64 y0.to64 y1.to64 with
    | none => trivial
    | some _ => rw [e1, e2] at s; exact s.elim
  | some r =>
    cases e2 : c.expand x0.to64 x1.to64 y0.to64 y1.to64 with
    | none => rw [e1, e2] at s; exact s.elim
    | some r' =>
      rw [e1, e2] at s
      cases r with
      | error e =>
        cases r' with
        | error e' => obtain rfl : e' = e := s; exact ⟨hf, rfl⟩
        | ok _ => exact s.elim
      | ok f' =>
        cases r' with
        | error e' => exact s.elim
        | ok c' => exact rasterLoop_same x y hx hy hu _ s

theorem step_same {c : PField B64} {f : PField Fl} (hf : FieldSame c f) (k : PField.Call Fl) (hk : k.Ordinary) : OptAlike OutcomeSame (c.step k.to64) (f.step k) := by
  cases k with
  | expand a b p q =>
    have s := expand_same hf hk.1 hk.2.1 hk.2.2.1 hk.2.2.2
    simp only [PField.step, PField.Call.to64]
    cases e1 : f.expand a b p q with
    | none =>
      cases e2 : c.expand a.to64 b.to64 p.to64 q.to64 with
      | none => trivial
      | some _ => rw [e1, e2] at s; exact s.elim
    | some r =>
      cases e2 : c.expand a.to64 b.to64 p.to64 q.to64 with
      | none => rw [e1, e2] at s; exact s.elim
      | some r' => rw [e1, e2] at s; exact lift_same hf s
  | insert ax ay bx by' u => exact lift_same hf (insert_same hf hk.1 hk.2.1 hk.2.2.1 hk.2.2.2.1 hk.2.2.2.2)
  | rasterize x y u => exact rasterize_same x y hk.1 hk.2.1 hk.2.2 hf
  | register w => exact lift_same hf (register_same hf hk)
  | reset => exact lift_same hf (reset_same hf)

theorem run_same (cs : List (PField.Call Fl)) (hc : ∀ k ∈ cs, k.Ordinary) {c : PField B64} {f : PField Fl} (hf : FieldSame c f) :
    OptAlike FieldSame (c.run (cs.map PField.Call.to64)) (f.run cs) := by
  induction cs generalizing c f with
  | nil => exact hf
  | cons k cs ih =>
    have s := step_same hf k (hc k (by simp))
    simp only [PField.run, List.map_cons]
    cases e1 : f.step k with
    | none =>
      cases e2 : c.step k.to64 with
      | none => trivial
      | some _ => rw [e1, e2] at s; exact s.elim
    | some r =>
      cases e2 : c.step k.to64 with
      | none => rw [e1, e2] at s; exact s.elim
      | some r' =>
        rw [e1, e2] at s
        exact ih (fun k hk => hc k (by simp [hk])) s.1

end Oneka
