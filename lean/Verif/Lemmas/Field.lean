import Verif.Spec.Field
import Verif.Tac
import Mathlib.Algebra.Order.Floor.Ring
import Mathlib.Algebra.Order.Archimedean.Basic
import Mathlib.Algebra.Order.Floor.Semiring

namespace Oneka
variable {K : Type} [Field K] [LinearOrder K] [IsStrictOrderedRing K] [FloorRing K]

/-! ### the growth loops -/

omit [FloorRing K] in
theorem growLow_run (x d g : K) (m n s : ℕ) (hstop : g - m * d < x)
    (hgo : ∀ k < m, x ≤ g - (k : K) * d) :
    growLow x d g n s = some (g - m * d, n + m, s + m) := by
  induction m generalizing g n s with
  | zero =>
    rw [growLow]
    simp at hstop ⊢
    simp [not_le.mpr hstop]
  | succ m ih =>
    rw [growLow]
    have h0 := hgo 0 (Nat.succ_pos _)
    simp at h0
    rw [if_pos h0, ih]
    · push_cast; congr 2
      · ring
      · congr 1 <;> omega
    · push_cast at hstop; linarith
    · intro k hk
      have := hgo (k+1) (by omega)
      push_cast at this; linarith

omit [FloorRing K] in
theorem growHigh_run (x d g : K) (m n : ℕ) (hstop : x < g + m * d)
    (hgo : ∀ k < m, g + (k : K) * d ≤ x) :
    growHigh x d g n = some (g + m * d, n + m) := by
  induction m generalizing g n with
  | zero =>
    rw [growHigh]
    simp at hstop ⊢
    simp [not_le.mpr hstop]
  | succ m ih =>
    rw [growHigh]
    have h0 := hgo 0 (Nat.succ_pos _)
    simp at h0
    rw [if_pos h0, ih]
    · push_cast; congr 2
      · ring
      · omega
    · push_cast at hstop; linarith
    · intro k hk
      have := hgo (k+1) (by omega)
      push_cast at this; linarith

theorem exists_low_count (x d g : K) (hd : 0 < d) :
    ∃ m : ℕ, g - m * d < x ∧ ∀ k < m, x ≤ g - (k : K) * d := by
  have := FloorRing.archimedean K
  have hex : ∃ m : ℕ, g - m * d < x := by
    obtain ⟨m, hm⟩ := exists_nat_gt ((g - x) / d)
    refine ⟨m, ?_⟩
    rw [div_lt_iff₀ hd] at hm
    linarith
  classical
  refine ⟨Nat.find hex, Nat.find_spec hex, fun k hk => ?_⟩
  exact not_lt.mp (Nat.find_min hex hk)

theorem exists_high_count (x d g : K) (hd : 0 < d) :
    ∃ m : ℕ, x < g + m * d ∧ ∀ k < m, g + (k : K) * d ≤ x := by
  obtain ⟨m, h1, h2⟩ := exists_low_count (-x) d (-g) hd
  exact ⟨m, by linarith, fun k hk => by linarith [h2 k hk]⟩

namespace PField

/-- Everything `expand` does to a field that already has a grid. -/
structure Expanded (f : PField K) (b : Body K) (xmin xmax ymin ymax : K)
    (f' : PField K) (b' : Body K) (ml mr mb mt : ℕ) : Prop where
  l_stop : b.xmin - ml * f.deltax < xmin
  l_go : ∀ k < ml, xmin ≤ b.xmin - (k : K) * f.deltax
  r_stop : xmax < b.xmax + mr * f.deltax
  r_go : ∀ k < mr, b.xmax + (k : K) * f.deltax ≤ xmax
  b_stop : b.ymin - mb * f.deltay < ymin
  b_go : ∀ k < mb, ymin ≤ b.ymin - (k : K) * f.deltay
  t_stop : ymax < b.ymax + mt * f.deltay
  t_go : ∀ k < mt, b.ymax + (k : K) * f.deltay ≤ ymax
  dx : f'.deltax = f.deltax
  dy : f'.deltay = f.deltay
  body : f'.body = some b'
  ncols : f'.ncols = f.ncols + ml + mr
  nrows : f'.nrows = f.nrows + mb + mt
  xmin_eq : b'.xmin = b.xmin - ml * f.deltax
  xmax_eq : b'.xmax = b.xmax + mr * f.deltax
  ymin_eq : b'.ymin = b.ymin - mb * f.deltay
  ymax_eq : b'.ymax = b.ymax + mt * f.deltay
  total : b'.totalWeight = b.totalWeight
  prows : b'.pgrid.rows = f'.nrows
  pcols : b'.pgrid.cols = f'.ncols
  rrows : b'.rgrid.rows = f'.nrows
  rcols : b'.rgrid.cols = f'.ncols
  pval : ∀ i j, i < f'.nrows → j < f'.ncols → b'.pgrid.val i j =
    if mb ≤ i ∧ i < mb + f.nrows ∧ ml ≤ j ∧ j < ml + f.ncols then b.pgrid.val (i - mb) (j - ml) else 0
  rval : ∀ i j, i < f'.nrows → j < f'.ncols → b'.rgrid.val i j =
    if mb ≤ i ∧ i < mb + f.nrows ∧ ml ≤ j ∧ j < ml + f.ncols then b.rgrid.val (i - mb) (j - ml) else false
  same : ml = 0 → mr = 0 → mb = 0 → mt = 0 → f' = f

theorem expand_grid (f : PField K) (b : Body K) (hf : f.WF) (hb : f.body = some b)
    (xmin xmax ymin ymax : K) (hx : xmin ≤ xmax) (hy : ymin ≤ ymax) :
    ∃ f' b' ml mr mb mt, f.expand xmin xmax ymin ymax = some (.ok f') ∧
      Expanded f b xmin xmax ymin ymax f' b' ml mr mb mt := by
  obtain ⟨hr3, hc3, hxm, hym, hpr, hpc, hrr, hrc⟩ := hf.grid b hb
  obtain ⟨ml, l1, l2⟩ := exists_low_count xmin f.deltax b.xmin hf.dx_pos
  obtain ⟨mr, r1, r2⟩ := exists_high_count xmax f.deltax b.xmax hf.dx_pos
  obtain ⟨mb, b1, b2⟩ := exists_low_count ymin f.deltay b.ymin hf.dy_pos
  obtain ⟨mt, t1, t2⟩ := exists_high_count ymax f.deltay b.ymax hf.dy_pos
  have hne : ¬ (f.ncols = 0 ∨ f.nrows = 0) := by omega
  by_cases hch : f.nrows + mb + mt ≠ f.nrows ∨ f.ncols + ml + mr ≠ f.ncols
  · refine ⟨{ f with nrows := f.nrows + mb + mt, ncols := f.ncols + ml + mr,
                     body := some { b with
                      xmin := b.xmin - ml * f.deltax, xmax := b.xmax + mr * f.deltax,
                      ymin := b.ymin - mb * f.deltay, ymax := b.ymax + mt * f.deltay,
                      pgrid := ⟨f.nrows + mb + mt, f.ncols + ml + mr, fun p q =>
                        if 0 + mb ≤ p ∧ p < 0 + mb + b.pgrid.rows ∧ 0 + ml ≤ q ∧ q < 0 + ml + b.pgrid.cols then
                          b.pgrid.val (p - (0 + mb)) (q - (0 + ml)) else 0⟩
                      rgrid := ⟨f.nrows + mb + mt, f.ncols + ml + mr, fun p q =>
                        if 0 + mb ≤ p ∧ p < 0 + mb + b.rgrid.rows ∧ 0 + ml ≤ q ∧ q < 0 + ml + b.rgrid.cols then
                          b.rgrid.val (p - (0 + mb)) (q - (0 + ml)) else false⟩ } }, _, ml, mr, mb, mt, ?_,
        { l_stop := l1, l_go := l2, r_stop := r1, r_go := r2, b_stop := b1, b_go := b2,
          t_stop := t1, t_go := t2, dx := rfl, dy := rfl, body := rfl, ncols := rfl, nrows := rfl,
          xmin_eq := rfl, xmax_eq := rfl, ymin_eq := rfl, ymax_eq := rfl, total := rfl,
          prows := rfl, pcols := rfl, rrows := rfl, rcols := rfl, pval := ?_, rval := ?_, same := ?_ }⟩
    · unfold expand
      rw [if_neg (not_lt.mpr hx), if_neg (not_lt.mpr hy), if_neg hne, hb]
      simp only [growLow_run _ _ _ ml _ _ l1 l2, growHigh_run _ _ _ mr _ r1 r2,
        growLow_run _ _ _ mb _ _ b1 b2, growHigh_run _ _ _ mt _ t1 t2]
      rw [if_pos hch]
      have h1 : min (0 + mb + f.nrows) (f.nrows + mb + mt) - (0 + mb) = f.nrows := by omega
      have h2 : min (0 + ml + f.ncols) (f.ncols + ml + mr) - (0 + ml) = f.ncols := by omega
      simp only [Grid.blit, Grid.full, hrr, hrc, hpr, hpc, h1, h2, and_self, if_true]
    · intro i j _ _; simp only [hpr, hpc, Nat.zero_add]
    · intro i j _ _; simp only [hrr, hrc, Nat.zero_add]
    · intro h1 h2 h3 h4; omega
  · push Not at hch
    have z1 : ml = 0 := by omega
    have z2 : mr = 0 := by omega
    have z3 : mb = 0 := by omega
    have z4 : mt = 0 := by omega
    subst z1 z2 z3 z4
    refine ⟨f, b, 0, 0, 0, 0, ?_,
        { l_stop := l1, l_go := l2, r_stop := r1, r_go := r2, b_stop := b1, b_go := b2,
          t_stop := t1, t_go := t2, dx := rfl, dy := rfl, body := hb, ncols := rfl, nrows := rfl,
          xmin_eq := by simp, xmax_eq := by simp, ymin_eq := by simp, ymax_eq := by simp, total := rfl,
          prows := hpr, pcols := hpc, rrows := hrr, rcols := hrc, pval := ?_, rval := ?_, same := ?_ }⟩
    · unfold expand
      rw [if_neg (not_lt.mpr hx), if_neg (not_lt.mpr hy), if_neg hne, hb]
      simp only [growLow_run _ _ _ 0 _ _ l1 l2, growHigh_run _ _ _ 0 _ r1 r2,
        growLow_run _ _ _ 0 _ _ b1 b2, growHigh_run _ _ _ 0 _ t1 t2]
      rw [if_neg (by simp)]
      simp only [Nat.cast_zero, zero_mul, sub_zero, add_zero, ← hb]
    · intro i j hi hj; rw [if_pos (by omega)]; simp
    · intro i j hi hj; rw [if_pos (by omega)]; simp
    · intros; rfl

end PField
end Oneka
