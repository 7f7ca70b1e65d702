import Verif.Spec.Binary64
import Verif.Lemmas.Range
import Verif.Lemmas.FlFollow

/-! # A backtrace with binary64 numbers goes like a backtrace with unbounded exponents -/

namespace Oneka

/-- the same pair in both arithmetics -/
def PairSame (g k : ℤ) (b : B64 × B64) (v : Fl × Fl) : Prop := Same g k b.1 v.1 ∧ Same g k b.2 v.2

section
variable {g k g' k' : ℤ} {a b : B64} {x y : Fl} {u v : B64 × B64} {p q : Fl × Fl}

theorem Rng.of_val {c : ℤ} (h : 2 ^ (-c) ≤ |x.val|) (hb : |x.val| ≤ 2 ^ k) : Rng (c + 52) k x.val := by
  refine ⟨?_, hb⟩
  have := round53_multiple (Or.inr h)
  rwa [x.isFloat] at this

/-- better bounds -/
theorem Same.tight {c : ℤ} (h : Same g k a x) (h1 : 2 ^ (-c) ≤ |x.val|) (hb : |x.val| ≤ 2 ^ k') : Same (c + 52) k' a x := ⟨h.1, Rng.of_val h1 hb⟩

theorem Same.size (h : Same g k a x) (hb : |x.val| ≤ 2 ^ k') : Same g k' a x := ⟨h.1, h.2.1, hb⟩

/-- a quotient whose divisor is not small -/
theorem Same.div' {c : ℤ} (ha : Same g k a x) (hb : Same g' k' b y) (hy : 2 ^ (-c) ≤ y.val) (hg : g + k' ≤ 1022) (hk : k + c ≤ 1023) : Same (g + k' + 52) (k + c) (a / b) (x / y) := by
  have hy0 : 0 < y.val := lt_of_lt_of_le (two_zpow_pos _) hy
  have hp : 0 < |y.val| := abs_pos.mpr hy0.ne'
  have h1 : x.val / y.val = 0 ∨ 2 ^ (-(g + k')) ≤ |x.val / y.val| := by
    rcases eq_or_ne x.val 0 with hx | hx
    · exact .inl (by rw [hx, zero_div])
    · right
      rw [abs_div, le_div_iff₀ hp, neg_add, two_zpow_add]
      calc (2:ℝ) ^ (-g) * 2 ^ (-k') * |y.val| ≤ 2 ^ (-g) * 2 ^ (-k') * 2 ^ k' := mul_le_mul_of_nonneg_left hb.2.2 (by positivity)
        _ = 2 ^ (-g) := by rw [mul_assoc, ← two_zpow_add]; simp
        _ ≤ _ := ha.2.ge hx
  have h2 : |x.val / y.val| ≤ 2 ^ (k + c) := by
    rw [abs_div, div_le_iff₀ hp, two_zpow_add]
    calc |x.val| ≤ 2 ^ k := ha.2.2
      _ = 2 ^ k * 2 ^ c * 2 ^ (-c) := by rw [mul_assoc, ← two_zpow_add]; simp
      _ ≤ _ := mul_le_mul_of_nonneg_left (hy.trans (le_abs_self _)) (by positivity)
  have h := Same.of_size h1 h2 hg hk
  refine ⟨?_, h.2⟩
  show toBinary64 (a.v / b.v) = _
  rw [ha.1, hb.1, XR.fin_div _ _ hy0.ne']
  exact h.1

theorem Same.min2 (ha : Same g k a x) (hb : Same g k b y) : Same g k (pyMin2 a b) (pyMin2 x y) := by
  unfold pyMin2
  by_cases h : y < x
  · rw [if_pos h, if_pos ((hb.lt_iff ha).mpr h)]; exact hb
  · rw [if_neg h, if_neg (fun c => h ((hb.lt_iff ha).mp c))]; exact ha

/-- finite binary64 numbers are determined by their value -/
theorem Is64.eq (h : Is64 a x) (h' : Is64 b x) : a = b := by
  cases a; cases b
  have e : _ = _ := Eq.trans h (Eq.symm h')
  simp only at e
  subst e
  rfl

namespace PairSame

theorem mono (h : PairSame g k u p) (hg : g ≤ g') (hk : k ≤ k') : PairSame g' k' u p := ⟨h.1.mono hg hk, h.2.mono hg hk⟩

theorem is64 (h : PairSame g k u p) : Is64Pair u p := ⟨h.1.1, h.2.1⟩

theorem add (h : PairSame g k u p) (h' : PairSame g k v q) (hg : g ≤ 1022) (hk : k + 1 ≤ 1023) : PairSame g (k + 1) (u + v) (p + q) :=
  ⟨h.1.add h'.1 hg hk, h.2.add h'.2 hg hk⟩

theorem sub (h : PairSame g k u p) (h' : PairSame g k v q) (hg : g ≤ 1022) (hk : k + 1 ≤ 1023) : PairSame g (k + 1) (u - v) (p - q) :=
  ⟨h.1.sub h'.1 hg hk, h.2.sub h'.2 hg hk⟩

theorem sc (ha : Same g k a x) (h : PairSame g' k' u p) (hg : g + g' ≤ 1022) (hk : k + k' ≤ 1023) : PairSame (g + g') (k + k') (Oneka.sc a u) (Oneka.sc x p) :=
  ⟨ha.mul h.1 hg hk, ha.mul h.2 hg hk⟩

variable [LibM]

/-- velocities times coefficients -/
theorem scq (h : PairSame 781 40 u p) (c : ℚ) (h1 : (2:ℝ) ^ (-10 : ℤ) ≤ |(c:ℝ)|) (h2 : |(c:ℝ)| ≤ 2 ^ (4 : ℤ)) : PairSame 843 44 (Oneka.scq c u) (Oneka.scq c p) :=
  (PairSame.sc (Same.q (c := 10) (k := 4) c h1 h2 (by norm_num) (by norm_num)) h (by norm_num) (by norm_num)).mono (by norm_num) (by norm_num)

theorem more {w : B64 × B64} {r : Fl × Fl} (hw : PairSame 843 k w r) (h : PairSame 781 40 u p) (c : ℚ) (h1 : (2:ℝ) ^ (-10 : ℤ) ≤ |(c:ℝ)|) (h2 : |(c:ℝ)| ≤ 2 ^ (4 : ℤ)) (h0 : 44 ≤ k) (hk : k ≤ 100) :
    PairSame 843 (k + 1) (w + Oneka.scq c u) (r + Oneka.scq c p) :=
  hw.add ((h.scq c h1 h2).mono le_rfl h0) (by norm_num) (by omega)

theorem normInf (h : PairSame g k u p) (hg : g ≤ 1022) (hk : k ≤ 1023) : Same g k (Oneka.normInf u) (Oneka.normInf p) := (h.1.abs hg hk).fmax (h.2.abs hg hk) hg hk

theorem norm2 (h : PairSame 92 41 u p) : Same 236 83 (Oneka.norm2 u) (Oneka.norm2 p) := by
  have s := (h.1.mul h.1 (by norm_num) (by norm_num)).add (h.2.mul h.2 (by norm_num) (by norm_num)) (by norm_num) (by norm_num)
  have h0 : 0 ≤ (p.1 * p.1 + p.2 * p.2).val := by
    rw [Fl.add_val]
    exact round53_nonneg (add_nonneg (by rw [Fl.mul_val]; exact round53_nonneg (mul_self_nonneg _)) (by rw [Fl.mul_val]; exact round53_nonneg (mul_self_nonneg _)))
  exact (s.sqrt h0 (by norm_num) (by norm_num) (by norm_num) (by norm_num)).mono (by norm_num) (by norm_num)

end PairSame

/-- what is known of the two velocity functions: wherever the one answers, the place is ordinary, the answer is bounded, and the other gives the same answer there -/
structure Answers (fe64 : ℕ → B64 × B64 → Except PyErr (B64 × B64)) (fe : ℕ → Fl × Fl → Except PyErr (Fl × Fl)) (M : ℝ) : Prop where
  place : ∀ n q v, fe n q = .ok v → q.1.Ordinary ∧ q.2.Ordinary
  bound : ∀ n q v, fe n q = .ok v → ‖fv v‖ ≤ M
  same : ∀ n q v, fe n q = .ok v → ∃ v64, fe64 n (q.1.to64, q.2.to64) = .ok v64 ∧ PairSame 781 870 v64 v

theorem Fl.Ordinary.rng (h : x.Ordinary) : Rng 92 40 x.val := by
  rcases h with h | h
  · rw [h]; exact Rng.zero _ _
  · exact Rng.of_val h.1 h.2

theorem Fl.Ordinary.same64 (h : x.Ordinary) : Same 92 40 x.to64 x := Same.of_fl h.rng (by norm_num) (by norm_num)

variable [LibM] {fe64 : ℕ → B64 × B64 → Except PyErr (B64 × B64)} {fe : ℕ → Fl × Fl → Except PyErr (Fl × Fl)} {M : ℝ}

omit [LibM] in
/-- an evaluation -/
theorem Answers.at (A : Answers fe64 fe M) (hM : M ≤ 2 ^ (40 : ℤ)) {n : ℕ} (h : fe n q = .ok p) (hu : Is64Pair u q) :
    PairSame 92 40 u q ∧ ∃ v, fe64 n u = .ok v ∧ PairSame 781 40 v p := by
  obtain ⟨o1, o2⟩ := A.place _ _ _ h
  have e1 : u.1 = q.1.to64 := Is64.eq hu.1 o1.same64.1
  have e2 : u.2 = q.2.to64 := Is64.eq hu.2 o2.same64.1
  have e : u = (q.1.to64, q.2.to64) := Prod.ext e1 e2
  obtain ⟨v, h1, h2⟩ := A.same _ _ _ h
  have hb := (A.bound _ _ _ h).trans hM
  refine ⟨⟨e1 ▸ o1.same64, e2 ▸ o2.same64⟩, v, e ▸ h1, h2.1.size ?_, h2.2.size ?_⟩
  · exact (norm_fst_le (fv p)).trans hb
  · exact (norm_snd_le (fv p)).trans hb

/-- a trial step -/
theorem trial_same (A : Answers fe64 fe M) (hM : M ≤ 2 ^ (40 : ℤ)) {p64 k64 : B64 × B64} {p k1 xyt k7 : Fl × Fl} {d64 : B64} {d est ds : Fl} {n : ℕ} (hp : PairSame 92 40 p64 p)
    (hk : PairSame 781 40 k64 k1) (hd : Same 142 42 d64 d) (h : trial fe n p k1 d = .ok (xyt, k7, est, ds)) :
    ∃ x v e s, trial fe64 n p64 k64 d64 = .ok (x, v, e, s) ∧ PairSame 92 40 x xyt ∧ PairSame 781 40 v k7 ∧ Same 985 91 e est ∧ Same 236 83 s ds := by
  obtain ⟨k2, k3, k4, k5, k6, h2, h3, h4, h5, h6, hx, h7, he, hs⟩ := trial_evals h
  have pos : ∀ {w64 : B64 × B64} {w : Fl × Fl} {k : ℤ}, PairSame 843 k w64 w → k ≤ 48 → PairSame 985 91 (p64 + sc d64 w64) (p + sc d w) := by
    intro w64 w k hw hk
    have e1 : PairSame 985 90 (sc d64 w64) (sc d w) := (PairSame.sc hd (hw.mono le_rfl hk) (by norm_num) (by norm_num)).mono (by norm_num) (by norm_num)
    have e2 : PairSame 985 90 p64 p := hp.mono (by norm_num) (by norm_num)
    exact (e2.add e1 (by norm_num) (by norm_num)).mono (by norm_num) (by norm_num)
  obtain ⟨-, j2, f2, s2⟩ := A.at hM h2 (pos (hk.scq (1/5) (by norm_num) (by norm_num)) (by norm_num)).is64
  obtain ⟨-, j3, f3, s3⟩ := A.at hM h3 (pos ((hk.scq (3/40) (by norm_num) (by norm_num)).more s2 (9/40) (by norm_num) (by norm_num) (by norm_num) (by norm_num)) (by norm_num)).is64
  obtain ⟨-, j4, f4, s4⟩ := A.at hM h4 (pos (((hk.scq (44/45) (by norm_num) (by norm_num)).more s2 (-56/15) (by norm_num) (by norm_num) (by norm_num) (by norm_num)).more s3 (32/9) (by norm_num) (by norm_num)
    (by norm_num) (by norm_num)) (by norm_num)).is64
  obtain ⟨-, j5, f5, s5⟩ := A.at hM h5 (pos ((((hk.scq (19372/6561) (by norm_num) (by norm_num)).more s2 (-25360/2187) (by norm_num) (by norm_num) (by norm_num) (by norm_num)).more s3 (64448/6561) (by norm_num)
    (by norm_num) (by norm_num) (by norm_num)).more s4 (-212/729) (by norm_num) (by norm_num) (by norm_num) (by norm_num)) (by norm_num)).is64
  obtain ⟨-, j6, f6, s6⟩ := A.at hM h6 (pos (((((hk.scq (9017/3168) (by norm_num) (by norm_num)).more s2 (-355/33) (by norm_num) (by norm_num) (by norm_num) (by norm_num)).more s3 (46732/5247) (by norm_num)
    (by norm_num) (by norm_num) (by norm_num)).more s4 (49/176) (by norm_num) (by norm_num) (by norm_num) (by norm_num)).more s5 (-5103/18656) (by norm_num) (by norm_num) (by norm_num) (by norm_num))
    (by norm_num)).is64
  rw [hx] at h7
  obtain ⟨sx, j7, f7, s7⟩ := A.at hM h7 (pos (((((hk.scq (35/384) (by norm_num) (by norm_num)).more s3 (500/1113) (by norm_num) (by norm_num) (by norm_num) (by norm_num)).more s4 (125/192) (by norm_num)
    (by norm_num) (by norm_num) (by norm_num)).more s5 (-2187/6784) (by norm_num) (by norm_num) (by norm_num) (by norm_num)).more s6 (11/84) (by norm_num) (by norm_num) (by norm_num) (by norm_num))
    (by norm_num)).is64
  have se := ((((((hk.scq (71/57600) (by norm_num) (by norm_num)).more s7 (-1/40) (by norm_num) (by norm_num) (by norm_num) (by norm_num)).more s3 (-71/16695) (by norm_num) (by norm_num) (by norm_num)
    (by norm_num)).more s4 (71/1920) (by norm_num) (by norm_num) (by norm_num) (by norm_num)).more s5 (-17253/339200) (by norm_num) (by norm_num) (by norm_num) (by norm_num)).more s6 (22/525) (by norm_num)
    (by norm_num) (by norm_num) (by norm_num)).mono le_rfl (show (_:ℤ) ≤ 49 by norm_num)
  have se' := ((PairSame.sc hd se (by norm_num) (by norm_num)).normInf (by norm_num) (by norm_num)).mono (show (_:ℤ) ≤ 985 by norm_num) (show (_:ℤ) ≤ 91 by norm_num)
  have sd := (sx.sub hp (by norm_num) (by norm_num)).norm2
  refine ⟨_, j7, _, _, ?_, by rw [hx]; exact sx, s7, by rw [he]; exact se', by rw [hs, hx]; exact sd⟩
  unfold trial
  simp only [f2, f3, f4, f5, f6, f7, bind, Except.bind, pure, Except.pure]

/-! ## Step control -/

theorem EPS_same : Same 104 0 (EPS : B64) (EPS : Fl) := by
  have := Same.q (c := 52) (k := 0) (1 / 4503599627370496) (by norm_num) (by norm_num) (by norm_num) (by norm_num)
  exact this.mono (by norm_num) (by norm_num)

theorem plus_eps (h : Same g k a x) (h0 : 0 ≤ x.val) (hg : 104 ≤ g) (hk : 0 ≤ k) (hg' : g ≤ 1022) (hk' : k + 1 ≤ 1023) : Same g (k + 1) (a + EPS) (x + EPS) ∧ 2 ^ (-52 : ℤ) ≤ (x + EPS).val := by
  refine ⟨h.add (EPS_same.mono hg hk) hg' hk', ?_⟩
  rw [Fl.add_val, ← round53_zpow (-52)]
  exact round53_mono (by rw [EPS_fl]; linarith)

theorem root5_same (hroot : RootAccurate) (h : Same 236 92 a x) (h0 : 0 < x.val) : Same 289 93 (PyMath.root5 a) (PyMath.root5 x) := by
  refine h.root5 h0 ?_ (by norm_num) (by norm_num)
  have hx := h.2.ge h0.ne'
  have hx' := h.2.2
  rw [abs_of_pos h0] at hx hx'
  have r1 := (root5_min h0)
  have r2 : x.val ^ ((1:ℝ)/5) ≤ 2 ^ (92 : ℤ) := by
    rcases le_total x.val 1 with h1 | h1
    · exact (Real.rpow_le_one h0.le h1 (by norm_num)).trans (by norm_num)
    · refine le_trans ?_ hx'
      conv_rhs => rw [← Real.rpow_one x.val]
      exact Real.rpow_le_rpow_of_exponent_le h1 (by norm_num)
  have r3 : (2:ℝ) ^ (-236 : ℤ) ≤ x.val ^ ((1:ℝ)/5) := (le_min hx (by norm_num)).trans r1
  have hr := abs_le.mp (hroot x h0)
  set y := x.val ^ ((1:ℝ)/5) with hy
  have y0 : 0 < y := lt_of_lt_of_le (two_zpow_pos _) r3
  have e1 : (2:ℝ) ^ (-237 : ℤ) = 2 ^ (-236 : ℤ) / 2 := by norm_num
  have e2 : (2:ℝ) ^ (93 : ℤ) = 2 ^ (92 : ℤ) * 2 := by norm_num
  have p : 0 < (LibM.root5 x).val := by linarith
  refine (Rng.of_val (c := 237) ?_ ?_).mono (by norm_num) le_rfl
  · rw [abs_of_pos p, e1]
    generalize (2:ℝ) ^ (-236 : ℤ) = z at *
    linarith
  · rw [abs_of_pos p, e2]
    generalize (2:ℝ) ^ (92 : ℤ) = z at *
    linarith

variable {tol64 max64 : B64} {D tol maxstep : Fl}

theorem nextDt_same (hroot : RootAccurate) (ht : tol.Ordinary) (ht0 : 0 < tol.val) (hm : maxstep.Ordinary) {e s d64 : B64} {est ds d : Fl} (he : Same 985 91 e est)
    (he0 : 0 ≤ est.val) (hs : Same 236 83 s ds) (hs0 : 0 ≤ ds.val) (hd : Same 142 42 d64 d) :
    Same 484 136 (nextDt tol.to64 maxstep.to64 e s d64) (nextDt tol maxstep est ds d) := by
  obtain ⟨a1, a2⟩ := plus_eps he he0 (by norm_num) (by norm_num) (by norm_num) (by norm_num)
  obtain ⟨b1, b2⟩ := plus_eps hs hs0 (by norm_num) (by norm_num) (by norm_num) (by norm_num)
  have c1 : Same 236 92 (tol.to64 / (e + EPS)) (tol / (est + EPS)) := (ht.same64.div' a1 a2 (by norm_num) (by norm_num)).mono (by norm_num) (by norm_num)
  have c2 : Same 289 93 (maxstep.to64 / (s + EPS)) (maxstep / (ds + EPS)) := (hm.same64.div' b1 b2 (by norm_num) (by norm_num)).mono (by norm_num) (by norm_num)
  have p : 0 < (tol / (est + EPS)).val := by
    rw [Fl.div_val]
    exact round53_pos (div_pos ht0 (lt_of_lt_of_le (two_zpow_pos _) a2))
  have c3 := root5_same hroot c1 p
  have c4 : Same 289 93 (PyMath.q 10 : B64) (PyMath.q 10 : Fl) := (Same.q (c := 0) (k := 4) 10 (by norm_num) (by norm_num) (by norm_num) (by norm_num)).mono (by norm_num) (by norm_num)
  have c5 := (c3.min2 c2).min2 c4
  have c6 : Same 53 0 (PyMath.q (9/10) : B64) (PyMath.q (9/10) : Fl) := (Same.q (c := 1) (k := 0) (9/10) (by norm_num) (by norm_num) (by norm_num) (by norm_num)).mono (by norm_num) (by norm_num)
  exact ((c6.mul c5 (by norm_num) (by norm_num)).mul hd (by norm_num) (by norm_num)).mono (by norm_num) (by norm_num)

theorem clip_same (hD : D.Ordinary) (hD0 : 0 < D.val) {t64 dt64 : B64} {t dt : Fl} (ht : Same 142 44 t64 t) (t0 : 0 ≤ t.val) (hlt : t.val < D.val) (hdt : Same 142 46 dt64 dt) (d0 : 0 < dt.val) :
    Same 142 41 (clipDt D.to64 t64 dt64) (clipDt D t dt) := by
  have hDs := hD.same64
  have hDb : D.val ≤ 2 ^ (40 : ℤ) := by have := hDs.2.2; rwa [abs_of_pos hD0] at this
  have ht' : Same 142 40 t64 t := ht.size (by rw [abs_of_nonneg t0]; exact hlt.le.trans hDb)
  have s1 := ((ht'.mono le_rfl (show (40:ℤ) ≤ 46 by norm_num)).add hdt (by norm_num) (by norm_num)).abs (by norm_num) (by norm_num)
  have s2 := hDs.abs (by norm_num) (by norm_num)
  have s3 : Same 142 41 (D.to64 - t64) (D - t) := ((hDs.mono (by norm_num) le_rfl).sub ht' (by norm_num) (by norm_num)).mono le_rfl (by norm_num)
  unfold clipDt
  by_cases h : PyMath.abs D < PyMath.abs (t + dt)
  · rw [if_pos h, if_pos ((s2.lt_iff s1).mpr h)]; exact s3
  · rw [if_neg h, if_neg (fun c => h ((s2.lt_iff s1).mp c))]
    refine hdt.size ?_
    rw [Fl.lt_iff, abs_val, abs_val, not_lt, abs_of_pos hD0, Fl.add_val, abs_of_nonneg (round53_nonneg (by linarith))] at h
    rw [abs_of_pos d0]
    have h1 := round53_mono (show dt.val ≤ t.val + dt.val by linarith)
    rw [dt.isFloat] at h1
    exact (h1.trans h).trans (hDb.trans (by norm_num))

/-! ## The loop -/

/-- the two states are the same; the step size only as long as it is used -/
structure Shadow (D : Fl) (s64 : TState B64) (s : TState Fl) : Prop where
  t : Same 142 44 s64.t s.t
  dt : s.t.val < D.val → Same 142 46 s64.dt s.dt
  xy : PairSame 92 40 s64.xy s.xy
  k1 : PairSame 781 40 s64.k1 s.k1
  n : s64.n = s.n
  vs : List.Forall₂ Is64Pair s64.vs s.vs
  ss : List.Forall₂ Is64Step s64.ss s.ss

variable {S δ d : ℝ}

/-- one pass -/
theorem shadow_pass (hroot : RootAccurate) (A : Answers fe64 fe M) (hM : M ≤ 2 ^ (40 : ℤ)) (B : Bounded fe D.val tol.val maxstep.val M S δ d) (hd : 2 ^ (-90 : ℤ) ≤ d) (hD : D.Ordinary) (ht : tol.Ordinary)
    (hm : maxstep.Ordinary) {s64 : TState B64} {s : TState Fl} (I : Going D.val maxstep.val M S d s) (h : Shadow D s64 s) :
    (∀ r, titer ⟨D, tol, maxstep, fe⟩ s = .inl r → r.warning = none → ∃ r64, titer ⟨D.to64, tol.to64, maxstep.to64, fe64⟩ s64 = .inl r64 ∧ Is64Trace r64 r) ∧
    (∀ s', titer ⟨D, tol, maxstep, fe⟩ s = .inr s' → ∃ s64', titer ⟨D.to64, tol.to64, maxstep.to64, fe64⟩ s64 = .inr s64' ∧ Shadow D s64' s') := by
  have keep := fun s' e => B.keep hroot I (pass_of_titer (x := .inr s') e)
  have hDs := hD.same64
  have hDb : D.val ≤ 2 ^ (40 : ℤ) := by have := hDs.2.2; rwa [abs_of_pos B.D0] at this
  have hc : PyMath.abs s64.t < PyMath.abs D.to64 ↔ PyMath.abs s.t < PyMath.abs D := (h.t.abs (by norm_num) (by norm_num)).lt_iff (hDs.abs (by norm_num) (by norm_num))
  by_cases hlt : PyMath.abs s.t < PyMath.abs D
  swap
  · have e1 : titer ⟨D, tol, maxstep, fe⟩ s = .inl ⟨s.vs, s.ss, none⟩ := by unfold titer; rw [if_neg hlt]
    have e2 : titer ⟨D.to64, tol.to64, maxstep.to64, fe64⟩ s64 = .inl ⟨s64.vs, s64.ss, none⟩ := by unfold titer; rw [if_neg (fun c => hlt (hc.mp c))]
    rw [e1, e2]
    refine ⟨fun r e _ => ⟨_, rfl, ?_⟩, fun s' e => by simp at e⟩
    obtain rfl := Sum.inl.inj e
    exact ⟨h.vs, h.ss, trivial⟩
  have hlt' := B.lt I hlt
  have hcl := clip_same hD B.D0 h.t I.t0 hlt' (h.dt hlt') I.dt0
  obtain ⟨c1, -, -⟩ := clip_fl B.D0 I.t0 hlt' I.dt0
  have hnext : ∀ {e s1 : B64} {est ds : Fl}, Same 985 91 e est → 0 ≤ est.val → Same 236 83 s1 ds → 0 ≤ ds.val → d ≤ (nextDt tol maxstep est ds (clipDt D s.t s.dt)).val →
      Same 142 46 (nextDt tol.to64 maxstep.to64 e s1 (clipDt D.to64 s64.t s64.dt)) (nextDt tol maxstep est ds (clipDt D s.t s.dt)) := by
    intro e s1 est ds he he0 hs hs0 hle
    have hn := nextDt_same hroot ht B.tol0 hm he he0 hs hs0 (hcl.mono le_rfl (by norm_num))
    have hp := nextDt_fl_pos hroot.pos B.tol0 B.m0 he0 hs0 c1
    refine (hn.tight (c := 90) ?_ ?_).mono (by norm_num) le_rfl
    · rw [abs_of_pos hp]; exact hd.trans hle
    · rw [abs_of_pos hp]
      have h1 := (nextDt_fl_between hroot.pos B.tol0 B.m0 he0 hs0 c1.le rfl).2
      have h2 := mul_le_mul_of_nonneg_right (min_le_right (min (LibM.root5 (tol / (est + EPS))).val (maxstep / (ds + EPS)).val) 10) c1.le
      have h3 := hcl.2.2
      rw [abs_of_pos c1] at h3
      have e1 : (2:ℝ) ^ (46 : ℤ) = 32 * 2 ^ (41 : ℤ) := by norm_num
      rw [e1]
      have := two_zpow_pos 41
      linarith
  cases he : trial fe s.n s.xy s.k1 (clipDt D s.t s.dt) with
  | error e =>
    have e1 : titer ⟨D, tol, maxstep, fe⟩ s = .inl ⟨s.vs, s.ss, some s.t⟩ := by unfold titer; simp only [if_pos hlt, he]
    rw [e1]
    refine ⟨fun r e hw => ?_, fun s' e => by simp at e⟩
    obtain rfl := Sum.inl.inj e
    simp at hw
  | ok v =>
    obtain ⟨xyt, k2, est, ds⟩ := v
    obtain ⟨e0, s0⟩ := trial_nonneg_fl he
    obtain ⟨x, v, e, s1, f, hx, hv, hes, hds⟩ := trial_same A hM h.xy h.k1 (hcl.mono le_rfl (by norm_num)) he
    rw [← h.n] at f
    have hacc : (e < tol.to64 ∧ s1 < maxstep.to64) ↔ (est < tol ∧ ds < maxstep) := and_congr (hes.lt_iff ht.same64) (hds.lt_iff hm.same64)
    by_cases ha : est < tol ∧ ds < maxstep
    · have e1 : titer ⟨D, tol, maxstep, fe⟩ s = .inr ⟨s.t + clipDt D s.t s.dt, nextDt tol maxstep est ds (clipDt D s.t s.dt), xyt, k2, s.n+6, s.vs ++ [xyt],
          s.ss ++ [⟨s.t, clipDt D s.t s.dt, est, xyt⟩]⟩ := by unfold titer; simp only [if_pos hlt, he, if_pos ha]
      have e2 : titer ⟨D.to64, tol.to64, maxstep.to64, fe64⟩ s64 = .inr ⟨s64.t + clipDt D.to64 s64.t s64.dt, nextDt tol.to64 maxstep.to64 e s1 (clipDt D.to64 s64.t s64.dt), x, v, s64.n+6, s64.vs ++ [x],
          s64.ss ++ [⟨s64.t, clipDt D.to64 s64.t s64.dt, e, x⟩]⟩ := by unfold titer; simp only [if_pos (hc.mpr hlt), f, if_pos (hacc.mpr ha)]
      have K := keep _ e1
      rw [e1, e2]
      refine ⟨fun r e => by simp at e, fun s' e => ⟨_, rfl, ?_⟩⟩
      obtain rfl := Sum.inr.inj e
      have ht' : Same 142 41 s64.t s.t := h.t.size (by rw [abs_of_nonneg I.t0]; exact hlt'.le.trans (hDb.trans (by norm_num)))
      refine ⟨(ht'.add hcl (by norm_num) (by norm_num)).mono le_rfl (by norm_num), fun h' => hnext hes e0 hds s0 (K.dt h'), hx, hv, by rw [h.n], List.rel_append h.vs (.cons hx.is64 .nil), ?_⟩
      exact List.rel_append h.ss (.cons ⟨h.t.1, hcl.1, hes.1, hx.is64⟩ .nil)
    · have e1 : titer ⟨D, tol, maxstep, fe⟩ s = .inr ⟨s.t, nextDt tol maxstep est ds (clipDt D s.t s.dt), s.xy, s.k1, s.n+6, s.vs, s.ss⟩ := by
        unfold titer; simp only [if_pos hlt, he, if_neg ha]
      have e2 : titer ⟨D.to64, tol.to64, maxstep.to64, fe64⟩ s64 = .inr ⟨s64.t, nextDt tol.to64 maxstep.to64 e s1 (clipDt D.to64 s64.t s64.dt), s64.xy, s64.k1, s64.n+6, s64.vs, s64.ss⟩ := by
        unfold titer; simp only [if_pos (hc.mpr hlt), f, if_neg (fun c => ha (hacc.mp c))]
      have K := keep _ e1
      rw [e1, e2]
      refine ⟨fun r e => by simp at e, fun s' e => ⟨_, rfl, ?_⟩⟩
      obtain rfl := Sum.inr.inj e
      exact ⟨h.t, fun h' => hnext hes e0 hds s0 (K.dt h'), h.xy, h.k1, by rw [h.n], h.vs, h.ss⟩

/-- all passes -/
theorem shadow_run (hroot : RootAccurate) (A : Answers fe64 fe M) (hM : M ≤ 2 ^ (40 : ℤ)) (B : Bounded fe D.val tol.val maxstep.val M S δ d) (hd : 2 ^ (-90 : ℤ) ≤ d) (hD : D.Ordinary) (ht : tol.Ordinary)
    (hm : maxstep.Ordinary) {r : Trace Fl} (hw : r.warning = none) (k : ℕ) {s64 : TState B64} {s : TState Fl} (I : Going D.val maxstep.val M S d s) (h : Shadow D s64 s)
    (hr : tfuel ⟨D, tol, maxstep, fe⟩ k s = some r) : ∃ r64, tfuel ⟨D.to64, tol.to64, maxstep.to64, fe64⟩ k s64 = some r64 ∧ Is64Trace r64 r := by
  induction k generalizing s64 s with
  | zero => simp [tfuel] at hr
  | succ k ih =>
    obtain ⟨p1, p2⟩ := shadow_pass hroot A hM B hd hD ht hm I h
    simp only [tfuel] at hr ⊢
    cases e : titer ⟨D, tol, maxstep, fe⟩ s with
    | inl r' =>
      rw [e] at hr
      obtain rfl := Option.some.inj hr
      obtain ⟨r64, q1, q2⟩ := p1 _ e hw
      exact ⟨r64, by rw [q1], q2⟩
    | inr s' =>
      rw [e] at hr
      obtain ⟨s64', q1, q2⟩ := p2 _ e
      obtain ⟨r64, q3, q4⟩ := ih (B.keep hroot I (pass_of_titer e)) q2 hr
      exact ⟨r64, by rw [q1]; exact q3, q4⟩

/-- a whole trace -/
theorem shadow_trace (hroot : RootAccurate) (A : Answers fe64 fe M) (hM : M ≤ 2 ^ (40 : ℤ)) (B : Bounded fe D.val tol.val maxstep.val M S δ d) (hd : 2 ^ (-90 : ℤ) ≤ d) (hD : D.Ordinary) (ht : tol.Ordinary)
    (hm : maxstep.Ordinary) {xs ys : Fl} (hS : ‖fv (xs, ys)‖ ≤ S) {r : Trace Fl} (hw : r.warning = none) (hr : computeBacktrace xs ys D tol maxstep fe = some r) :
    ∃ r64, computeBacktrace xs.to64 ys.to64 D.to64 tol.to64 maxstep.to64 fe64 = some r64 ∧ Is64Trace r64 r := by
  cases hk : fe 0 (xs, ys) with
  | error e =>
    unfold computeBacktrace at hr
    rw [hk] at hr
    obtain rfl := Option.some.inj hr
    simp at hw
  | ok k1 =>
    obtain ⟨o1, o2⟩ := A.place _ _ _ hk
    obtain ⟨a1, v, a2, a3⟩ := A.at hM hk (u := (xs.to64, ys.to64)) ⟨o1.same64.1, o2.same64.1⟩
    rw [computeBacktrace_ok _ _ _ _ _ _ _ hk] at hr
    rw [computeBacktrace_ok _ _ _ _ _ _ _ a2]
    obtain ⟨k, hr⟩ := (tloop_eq_some _ _ _).mp hr
    have hs : Same 0 0 (PyMath.sign D.to64) (PyMath.sign D) := by
      have e1 : (PyMath.sign D).val = 1 := sign_pos_val B.D0
      have e2 : (PyMath.sign D.to64 : B64) = B64.of (.fin 1) := by
        show B64.of (PyMath.sign D.to64.v) = _
        rw [hD.same64.1]
        show B64.of (.fin (Real.sign D.val)) = _
        rw [Real.sign_of_pos B.D0]
      have := Same.of_fl (g := 0) (k := 0) (x := PyMath.sign D) (by rw [e1]; exact ⟨⟨1, by norm_num⟩, by norm_num⟩) (by norm_num) (by norm_num)
      rwa [e1, ← e2] at this
    have hdt : Same 142 46 (PyMath.q (1/10) * PyMath.sign D.to64) (PyMath.q (1/10) * PyMath.sign D : Fl) :=
      ((Same.q (c := 4) (k := 0) (1/10) (by norm_num) (by norm_num) (by norm_num) (by norm_num)).mul hs (by norm_num) (by norm_num)).mono (by norm_num) (by norm_num)
    have sh : Shadow D ⟨PyMath.q 0, PyMath.q (1/10) * PyMath.sign D.to64, (xs.to64, ys.to64), v, 1, [(xs.to64, ys.to64)], []⟩ ⟨PyMath.q 0, PyMath.q (1/10) * PyMath.sign D, (xs, ys), k1, 1, [(xs, ys)], []⟩ :=
      ⟨Same.q_zero (by norm_num) (by norm_num), fun _ => hdt, a1, a3, rfl, .cons a1.is64 .nil, .nil⟩
    obtain ⟨r64, q1, q2⟩ := shadow_run hroot A hM B hd hD ht hm hw k (B.start (A.bound _ _ _ hk) hS) sh hr
    exact ⟨r64, (tloop_eq_some _ _ _).mpr ⟨k, q1⟩, q2⟩

end
end Oneka
