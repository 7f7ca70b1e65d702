import Verif.Spec.Binary64
import Verif.Lemmas.Range
import Mathlib.Analysis.Complex.ExponentialBounds

/-! The functions of the aquifer model on binary64 numbers of ordinary size: bounds for all intermediate results. -/

namespace Oneka

theorem Fl.Ordinary.same {x : Fl} (h : x.Ordinary) : Same 92 40 x.to64 x := by
  have hm : Rng 92 40 x.val := by
    rcases h with h | h
    · rw [h]; exact Rng.zero _ _
    · obtain ⟨n, hn⟩ := round53_multiple (a := 40) (Or.inr h.1)
      rw [x.isFloat] at hn
      exact ⟨⟨n, by rw [hn]; norm_num⟩, h.2⟩
  exact Same.of_fl hm (by norm_num) (by norm_num)

/-- floats next to one -/
theorem fl_above_one {x : Fl} (h : 1 < x.val) : 1 + 2 ^ (-52 : ℤ) ≤ x.val := by
  have hx : (2:ℝ) ^ (-(0:ℤ)) ≤ |x.val| := by rw [abs_of_pos (by linarith)]; simpa using h.le
  obtain ⟨n, hn⟩ := round53_multiple (Or.inr hx)
  rw [x.isFloat] at hn
  have e : (-(0 + 52) : ℤ) = -52 := by norm_num
  rw [e] at hn
  have p := two_zpow_pos (-52)
  have h52 : (2:ℝ) ^ (-52 : ℤ) * 2 ^ 52 = 1 := by
    rw [← zpow_natCast, ← two_zpow_add]; norm_num
  have h1 : (2:ℤ) ^ 52 < n := by
    by_contra hc
    have : (n:ℝ) ≤ 2 ^ 52 := by exact_mod_cast not_lt.mp hc
    rw [hn] at h
    nlinarith
  have h2 : ((2:ℝ) ^ 52 + 1) ≤ n := by exact_mod_cast h1
  rw [hn]
  nlinarith

theorem fl_below_one {x : Fl} (h : x.val < 1) : x.val ≤ 1 - 2 ^ (-53 : ℤ) := by
  by_cases hh : x.val < 1 / 2
  · have : (2:ℝ) ^ (-53 : ℤ) ≤ 2 ^ (-1 : ℤ) := two_zpow_le (by norm_num)
    norm_num at this ⊢
    linarith
  have hx : (2:ℝ) ^ (-(1:ℤ)) ≤ |x.val| := by rw [abs_of_pos (by linarith)]; norm_num; linarith
  obtain ⟨n, hn⟩ := round53_multiple (Or.inr hx)
  rw [x.isFloat] at hn
  have e : (-(1 + 52) : ℤ) = -53 := by norm_num
  rw [e] at hn
  have p := two_zpow_pos (-53)
  have h52 : (2:ℝ) ^ (-53 : ℤ) * 2 ^ 53 = 1 := by
    rw [← zpow_natCast, ← two_zpow_add]; norm_num
  have h1 : n < (2:ℤ) ^ 53 := by
    by_contra hc
    have : (2:ℝ) ^ 53 ≤ n := by exact_mod_cast not_lt.mp hc
    rw [hn] at h
    nlinarith
  have h2 : (n:ℝ) + 1 ≤ 2 ^ 53 := by exact_mod_cast h1
  rw [hn]
  nlinarith

/-- the logarithm of a float is zero or not small -/
theorem log_size {x : Fl} (h : 0 < x.val) : Real.log x.val = 0 ∨ 2 ^ (-54 : ℤ) ≤ |Real.log x.val| := by
  rcases lt_trichotomy x.val 1 with h1 | h1 | h1
  · right
    have a := fl_below_one h1
    have b := Real.log_le_sub_one_of_pos h
    have c : (2:ℝ) ^ (-54 : ℤ) ≤ 2 ^ (-53 : ℤ) := two_zpow_le (by norm_num)
    rw [abs_of_nonpos (by linarith [two_zpow_pos (-53)])]
    linarith
  · exact .inl (by rw [h1, Real.log_one])
  · right
    have a := fl_above_one h1
    rw [abs_of_pos (Real.log_pos h1)]
    have c : (2:ℝ) ^ (-52 : ℤ) = 4 * 2 ^ (-54 : ℤ) := by rw [show (-52:ℤ) = 2 + -54 by norm_num, two_zpow_add]; norm_num
    have c1 : (2:ℝ) ^ (-54 : ℤ) ≤ 1 / 4 := by
      have := two_zpow_le (show (-54:ℤ) ≤ -2 by norm_num)
      norm_num at this ⊢
    have p := two_zpow_pos (-54)
    have hl := Real.one_sub_inv_le_log_of_pos h
    refine le_trans ?_ hl
    have hi : x.val⁻¹ ≤ (1 + 4 * 2 ^ (-54 : ℤ))⁻¹ := inv_anti₀ (by linarith) (by rw [← c]; exact a)
    have hk : (1 + 4 * (2:ℝ) ^ (-54 : ℤ))⁻¹ ≤ 1 - 2 ^ (-54 : ℤ) := by
      rw [inv_le_iff_one_le_mul₀ (by linarith)]
      generalize (2:ℝ) ^ (-54 : ℤ) = u at c1 p ⊢
      nlinarith
    linarith

theorem log_le {g k : ℤ} {x : ℝ} (h : 0 < x) (hr : Rng g k x) (hg : g ≤ 1024) (hk : k ≤ 1024) : |Real.log x| ≤ 2 ^ (10 : ℤ) := by
  have h1 := hr.ge h.ne'
  have h2 := hr.2
  rw [abs_of_pos h] at h1 h2
  have h1' : (2:ℝ) ^ (-1024 : ℤ) ≤ x := (two_zpow_le (by omega)).trans h1
  have h2' : x ≤ (2:ℝ) ^ (1024 : ℤ) := h2.trans (two_zpow_le hk)
  have l1 := Real.log_le_log (two_zpow_pos _) h1'
  have l2 := Real.log_le_log h h2'
  rw [Real.log_zpow] at l1 l2
  have l := Real.log_two_lt_d9
  have l0 := Real.log_two_gt_d9
  rw [abs_le]
  push_cast at l1 l2
  norm_num
  constructor <;> nlinarith

variable [LibM]

theorem log_rng (hl : LogAccurate) {g k : ℤ} {x : Fl} (h : 0 < x.val) (hr : Rng g k x.val) (hg : g ≤ 1024) (hk : k ≤ 1024) : Rng 107 11 (LibM.log x).val := by
  have e := hl x h
  have p : (2:ℝ) ^ (-52 : ℤ) ≤ 1 / 2 := by
    have := two_zpow_le (show (-52:ℤ) ≤ -1 by norm_num)
    norm_num at this ⊢
  have hb := log_le h hr hg hk
  have hup : |(LibM.log x).val| ≤ 2 ^ (11 : ℤ) := by
    have t := abs_sub_abs_le_abs_sub (LibM.log x).val (Real.log x.val)
    rw [show (11:ℤ) = 1 + 10 by norm_num, two_zpow_add]
    norm_num at hb ⊢
    generalize (2:ℝ) ^ (-52 : ℤ) = u at e p
    nlinarith [abs_nonneg (Real.log x.val)]
  refine ⟨?_, hup⟩
  have hs : (LibM.log x).val = 0 ∨ 2 ^ (-55 : ℤ) ≤ |(LibM.log x).val| := by
    rcases log_size h with h0 | h0
    · left
      rw [h0, abs_zero, mul_zero, sub_zero] at e
      exact abs_nonpos_iff.mp e
    · right
      have t := abs_sub_abs_le_abs_sub (Real.log x.val) (LibM.log x).val
      rw [abs_sub_comm] at t
      have c : (2:ℝ) ^ (-54 : ℤ) = 2 * 2 ^ (-55 : ℤ) := by rw [show (-54:ℤ) = 1 + -55 by norm_num, two_zpow_add]; norm_num
      rw [c] at h0
      generalize (2:ℝ) ^ (-55 : ℤ) = z at h0 ⊢
      generalize (2:ℝ) ^ (-52 : ℤ) = u at e p
      nlinarith [abs_nonneg (Real.log x.val)]
  obtain ⟨n, hn⟩ := round53_multiple (a := 55) hs
  rw [(LibM.log x).isFloat] at hn
  exact ⟨n, by rw [hn]; norm_num⟩

/-- a partial sum of `j` terms -/
def Partial (g k : ℤ) (j : ℕ) (b : B64) (x : Fl) : Prop := b.v = .fin x.val ∧ (∃ n : ℤ, x.val = n * 2 ^ (-g)) ∧ |x.val| ≤ j * 2 ^ k

omit [LibM] in
theorem Partial.add {g k : ℤ} {j : ℕ} {b c : B64} {x y : Fl} (h : Partial g k j b x) (hc : Same g k c y) (hj : j + 1 ≤ 2 ^ 53) (hg : g ≤ 1022) (hk : k + 53 ≤ 1023) :
    Partial g k (j + 1) (b + c) (x + y) := by
  obtain ⟨h1, ⟨n, hn⟩, h3⟩ := h
  obtain ⟨m, hm⟩ := hc.2.1
  have hb : |x.val + y.val| ≤ ((j + 1 : ℕ) : ℝ) * 2 ^ k := by
    refine (abs_add_le _ _).trans ?_
    push_cast
    have := hc.2.2
    linarith
  have hR : Rng g (k + 53) (x.val + y.val) := by
    refine ⟨⟨n + m, by rw [hn, hm]; push_cast; ring⟩, hb.trans ?_⟩
    rw [add_comm k, two_zpow_add]
    refine mul_le_mul_of_nonneg_right ?_ (two_zpow_pos k).le
    have : ((j + 1 : ℕ) : ℝ) ≤ ((2 ^ 53 : ℕ) : ℝ) := by exact_mod_cast hj
    refine this.trans (le_of_eq ?_)
    push_cast
    norm_num
  have s := Same.of_rng hR hg hk
  refine ⟨?_, s.2.1, ?_⟩
  · show toBinary64 (b.v + c.v) = _
    rw [h1, hc.1]
    exact s.1
  · show |round53 (x.val + y.val)| ≤ _
    have hz : round53 (((j + 1 : ℕ) : ℝ) * 2 ^ k) = ((j + 1 : ℕ) : ℝ) * 2 ^ k := by
      have := round53_exact (j + 1 : ℕ) k (by rw [abs_of_nonneg (by positivity)]; exact_mod_cast hj)
      exact_mod_cast this
    rw [abs_le] at hb ⊢
    have b1 := round53_mono hb.1
    have b2 := round53_mono hb.2
    rw [round53_neg, hz] at b1
    rw [hz] at b2
    exact ⟨b1, b2⟩

omit [LibM] in
theorem Partial.fold {α : Type} {g k : ℤ} (l : List α) (tb : α → B64) (tx : α → Fl) (ht : ∀ a ∈ l, Same g k (tb a) (tx a)) {j : ℕ} {b : B64} {x : Fl} (h : Partial g k j b x)
    (hj : j + l.length ≤ 2 ^ 53) (hg : g ≤ 1022) (hk : k + 53 ≤ 1023) :
    Partial g k (j + l.length) (l.foldl (fun p a => p + tb a) b) (l.foldl (fun p a => p + tx a) x) := by
  induction l generalizing j b x with
  | nil => exact h
  | cons a l ih =>
    simp only [List.length_cons] at hj
    have := ih (fun c hc => ht c (List.mem_cons_of_mem _ hc)) (h.add (ht a List.mem_cons_self) (by omega) hg hk) (by omega)
    simp only [List.foldl_cons, List.length_cons]
    rwa [show j + (l.length + 1) = j + 1 + l.length by ring]

omit [LibM] in
theorem Partial.same {g k : ℤ} {j : ℕ} {b : B64} {x : Fl} (h : Partial g k j b x) (hj : j ≤ 2 ^ 41) : Same g (k + 41) b x := by
  refine ⟨h.1, h.2.1, h.2.2.trans ?_⟩
  rw [add_comm k, two_zpow_add]
  refine mul_le_mul_of_nonneg_right ?_ (two_zpow_pos k).le
  have : (j : ℝ) ≤ ((2 ^ 41 : ℕ) : ℝ) := by exact_mod_cast hj
  refine this.trans (le_of_eq ?_)
  push_cast
  norm_num

omit [LibM] in
theorem Same.partial {g k : ℤ} {b : B64} {x : Fl} (h : Same g k b x) : Partial g k 1 b x := ⟨h.1, h.2.1, by simpa using h.2.2⟩

theorem q_two : Same 51 1 (PyMath.q 2 : B64) (PyMath.q 2 : Fl) := by
  have := Same.q (c := -1) (k := 1) 2 (by norm_num) (by norm_num) (by norm_num) (by norm_num)
  norm_num at this
  exact this

theorem q_half : Same 53 0 (PyMath.q (1/2) : B64) (PyMath.q (1/2) : Fl) := by
  have := Same.q (c := 1) (k := 0) (1/2) (by norm_num) (by norm_num) (by norm_num) (by norm_num)
  exact this

theorem q_fourPiInv : Same 56 0 (PyMath.q Aquifer.fourPiInv : B64) (PyMath.q Aquifer.fourPiInv : Fl) := by
  have := Same.q (c := 4) (k := 0) Aquifer.fourPiInv (by unfold Aquifer.fourPiInv; norm_num [abs_of_pos]) (by unfold Aquifer.fourPiInv; norm_num [abs_of_pos]) (by norm_num) (by norm_num)
  exact this

theorem q_twoPiInv : Same 55 0 (PyMath.q Aquifer.twoPiInv : B64) (PyMath.q Aquifer.twoPiInv : Fl) := by
  have := Same.q (c := 3) (k := 0) Aquifer.twoPiInv (by unfold Aquifer.twoPiInv; norm_num [abs_of_pos]) (by unfold Aquifer.twoPiInv; norm_num [abs_of_pos]) (by norm_num) (by norm_num)
  exact this

omit [LibM] in
/-- the squared distance is not zero -/
theorem r2_pos {x y xw yw : Fl} (h : x.val ≠ xw.val ∨ y.val ≠ yw.val) : 0 < ((x - xw) * (x - xw) + (y - yw) * (y - yw) : Fl).val := by
  have sq : ∀ a b : Fl, 0 ≤ ((a - b) * (a - b) : Fl).val := by
    intro a b
    show 0 ≤ round53 (round53 (a.val - b.val) * round53 (a.val - b.val))
    have := round53_mono (mul_self_nonneg (round53 (a.val - b.val)))
    rwa [round53_zero] at this
  have sqp : ∀ a b : Fl, a.val ≠ b.val → 0 < ((a - b) * (a - b) : Fl).val := by
    intro a b hab
    show 0 < round53 (round53 (a.val - b.val) * round53 (a.val - b.val))
    refine round53_pos (mul_self_pos.mpr ?_)
    intro h0
    have ha := round53_accurate (a.val - b.val)
    rw [h0, zero_sub, abs_neg] at ha
    have : |a.val - b.val| = 0 := by
      have p : (2:ℝ) ^ (-53 : ℤ) ≤ 1 / 2 := by
        have := two_zpow_le (show (-53:ℤ) ≤ -1 by norm_num)
        norm_num at this ⊢
      generalize (2:ℝ) ^ (-53 : ℤ) = u at ha p
      nlinarith [abs_nonneg (a.val - b.val)]
    exact hab (by linarith [abs_eq_zero.mp this])
  refine round53_pos ?_
  rcases h with h | h
  · linarith [sqp _ _ h, sq y yw]
  · linarith [sqp _ _ h, sq x xw]

omit [LibM] in
theorem Alike.weaken {α β : Type} {R S : α → β → Prop} {a : Except PyErr α} {b : Except PyErr β} (hr : Alike R a b) (h : ∀ a b, R a b → S a b) : Alike S a b := by
  cases a <;> cases b
  · exact hr
  · exact hr
  · exact hr
  · exact h _ _ hr

namespace Aquifer
variable {m : Aquifer Fl} {x y : Fl}

omit [LibM] in
/-- the point and the well -/
theorem same_r2 (hm : m.Ordinary) (hx : x.Ordinary) (hy : y.Ordinary) {w : Well Fl} (hw : w ∈ m.wells) :
    Same 92 41 (x.to64 - w.xw.to64) (x - w.xw) ∧ Same 92 41 (y.to64 - w.yw.to64) (y - w.yw) ∧
    Same 184 83 ((x.to64 - w.xw.to64) * (x.to64 - w.xw.to64) + (y.to64 - w.yw.to64) * (y.to64 - w.yw.to64)) ((x - w.xw) * (x - w.xw) + (y - w.yw) * (y - w.yw)) := by
  obtain ⟨h1, h2, -⟩ := hm.wells w hw
  have dx := hx.same.sub h1.same (by norm_num) (by norm_num)
  have dy := hy.same.sub h2.same (by norm_num) (by norm_num)
  exact ⟨dx, dy, (dx.mul dx (by norm_num) (by norm_num)).add (dy.mul dy (by norm_num) (by norm_num)) (by norm_num) (by norm_num)⟩

theorem same_wells (hl : LogAccurate) (hm : m.Ordinary) (hx : x.Ordinary) (hy : y.Ordinary) (ho : m.exact.OffWells x.val y.val) :
    Same 255 92 (m.to64.potentialWells x.to64 y.to64) (m.potentialWells x y) := by
  have ht : ∀ w ∈ m.wells, Same 255 51
      (w.qw.to64 * PyMath.log ((x.to64 - w.xw.to64) * (x.to64 - w.xw.to64) + (y.to64 - w.yw.to64) * (y.to64 - w.yw.to64)) * PyMath.q fourPiInv)
      (w.qw * PyMath.log ((x - w.xw) * (x - w.xw) + (y - w.yw) * (y - w.yw)) * PyMath.q fourPiInv) := by
    intro w hw
    obtain ⟨-, -, hr⟩ := same_r2 hm hx hy hw
    have hp : 0 < ((x - w.xw) * (x - w.xw) + (y - w.yw) * (y - w.yw) : Fl).val := by
      refine r2_pos ?_
      by_contra hc
      push Not at hc
      exact ho ⟨w.xw.val, w.yw.val, w.rw.val, w.qw.val⟩ (List.mem_map_of_mem hw) (Prod.ext hc.1 hc.2)
    have hlog := hr.log hp (log_rng hl hp hr.2 (by norm_num) (by norm_num)) (by norm_num) (by norm_num)
    exact (((hm.wells w hw).2.2.same.mul hlog (by norm_num) (by norm_num)).mul q_fourPiInv (by norm_num) (by norm_num))
  have h := Partial.fold m.wells _ _ ht (Same.q_zero (g := 255) (k := 51) (by norm_num) (by norm_num)).partial (by have := hm.number; omega) (by norm_num) (by norm_num)
  have := h.same (by have := hm.number; omega)
  unfold potentialWells
  simp only [to64, List.foldl_map]
  exact this

theorem same_potential (hl : LogAccurate) (hm : m.Ordinary) (hx : x.Ordinary) (hy : y.Ordinary) (ho : m.exact.OffWells x.val y.val) :
    Same 276 130 (m.to64.potential x.to64 y.to64) (m.potential x y) := by
  have dx := hx.same.sub hm.xo.same (by norm_num) (by norm_num)
  have dy := hy.same.sub hm.yo.same (by norm_num) (by norm_num)
  have w := same_wells hl hm hx hy ho
  have t0 := (hm.coef 0).same.mul (dx.mul dx (by norm_num) (by norm_num)) (by norm_num) (by norm_num)
  have t1 := (hm.coef 1).same.mul (dy.mul dy (by norm_num) (by norm_num)) (by norm_num) (by norm_num)
  have t2 := ((hm.coef 2).same.mul dx (by norm_num) (by norm_num)).mul dy (by norm_num) (by norm_num)
  have t3 := (hm.coef 3).same.mul dx (by norm_num) (by norm_num)
  have t4 := (hm.coef 4).same.mul dy (by norm_num) (by norm_num)
  have t5 := (hm.coef 5).same
  have s1 := t0.add t1 (by norm_num) (by norm_num)
  have s2 := s1.add (t2.mono (g' := 276) (k' := 123) (by norm_num) (by norm_num)) (by norm_num) (by norm_num)
  have s3 := s2.add (t3.mono (g' := 276) (k' := 124) (by norm_num) (by norm_num)) (by norm_num) (by norm_num)
  have s4 := s3.add (t4.mono (g' := 276) (k' := 125) (by norm_num) (by norm_num)) (by norm_num) (by norm_num)
  have s5 := s4.add (t5.mono (g' := 276) (k' := 126) (by norm_num) (by norm_num)) (by norm_num) (by norm_num)
  have s6 := s5.add (w.mono (g' := 276) (k' := 127) (by norm_num) (by norm_num)) (by norm_num) (by norm_num)
  exact s6.mono (by norm_num) (by norm_num)

theorem same_discharge (hm : m.Ordinary) (hx : x.Ordinary) (hy : y.Ordinary) (ho : m.exact.OffWells x.val y.val) :
    Same 374 307 (m.to64.discharge x.to64 y.to64).1 (m.discharge x y).1 ∧ Same 374 307 (m.to64.discharge x.to64 y.to64).2 (m.discharge x y).2 := by
  have dx := hx.same.sub hm.xo.same (by norm_num) (by norm_num)
  have dy := hy.same.sub hm.yo.same (by norm_num) (by norm_num)
  have regional : ∀ {c0 c2 c3 : Fl} {bu bv : B64} {u v : Fl}, c0.Ordinary → c2.Ordinary → c3.Ordinary → Same 92 41 bu u → Same 92 41 bv v →
      Same 235 84 (-(PyMath.q 2 * c0.to64 * bu + c2.to64 * bv + c3.to64)) (-(PyMath.q 2 * c0 * u + c2 * v + c3)) := by
    intro c0 c2 c3 bu bv u v h0 h2 h3 hu hv
    have t0 := (q_two.mul h0.same (by norm_num) (by norm_num)).mul hu (by norm_num) (by norm_num)
    have t2 := h2.same.mul hv (by norm_num) (by norm_num)
    have s1 := t0.add (t2.mono (g' := 235) (k' := 82) (by norm_num) (by norm_num)) (by norm_num) (by norm_num)
    have s2 := s1.add (h3.same.mono (g' := 235) (k' := 83) (by norm_num) (by norm_num)) (by norm_num) (by norm_num)
    exact s2.neg (by norm_num) (by norm_num)
  have well : ∀ w ∈ m.wells,
      Same 374 265 ((-w.qw.to64) * (x.to64 - w.xw.to64) / ((x.to64 - w.xw.to64) * (x.to64 - w.xw.to64) + (y.to64 - w.yw.to64) * (y.to64 - w.yw.to64)) * PyMath.q twoPiInv)
        ((-w.qw) * (x - w.xw) / ((x - w.xw) * (x - w.xw) + (y - w.yw) * (y - w.yw)) * PyMath.q twoPiInv) ∧
      Same 374 265 ((-w.qw.to64) * (y.to64 - w.yw.to64) / ((x.to64 - w.xw.to64) * (x.to64 - w.xw.to64) + (y.to64 - w.yw.to64) * (y.to64 - w.yw.to64)) * PyMath.q twoPiInv)
        ((-w.qw) * (y - w.yw) / ((x - w.xw) * (x - w.xw) + (y - w.yw) * (y - w.yw)) * PyMath.q twoPiInv) := by
    intro w hw
    obtain ⟨hu, hv, hr⟩ := same_r2 hm hx hy hw
    have hp : 0 < ((x - w.xw) * (x - w.xw) + (y - w.yw) * (y - w.yw) : Fl).val := by
      refine r2_pos ?_
      by_contra hc
      push Not at hc
      exact ho ⟨w.xw.val, w.yw.val, w.rw.val, w.qw.val⟩ (List.mem_map_of_mem hw) (Prod.ext hc.1 hc.2)
    have hq := (hm.wells w hw).2.2.same.neg (by norm_num) (by norm_num)
    exact ⟨(((hq.mul hu (by norm_num) (by norm_num)).div hr hp.ne' (by norm_num) (by norm_num)).mul q_twoPiInv (by norm_num) (by norm_num)),
      (((hq.mul hv (by norm_num) (by norm_num)).div hr hp.ne' (by norm_num) (by norm_num)).mul q_twoPiInv (by norm_num) (by norm_num))⟩
  have fold : ∀ {F : Type} [Add F] (l : List (Well Fl)) (t1 t2 : Well Fl → F) (Q : F × F),
      l.foldl (fun Q w => (Q.1 + t1 w, Q.2 + t2 w)) Q = (l.foldl (fun p w => p + t1 w) Q.1, l.foldl (fun p w => p + t2 w) Q.2) := by
    intro F _ l t1 t2 Q
    induction l generalizing Q with
    | nil => rfl
    | cons a l ih => rw [List.foldl_cons, ih]; rfl
  unfold discharge
  simp only [to64, List.foldl_map]
  rw [fold, fold]
  have r1 := regional (hm.coef 0) (hm.coef 2) (hm.coef 3) dx dy
  have r2 := regional (hm.coef 1) (hm.coef 2) (hm.coef 4) dy dx
  have hn := hm.number
  constructor
  · exact ((Partial.fold m.wells _ _ (fun w hw => (well w hw).1) (r1.mono (g' := 374) (k' := 265) (by norm_num) (by norm_num)).partial (by omega) (by norm_num) (by norm_num)).same (by omega)).mono
      (by norm_num) (by norm_num)
  · exact ((Partial.fold m.wells _ _ (fun w hw => (well w hw).2) (r2.mono (g' := 374) (k' := 265) (by norm_num) (by norm_num)).partial (by omega) (by norm_num) (by norm_num)).same (by omega)).mono
      (by norm_num) (by norm_num)

omit [LibM] in
theorem mul_pos53 {a b : Fl} (ha : 0 < a.val) (hb : 0 < b.val) : 0 < (a * b).val := round53_pos (mul_pos ha hb)

theorem same_head (hl : LogAccurate) (hm : m.Ordinary) (hx : x.Ordinary) (hy : y.Ordinary) (ho : m.exact.OffWells x.val y.val) :
    Alike (fun b h => Same 471 315 b h) (m.to64.head x.to64 y.to64) (m.head x y) := by
  have hp := same_potential hl hm hx hy ho
  have hK : Same 92 40 m.to64.conductivity m.conductivity := hm.conductivity.1.same
  have hT : Same 92 40 m.to64.thickness m.thickness := hm.thickness.1.same
  have hTT := hT.mul hT (by norm_num) (by norm_num)
  have hc := (q_half.mul hK (by norm_num) (by norm_num)).mul hTT (by norm_num) (by norm_num)
  have h0 := Same.q_zero (g := 0) (k := 0) (by norm_num) (by norm_num)
  unfold head
  by_cases c1 : m.potential x y ≤ PyMath.q 0
  · rw [if_pos c1, if_pos ((hp.le_iff h0).mpr c1)]
    rfl
  rw [if_neg c1, if_neg (fun h => c1 ((hp.le_iff h0).mp h))]
  have hpos : 0 < (m.potential x y).val := by
    have : ¬ (m.potential x y).val ≤ round53 ((0:ℚ):ℝ) := c1
    rw [Rat.cast_zero, round53_zero, not_le] at this
    exact this
  by_cases c2 : m.potential x y < PyMath.q (1/2) * m.conductivity * (m.thickness * m.thickness)
  · rw [if_pos c2, if_pos ((hp.lt_iff hc).mpr c2)]
    have d := (q_two.mul hp (by norm_num) (by norm_num)).div hK hm.conductivity.2.ne' (by norm_num) (by norm_num)
    have hnn : 0 ≤ (PyMath.q 2 * m.potential x y / m.conductivity : Fl).val := by
      refine (round53_pos (div_pos (round53_pos (mul_pos ?_ hpos)) hm.conductivity.2)).le
      refine round53_pos ?_
      norm_num
    exact (d.sqrt hnn (by norm_num) (by norm_num) (by norm_num) (by norm_num)).mono (by norm_num) (by norm_num)
  · rw [if_neg c2, if_neg (fun h => c2 ((hp.lt_iff hc).mp h))]
    have s := (hp.mono (g' := 329) (k' := 130) (by norm_num) (by norm_num)).add (hc.mono (g' := 329) (k' := 130) (by norm_num) (by norm_num)) (by norm_num) (by norm_num)
    exact (s.div (hK.mul hT (by norm_num) (by norm_num)) (mul_pos53 hm.conductivity.2 hm.thickness.2).ne' (by norm_num) (by norm_num)).mono (by norm_num) (by norm_num)

theorem same_velocity (hl : LogAccurate) (hm : m.Ordinary) (hx : x.Ordinary) (hy : y.Ordinary) (ho : m.exact.OffWells x.val y.val) :
    Alike (fun b v => Same 781 870 b.1 v.1 ∧ Same 781 870 b.2 v.2) (m.to64.velocity x.to64 y.to64) (m.velocity x y) := by
  have hQ := same_discharge hm hx hy ho
  have hh := same_head hl hm hx hy ho
  have hT : Same 92 40 m.to64.thickness m.thickness := hm.thickness.1.same
  have hn : Same 92 40 m.to64.porosity m.porosity := hm.porosity.1.same
  unfold velocity
  cases h1 : m.head x y with
  | error e =>
    rw [h1] at hh
    cases h2 : m.to64.head x.to64 y.to64 with
    | error e' => rw [h2] at hh; exact hh
    | ok v => rw [h2] at hh; exact hh.elim
  | ok h =>
    rw [h1] at hh
    cases h2 : m.to64.head x.to64 y.to64 with
    | error e' => rw [h2] at hh; exact hh.elim
    | ok v =>
      rw [h2] at hh
      have hh : Same 471 315 v h := hh
      have h0 := Same.q_zero (g := 0) (k := 0) (by norm_num) (by norm_num)
      simp only []
      by_cases c1 : h ≤ PyMath.q 0
      · rw [if_pos c1, if_pos ((hh.le_iff h0).mpr c1)]
        rfl
      rw [if_neg c1, if_neg (fun h => c1 ((hh.le_iff h0).mp h))]
      have hpos : 0 < h.val := by
        have : ¬ h.val ≤ round53 ((0:ℚ):ℝ) := c1
        rw [Rat.cast_zero, round53_zero, not_le] at this
        exact this
      by_cases c2 : m.thickness < h
      · rw [if_pos c2, if_pos ((hT.lt_iff hh).mpr c2)]
        have d := hT.mul hn (by norm_num) (by norm_num)
        have dn := (mul_pos53 hm.thickness.2 hm.porosity.2).ne'
        exact ⟨(hQ.1.div d dn (by norm_num) (by norm_num)).mono (by norm_num) (by norm_num), (hQ.2.div d dn (by norm_num) (by norm_num)).mono (by norm_num) (by norm_num)⟩
      · rw [if_neg c2, if_neg (fun h => c2 ((hT.lt_iff hh).mp h))]
        have d := hh.mul hn (by norm_num) (by norm_num)
        have dn := (mul_pos53 hpos hm.porosity.2).ne'
        exact ⟨(hQ.1.div d dn (by norm_num) (by norm_num)).mono (by norm_num) (by norm_num), (hQ.2.div d dn (by norm_num) (by norm_num)).mono (by norm_num) (by norm_num)⟩

theorem same_confined (hm : m.Ordinary) (hx : x.Ordinary) (hy : y.Ordinary) (ho : m.exact.OffWells x.val y.val) :
    Same 506 491 (m.to64.velocityConfined x.to64 y.to64).1 (m.velocityConfined x y).1 ∧ Same 506 491 (m.to64.velocityConfined x.to64 y.to64).2 (m.velocityConfined x y).2 := by
  have hQ := same_discharge hm hx hy ho
  have d := hm.thickness.1.same.mul hm.porosity.1.same (by norm_num) (by norm_num)
  have dn := (mul_pos53 hm.thickness.2 hm.porosity.2).ne'
  exact ⟨(hQ.1.div d dn (by norm_num) (by norm_num)).mono (by norm_num) (by norm_num), (hQ.2.div d dn (by norm_num) (by norm_num)).mono (by norm_num) (by norm_num)⟩

end Aquifer
end Oneka
