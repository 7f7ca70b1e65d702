import Verif.Lemmas.FlField

/-! # A whole history of calls, with rounding -/

namespace Oneka

theorem Edges.crisp {o d : ℝ} {seen : List ℝ} {lo hi : ℝ} (h : Edges o d seen lo hi) {A : Axis} {n : ℕ} (hA : A.Fits o d) (d0 : 0 < d)
    (hs : ∀ x ∈ seen, |x| ≤ A.reach) (hn : hi = lo + ((n : ℝ) - 1) * d) :
    PField.Crisp A.unit A.spacingUnit lo d n ∧ MultipleOf A.unit hi ∧ |lo| ≤ A.reach + d ∧ |hi| ≤ A.reach + d := by
  obtain ⟨o1, o2⟩ := abs_le.mp hA.o_le
  have hd := hA.d_mul.coarse hA.units
  have ho := hA.o_mul
  have fits := hA.position
  have fits' := hA.width
  obtain ⟨p, hp⟩ := h.lo_lat
  obtain ⟨r, hr⟩ := h.hi_lat
  have l1 : -(A.reach + d) ≤ lo := by
    rcases h.lo_min with e | ⟨x, hx, e⟩
    · linarith
    · linarith [(abs_le.mp (hs x hx)).1]
  have l2 : hi ≤ A.reach + d := by
    rcases h.hi_min with e | ⟨x, hx, e⟩
    · linarith
    · linarith [(abs_le.mp (hs x hx)).2]
  have l3 := h.lo_le
  have l4 := h.hi_le
  have inside : ∀ q : ℕ, q < n → 0 ≤ (q : ℝ) * d ∧ lo + q * d ≤ hi := by
    intro q hq
    have hq' : (q : ℝ) ≤ (n : ℝ) - 1 := by
      have : ((q + 1 : ℕ) : ℝ) ≤ n := by exact_mod_cast hq
      push_cast at this; linarith
    have := mul_le_mul_of_nonneg_right hq' d0.le
    exact ⟨mul_nonneg (Nat.cast_nonneg _) d0.le, by rw [hn]; linarith⟩
  refine ⟨⟨d0, by rw [hp]; exact ho.add (hd.int_mul p), hA.d_mul, hA.units, ?_, ?_, ?_⟩, by rw [hr]; exact ho.add (hd.int_mul r), ?_, ?_⟩
  · rw [abs_le]; constructor <;> linarith
  · intro q hq
    obtain ⟨i1, i2⟩ := inside q hq
    rw [abs_le]; constructor <;> linarith
  · intro q hq
    obtain ⟨i1, i2⟩ := inside q hq
    linarith
  · rw [abs_le]; constructor <;> linarith
  · rw [abs_le]; constructor <;> linarith

namespace PField

/-! ### expand -/

theorem expand_fl (f : PField Fl) (b : Body Fl) (hf : f.exact.WF) (hb : f.body = some b) {k k' : ℤ} {Q Q' : ℝ}
    (mdx : MultipleOf k f.deltax.val) (mdy : MultipleOf k' f.deltay.val)
    (m1 : MultipleOf k b.xmin.val) (m2 : MultipleOf k b.xmax.val) (m3 : MultipleOf k' b.ymin.val) (m4 : MultipleOf k' b.ymax.val)
    (s1 : |b.xmin.val| ≤ Q + f.deltax.val) (s2 : |b.xmax.val| ≤ Q + f.deltax.val) (s3 : |b.ymin.val| ≤ Q' + f.deltay.val) (s4 : |b.ymax.val| ≤ Q' + f.deltay.val)
    (fx : Q + f.deltax.val ≤ 2 ^ 53 * 2 ^ k) (fy : Q' + f.deltay.val ≤ 2 ^ 53 * 2 ^ k')
    (x0 x1 y0 y1 : Fl) (hx : x0.val ≤ x1.val) (hy : y0.val ≤ y1.val) (b1 : |x0.val| ≤ Q) (b2 : |x1.val| ≤ Q) (b3 : |y0.val| ≤ Q') (b4 : |y1.val| ≤ Q') :
    ∃ f', f.expand x0 x1 y0 y1 = some (.ok f') ∧ f.exact.expand x0.val x1.val y0.val y1.val = some (.ok f'.exact) := by
  obtain ⟨hr3, hc3, hxm, hym, hpr, hpc, hrr, hrc⟩ := hf.grid b.exact (exact_body hb)
  have dx0 : 0 < f.deltax.val := hf.dx_pos
  have dy0 : 0 < f.deltay.val := hf.dy_pos
  obtain ⟨ml, l1, l2⟩ := exists_low_count x0.val f.deltax.val b.xmin.val dx0
  obtain ⟨mr, r1, r2⟩ := exists_high_count x1.val f.deltax.val b.xmax.val dx0
  obtain ⟨mb, c1, c2⟩ := exists_low_count y0.val f.deltay.val b.ymin.val dy0
  obtain ⟨mt, t1, t2⟩ := exists_high_count y1.val f.deltay.val b.ymax.val dy0
  obtain ⟨G1, e1, v1, _⟩ := growLow_fl mdx dx0 b1 fx ml b.xmin f.ncols 0 m1 s1 l1 l2
  obtain ⟨G2, e2, v2, _⟩ := growHigh_fl mdx dx0 b2 fx mr b.xmax (f.ncols + ml) m2 s2 r1 r2
  obtain ⟨G3, e3, v3, _⟩ := growLow_fl mdy dy0 b3 fy mb b.ymin f.nrows 0 m3 s3 c1 c2
  obtain ⟨G4, e4, v4, _⟩ := growHigh_fl mdy dy0 b4 fy mt b.ymax (f.nrows + mb) m4 s4 t1 t2
  have hne : ¬ (f.ncols = 0 ∨ f.nrows = 0) := by
    have : 3 ≤ f.ncols := hc3
    have : 3 ≤ f.nrows := hr3
    omega
  have hne' : ¬ (f.exact.ncols = 0 ∨ f.exact.nrows = 0) := hne
  unfold expand
  rw [if_neg (by rw [Fl.lt_iff]; exact not_lt.mpr hx), if_neg (by rw [Fl.lt_iff]; exact not_lt.mpr hy), if_neg hne, hb,
    if_neg (not_lt.mpr hx), if_neg (not_lt.mpr hy), if_neg hne', exact_body hb]
  have q1 := growLow_run x0.val f.deltax.val b.xmin.val ml f.ncols 0 l1 l2
  have q2 := growHigh_run x1.val f.deltax.val b.xmax.val mr (f.ncols + ml) r1 r2
  have q3 := growLow_run y0.val f.deltay.val b.ymin.val mb f.nrows 0 c1 c2
  have q4 := growHigh_run y1.val f.deltay.val b.ymax.val mt (f.nrows + mb) t1 t2
  rw [← v1] at q1
  rw [← v2] at q2
  rw [← v3] at q3
  rw [← v4] at q4
  simp only [e1, e2, e3, e4]
  simp only [exact, Body.exact, q1, q2, q3, q4]
  simp only [Body.exact, exact] at hpr hpc hrr hrc
  by_cases hch : f.nrows + mb + mt ≠ f.nrows ∨ f.ncols + ml + mr ≠ f.ncols
  · simp only [if_pos hch]
    have h1 : min (0 + mb + f.nrows) (f.nrows + mb + mt) - (0 + mb) = f.nrows := by omega
    have h2 : min (0 + ml + f.ncols) (f.ncols + ml + mr) - (0 + ml) = f.ncols := by omega
    simp only [Grid.blit, Grid.full, hrr, hrc, hpr, hpc, h1, h2, and_self, if_true]
    refine ⟨_, rfl, (if_pos hch).trans ?_⟩
    · simp only [Option.map_some, Option.some.injEq, Except.ok.injEq, PField.mk.injEq, true_and, Body.mk.injEq, Grid.mk.injEq, and_true, Body.exact]
      funext p q
      split_ifs
      · rfl
      · exact Fl.val_zero.symm
  · simp only [if_neg hch]
    exact ⟨_, rfl, if_neg hch⟩

/-! ### register and reset -/

open Classical in
theorem register_fl (f : PField Fl) (b : Body Fl) (hf : f.exact.WF) (hb : f.body = some b) (x : Fl) :
    ∃ f', f.register x = .ok f' ∧ f'.exact.WF ∧ f'.exact.body ≠ none ∧ f'.exact.deltax = f.exact.deltax ∧ f'.exact.deltay = f.exact.deltay ∧
      f'.exact.total = round53 (f.exact.total + x.val) ∧
      (∀ X Y, f'.exact.weightAt X Y = if f.exact.markedAt X Y then round53 (f.exact.weightAt X Y + x.val) else f.exact.weightAt X Y) ∧
      (∀ X Y, ¬ f'.exact.markedAt X Y) ∧ (∀ X Y, f'.exact.IsNode X Y ↔ f.exact.IsNode X Y) := by
  obtain ⟨hr3, hc3, hxm, hym, hpr, hpc, hrr, hrc⟩ := hf.grid b.exact (exact_body hb)
  have shape : b.rgrid.rows = b.pgrid.rows ∧ b.rgrid.cols = b.pgrid.cols := ⟨hrr.trans hpr.symm, hrc.trans hpc.symm⟩
  obtain ⟨b', eb'⟩ : ∃ b' : Body Fl, b' = { b with
        totalWeight := b.totalWeight + x,
        pgrid := { b.pgrid with
          val := fun i j => if b.rgrid.val i j then b.pgrid.val i j + x else b.pgrid.val i j },
        rgrid := { b.rgrid with val := fun _ _ => false } } := ⟨_, rfl⟩
  obtain ⟨f', ef⟩ : ∃ f' : PField Fl, f' = { f with body := some b' } := ⟨_, rfl⟩
  have hb' : f'.body = some b' := by rw [ef]
  have hB' := exact_body hb'
  have hB := exact_body hb
  have e1 : b'.exact.xmin = b.exact.xmin := by rw [eb']; rfl
  have e2 : b'.exact.ymin = b.exact.ymin := by rw [eb']; rfl
  have ed : f'.exact = { f.exact with body := some b'.exact } := by rw [ef]; rfl
  have wf' : f'.exact.WF := by
    refine ⟨by rw [ed]; exact hf.dx_pos, by rw [ed]; exact hf.dy_pos, fun h => by rw [hB'] at h; simp at h, fun c hc => ?_⟩
    obtain rfl := Option.some.inj (hB'.symm.trans hc)
    rw [ed, eb']
    exact ⟨hr3, hc3, hxm, hym, hpr, hpc, hrr, hrc⟩
  have nodes : ∀ X Y, f'.exact.IsNode X Y ↔ f.exact.IsNode X Y := by rw [ed]; exact isNode_body hB b'.exact e1 e2
  refine ⟨f', ?_, wf', by rw [hB']; simp, by rw [ed], by rw [ed], ?_, ?_, ?_, nodes⟩
  · unfold register
    rw [hb, ef, eb']
    exact if_pos shape
  · unfold total; rw [hB, hB', eb']; rfl
  · intro X Y
    rcases lookAt_cases f.exact b.exact hf.dx_pos hf.dy_pos hB Body.pgrid 0 X Y with ⟨i, j, hi, hj, hX, hY, hv⟩ | ⟨hn, hv⟩
    · have h1 := lookAt_node f'.exact b'.exact wf'.dx_pos wf'.dy_pos hB' Body.pgrid 0 i j (by rw [ed]; exact hi) (by rw [ed]; exact hj)
      have h2 := lookAt_node f.exact b.exact hf.dx_pos hf.dy_pos hB Body.rgrid false i j hi hj
      have d1 : f'.exact.deltax = f.exact.deltax := by rw [ed]
      have d2 : f'.exact.deltay = f.exact.deltay := by rw [ed]
      rw [e1, e2, d1, d2] at h1
      unfold weightAt markedAt
      rw [hv, hX, hY, h2, h1, eb']
      simp only [Body.exact]
      by_cases hm : b.rgrid.val i j = true
      · rw [if_pos hm]; exact (if_pos hm).symm
      · rw [if_neg hm]; exact (if_neg hm).symm
    · have hm : ¬ f.exact.markedAt X Y := fun h => hn (isNode_of_markedAt _ h)
      unfold weightAt
      rw [hv, if_neg hm, lookAt_not]
      rw [nodes]; exact hn
  · intro X Y h
    rw [markedAt_iff _ b'.exact wf' hB'] at h
    obtain ⟨i, j, _, _, _, _, h⟩ := h
    rw [eb'] at h
    simp [Body.exact] at h

theorem reset_fl (f : PField Fl) (b : Body Fl) (hb : f.body = some b) :
    ∃ f' b', f.reset = .ok f' ∧ f.exact.reset = .ok f'.exact ∧ f'.body = some b' := by
  unfold reset
  rw [hb, exact_body hb]
  exact ⟨_, _, rfl, rfl, rfl⟩

/-! ### rasterize -/

theorem foldl_min_val (l : List Fl) : ∀ a : Fl,
    (l.foldl (fun m b => if b < m then b else m) a).val = (l.map Fl.val).foldl (fun m b => if b < m then b else m) a.val := by
  induction l with
  | nil => intro a; rfl
  | cons c l ih =>
    intro a
    simp only [List.foldl_cons, List.map_cons]
    rw [ih]
    congr 1
    simp only [Fl.lt_iff]
    split_ifs <;> rfl

theorem foldl_max_val (l : List Fl) : ∀ a : Fl,
    (l.foldl (fun m b => if m < b then b else m) a).val = (l.map Fl.val).foldl (fun m b => if m < b then b else m) a.val := by
  induction l with
  | nil => intro a; rfl
  | cons c l ih =>
    intro a
    simp only [List.foldl_cons, List.map_cons]
    rw [ih]
    congr 1
    simp only [Fl.lt_iff]
    split_ifs <;> rfl

theorem pyMin_val (l : List Fl) (h : l ≠ []) : ∃ m, pyMin l = some m ∧ m.val ∈ l.map Fl.val ∧ ∀ z ∈ l.map Fl.val, m.val ≤ z := by
  cases l with
  | nil => exact absurd rfl h
  | cons a l =>
    refine ⟨_, rfl, ?_⟩
    rw [foldl_min_val]
    exact foldl_min_spec (l.map Fl.val) a.val

theorem pyMax_val (l : List Fl) (h : l ≠ []) : ∃ m, pyMax l = some m ∧ m.val ∈ l.map Fl.val ∧ ∀ z ∈ l.map Fl.val, z ≤ m.val := by
  cases l with
  | nil => exact absurd rfl h
  | cons a l =>
    refine ⟨_, rfl, ?_⟩
    rw [foldl_max_val]
    exact foldl_max_spec (l.map Fl.val) a.val

/-- A vertex read as a pair of real numbers. -/
noncomputable def pairVal (v : Fl × Fl) : ℝ × ℝ := (v.1.val, v.2.val)

theorem rasterLoop_fl (vs : List (Fl × Fl)) (u : Fl) {S η : ℝ} {k m k' m' : ℤ} (is : List ℕ) : ∀ (f : PField Fl) (b : Body Fl), f.exact.WF →
    f.body = some b → Crisp k m b.xmin.val f.deltax.val f.ncols → Crisp k' m' b.ymin.val f.deltay.val f.nrows →
    (∀ i ∈ is, i + 1 < vs.length) → (∀ a c, [a, c] <:+: vs → Sized a.1 a.2 c.1 c.2 u S η) →
    ∃ g', rasterLoop (vs.map Prod.fst) (vs.map Prod.snd) u is f = ({ f with body := some { b with rgrid := g' } }, .ok ()) ∧
      g'.rows = f.nrows ∧ g'.cols = f.ncols ∧
      (∀ p q, p < f.nrows → q < f.ncols → g'.val p q = true → b.rgrid.val p q = true ∨
        ∃ i ∈ is, ∃ a c : Fl × Fl, vs[i]? = some a ∧ vs[i+1]? = some c ∧
          f.exact.Hits b.exact a.1.val a.2.val c.1.val c.2.val (u.val + η) p q) ∧
      (∀ p q, b.rgrid.val p q = true → g'.val p q = true) ∧
      (∀ p q, p < f.nrows → q < f.ncols →
        (∃ i ∈ is, ∃ a c : Fl × Fl, vs[i]? = some a ∧ vs[i+1]? = some c ∧
          f.exact.Hits b.exact a.1.val a.2.val c.1.val c.2.val (u.val + -η) p q) → g'.val p q = true) := by
  induction is with
  | nil =>
    intro f b hf hb _ _ _ _
    obtain ⟨_, _, _, _, _, _, hrr, hrc⟩ := hf.grid b.exact (exact_body hb)
    refine ⟨b.rgrid, ?_, hrr, hrc, fun p q _ _ h => Or.inl h, fun p q h => h, ?_⟩
    · simp only [rasterLoop]
      cases f
      simp only at hb
      subst hb
      rfl
    · rintro p q _ _ ⟨i, hi, _⟩
      simp at hi
  | cons i is ih =>
    intro f b hf hb cx cy hlen hsz
    have hi1 := hlen i (by simp)
    have hi0 : i < vs.length := by omega
    have z1 : vs[i]? = some vs[i] := List.getElem?_eq_getElem hi0
    have z2 : vs[i+1]? = some vs[i+1] := List.getElem?_eq_getElem hi1
    obtain ⟨g1, e1, r1, c1, fw1, mono1, bw1⟩ := insert_fl f b hf hb cx cy vs[i].1 vs[i].2 vs[i+1].1 vs[i+1].2 u
      (hsz _ _ ((pair_infix_iff vs _ _).mpr ⟨i, z1, z2⟩))
    obtain ⟨g2, e2, r2, c2, fw2, mono2, bw2⟩ :=
      ih { f with body := some { b with rgrid := g1 } } { b with rgrid := g1 } (wf_rgrid hf (exact_body hb) g1 r1 c1) rfl cx cy
        (fun k hk => hlen k (by simp [hk])) hsz
    refine ⟨g2, ?_, r2, c2, fun p q hp hq h => ?_, fun p q h => mono2 p q (mono1 p q h), fun p q hp hq h => ?_⟩
    · simp only [rasterLoop, List.getElem?_map, z1, z2, Option.map_some]
      rw [e1]
      exact e2
    · rcases fw2 p q hp hq h with h | ⟨k, hk, rest⟩
      · rcases fw1 p q hp hq h with h | h
        · exact Or.inl h
        · exact Or.inr ⟨i, by simp, _, _, z1, z2, h⟩
      · exact Or.inr ⟨k, by simp [hk], rest⟩
    · obtain ⟨k, hk, a, c, ha, hc, hh⟩ := h
      rcases List.mem_cons.mp hk with rfl | hk
      · rw [z1] at ha; rw [z2] at hc
        obtain rfl := Option.some.inj ha
        obtain rfl := Option.some.inj hc
        exact mono2 p q (bw1 p q hp hq hh)
      · exact bw2 p q hp hq ⟨k, hk, a, c, ha, hc, hh⟩

theorem nearTrack_pairs (f : PField Fl) (b : Body Fl) (vs : List (Fl × Fl)) (v : ℝ) (p q : ℕ) :
    (∃ i ∈ List.range (vs.length - 1), ∃ a c : Fl × Fl, vs[i]? = some a ∧ vs[i+1]? = some c ∧
        f.exact.Hits b.exact a.1.val a.2.val c.1.val c.2.val v p q) ↔
      NearTrack (vs.map pairVal) v (b.exact.xmin + q * f.exact.deltax) (b.exact.ymin + p * f.exact.deltay) := by
  unfold NearTrack Hits
  constructor
  · rintro ⟨i, hi, a, c, ha, hc, hne, hh⟩
    refine ⟨pairVal a, pairVal c, ?_, hne, hh⟩
    rw [pair_infix_iff]
    exact ⟨i, by rw [List.getElem?_map, ha]; rfl, by rw [List.getElem?_map, hc]; rfl⟩
  · rintro ⟨a, c, hac, hne, hh⟩
    rw [pair_infix_iff] at hac
    obtain ⟨i, ha, hc⟩ := hac
    rw [List.getElem?_map, Option.map_eq_some_iff] at ha hc
    obtain ⟨a', ha, rfl⟩ := ha
    obtain ⟨c', hc, rfl⟩ := hc
    obtain ⟨hi, _⟩ := List.getElem?_eq_some_iff.mp hc
    exact ⟨i, by rw [List.mem_range]; omega, a', c', ha, hc, hne, hh⟩

/-- What changes when the registration array changes. -/
theorem marks_view (f : PField ℝ) (b : Body ℝ) (hf : f.WF) (hb : f.body = some b) (g' : Grid Bool) (r : g'.rows = f.nrows) (c : g'.cols = f.ncols)
    (T : List (ℝ × ℝ)) (u1 u2 : ℝ)
    (fw : ∀ p q, p < f.nrows → q < f.ncols → g'.val p q = true → b.rgrid.val p q = true ∨ NearTrack T u1 (b.xmin + q * f.deltax) (b.ymin + p * f.deltay))
    (mono : ∀ p q, b.rgrid.val p q = true → g'.val p q = true)
    (bw : ∀ p q, p < f.nrows → q < f.ncols → NearTrack T u2 (b.xmin + q * f.deltax) (b.ymin + p * f.deltay) → g'.val p q = true)
    {f' : PField ℝ} (hf' : f' = { f with body := some { b with rgrid := g' } }) :
    f'.WF ∧ (∀ X Y, f'.weightAt X Y = f.weightAt X Y) ∧ (∀ X Y, f'.IsNode X Y ↔ f.IsNode X Y) ∧
      (∀ X Y, f'.markedAt X Y → f.markedAt X Y ∨ NearTrack T u1 X Y) ∧ (∀ X Y, f.markedAt X Y → f'.markedAt X Y) ∧
      (∀ X Y, f'.IsNode X Y → NearTrack T u2 X Y → f'.markedAt X Y) := by
  subst hf'
  have wf' := wf_rgrid hf hb g' r c
  refine ⟨wf', weightAt_rgrid f b hf hb g', isNode_rgrid f b hb g', ?_, ?_, ?_⟩
  · intro X Y h
    rw [markedAt_iff _ _ wf' rfl] at h
    obtain ⟨i, j, hi, hj, hX, hY, hv⟩ := h
    rcases fw i j hi hj hv with hv | hv
    · left
      rw [markedAt_iff f b hf hb]
      exact ⟨i, j, hi, hj, hX, hY, hv⟩
    · right
      rw [hX, hY]
      exact hv
  · intro X Y h
    rw [markedAt_iff f b hf hb] at h
    obtain ⟨i, j, hi, hj, hX, hY, hv⟩ := h
    rw [markedAt_iff _ _ wf' rfl]
    exact ⟨i, j, hi, hj, hX, hY, mono i j hv⟩
  · intro X Y hn hnear
    obtain ⟨c', hc', i, j, hi, hj, hX, hY⟩ := hn
    obtain rfl := Option.some.inj hc'
    rw [markedAt_iff _ _ wf' rfl]
    refine ⟨i, j, hi, hj, hX, hY, bw i j hi hj ?_⟩
    dsimp only at hX hY
    rw [← hX, ← hY]
    exact hnear

/-- The state of a field computed with rounding after the positions `s`: exactly laid out. -/
structure Good (A B : Axis) (xo yo : ℝ) (s : List (ℝ × ℝ)) (f : PField Fl) : Prop where
  spans : f.exact.Spans xo yo s
  fits_x : A.Fits xo f.deltax.val
  fits_y : B.Fits yo f.deltay.val
  seen : ∀ p ∈ s, |p.1| ≤ A.reach ∧ |p.2| ≤ B.reach

theorem Good.crisp {A B : Axis} {xo yo : ℝ} {s : List (ℝ × ℝ)} {f : PField Fl} (h : Good A B xo yo s f) :
    ∃ b, f.body = some b ∧ (Crisp A.unit A.spacingUnit b.xmin.val f.deltax.val f.ncols ∧ MultipleOf A.unit b.xmax.val ∧
        |b.xmin.val| ≤ A.reach + f.deltax.val ∧ |b.xmax.val| ≤ A.reach + f.deltax.val) ∧
      (Crisp B.unit B.spacingUnit b.ymin.val f.deltay.val f.nrows ∧ MultipleOf B.unit b.ymax.val ∧
        |b.ymin.val| ≤ B.reach + f.deltay.val ∧ |b.ymax.val| ≤ B.reach + f.deltay.val) := by
  obtain ⟨B, hB, ex, ey⟩ := h.spans.edges
  have : ∃ b, f.body = some b := by
    cases hb : f.body with
    | none => simp [exact, hb] at hB
    | some b => exact ⟨b, rfl⟩
  obtain ⟨b, hb⟩ := this
  obtain rfl := Option.some.inj ((exact_body hb).symm.trans hB)
  obtain ⟨_, _, hxm, hym, _⟩ := h.spans.wf.grid b.exact hB
  refine ⟨b, hb, ex.crisp h.fits_x h.spans.wf.dx_pos ?_ hxm,
    ey.crisp h.fits_y h.spans.wf.dy_pos ?_ hym⟩
  · intro x hx
    obtain ⟨p, hp, rfl⟩ := List.mem_map.mp hx
    exact (h.seen p hp).1
  · intro x hx
    obtain ⟨p, hp, rfl⟩ := List.mem_map.mp hx
    exact (h.seen p hp).2

theorem Good.expand {A B : Axis} {xo yo : ℝ} {s : List (ℝ × ℝ)} {f : PField Fl} (h : Good A B xo yo s f) {x0 x1 y0 y1 : Fl} {new : List (ℝ × ℝ)}
    (mx0 : x0.val ∈ new.map Prod.fst) (mx1 : x1.val ∈ new.map Prod.fst) (my0 : y0.val ∈ new.map Prod.snd) (my1 : y1.val ∈ new.map Prod.snd)
    (hx : ∀ x ∈ new.map Prod.fst, x0.val ≤ x ∧ x ≤ x1.val) (hy : ∀ y ∈ new.map Prod.snd, y0.val ≤ y ∧ y ≤ y1.val)
    (hQ : ∀ p ∈ new, |p.1| ≤ A.reach ∧ |p.2| ≤ B.reach) :
    ∃ f', f.expand x0 x1 y0 y1 = some (.ok f') ∧ Good A B xo yo (s ++ new) f' ∧ f'.exact.deltax = f.exact.deltax ∧ f'.exact.deltay = f.exact.deltay ∧
      f'.exact.total = f.exact.total ∧
      (∀ X Y, f'.exact.weightAt X Y = f.exact.weightAt X Y) ∧ (∀ X Y, f'.exact.markedAt X Y ↔ f.exact.markedAt X Y) := by
  obtain ⟨b, hb, ⟨cx, m2, s1, s2⟩, cy, m4, s3, s4⟩ := h.crisp
  have bx : ∀ x ∈ new.map Prod.fst, |x| ≤ A.reach := fun x hx => by
    obtain ⟨p, hp, rfl⟩ := List.mem_map.mp hx
    exact (hQ p hp).1
  have by' : ∀ x ∈ new.map Prod.snd, |x| ≤ B.reach := fun x hx => by
    obtain ⟨p, hp, rfl⟩ := List.mem_map.mp hx
    exact (hQ p hp).2
  obtain ⟨f', e, e'⟩ := expand_fl f b h.spans.wf hb (h.fits_x.d_mul.coarse h.fits_x.units) (h.fits_y.d_mul.coarse h.fits_y.units) cx.g_mul m2 cy.g_mul m4 s1 s2 s3 s4
    h.fits_x.position h.fits_y.position x0 x1 y0 y1 (hx _ mx0).2 (hy _ my0).2 (bx _ mx0) (bx _ mx1) (by' _ my0) (by' _ my1)
  obtain ⟨F, eF, v⟩ := expand_view f.exact h.spans.wf x0.val x1.val y0.val y1.val (hx _ mx0).2 (hy _ my0).2
  obtain rfl : F = f'.exact := by rw [e'] at eF; simpa using eF.symm
  refine ⟨f', e, ⟨h.spans.expand mx0 mx1 my0 my1 hx hy e', ?_, ?_, ?_⟩, v.dx, v.dy, v.total, v.weight, v.marked⟩
  · have e1 : f'.deltax.val = f.deltax.val := v.dx
    rw [e1]; exact h.fits_x
  · have e2 : f'.deltay.val = f.deltay.val := v.dy
    rw [e2]; exact h.fits_y
  · intro p hp
    rcases List.mem_append.mp hp with hp | hp
    · exact h.seen p hp
    · exact hQ p hp

theorem Good.track {A B : Axis} {xo yo : ℝ} {s : List (ℝ × ℝ)} {f : PField Fl} (h : Good A B xo yo s f) (vs : List (Fl × Fl)) (u : Fl) (hvs : vs ≠ [])
    (hQ : ∀ p ∈ vs, |p.1.val| ≤ A.reach ∧ |p.2.val| ≤ B.reach) {S η : ℝ} (hsz : ∀ a c, [a, c] <:+: vs → Sized a.1 a.2 c.1 c.2 u S η) :
    ∃ f', f.rasterize (vs.map Prod.fst) (vs.map Prod.snd) u = some (f', .ok ()) ∧ Good A B xo yo (s ++ vs.map pairVal) f' ∧
      f'.exact.deltax = f.exact.deltax ∧ f'.exact.deltay = f.exact.deltay ∧ f'.exact.total = f.exact.total ∧
      (∀ X Y, f'.exact.weightAt X Y = f.exact.weightAt X Y) ∧
      (∀ X Y, f'.exact.markedAt X Y → f.exact.markedAt X Y ∨ NearTrack (vs.map pairVal) (u.val + η) X Y) ∧
      (∀ X Y, f.exact.markedAt X Y → f'.exact.markedAt X Y) ∧
      (∀ X Y, f'.exact.IsNode X Y → NearTrack (vs.map pairVal) (u.val + -η) X Y → f'.exact.markedAt X Y) := by
  obtain ⟨x0, ex0, mx0, bx0⟩ := pyMin_val (vs.map Prod.fst) (by simpa using hvs)
  obtain ⟨x1, ex1, mx1, bx1⟩ := pyMax_val (vs.map Prod.fst) (by simpa using hvs)
  obtain ⟨y0, ey0, my0, by0⟩ := pyMin_val (vs.map Prod.snd) (by simpa using hvs)
  obtain ⟨y1, ey1, my1, by1⟩ := pyMax_val (vs.map Prod.snd) (by simpa using hvs)
  have E1 : (vs.map Prod.fst).map Fl.val = (vs.map pairVal).map Prod.fst := by simp [pairVal]
  have E2 : (vs.map Prod.snd).map Fl.val = (vs.map pairVal).map Prod.snd := by simp [pairVal]
  rw [E1] at mx0 mx1 bx0 bx1
  rw [E2] at my0 my1 by0 by1
  obtain ⟨f1, e1, g1, dx1, dy1, t1, w1, k1⟩ := h.expand mx0 mx1 my0 my1 (fun x hx => ⟨bx0 x hx, bx1 x hx⟩) (fun x hx => ⟨by0 x hx, by1 x hx⟩)
    (fun p hp => by
      obtain ⟨q, hq, rfl⟩ := List.mem_map.mp hp
      exact hQ q hq)
  obtain ⟨b, hb, ⟨cx, _⟩, cy, _⟩ := g1.crisp
  obtain ⟨g', e2, r, c, fw, mono, bw⟩ := rasterLoop_fl vs u (List.range (vs.length - 1)) f1 b g1.spans.wf hb cx cy
    (fun i hi => by rw [List.mem_range] at hi; omega) hsz
  have mv := marks_view f1.exact b.exact g1.spans.wf (exact_body hb) g' r c (vs.map pairVal) (u.val + η) (u.val + -η)
    (fun p q hp hq hv => (fw p q hp hq hv).imp_right (nearTrack_pairs f1 b vs _ p q).mp) mono
    (fun p q hp hq hn => bw p q hp hq ((nearTrack_pairs f1 b vs _ p q).mpr hn))
    (f' := ({ f1 with body := some { b with rgrid := g' } } : PField Fl).exact) rfl
  obtain ⟨wf2, w2, n2, up, mo, dn⟩ := mv
  refine ⟨_, ?_, ⟨g1.spans.same wf2 (by simp [exact]) rfl rfl n2, g1.fits_x, g1.fits_y, g1.seen⟩, dx1, dy1, ?_, ?_, ?_, ?_, ?_⟩
  · unfold rasterize
    simp only [ex0, ex1, ey0, ey1, e1, List.length_map, e2]
  · rw [← t1]; unfold total; rw [exact_body hb]; rfl
  · intro X Y; rw [w2, w1]
  · intro X Y hm; exact (up X Y hm).imp_left (k1 X Y).mp
  · intro X Y hm; exact mo X Y ((k1 X Y).mpr hm)
  · exact dn

/-! ### histories -/

theorem exact_points (δ : ℝ) (es : List (Event Fl)) : (es.map (Event.exact δ)).flatMap Event.points = (es.map (Event.exact 0)).flatMap Event.points := by
  induction es with
  | nil => rfl
  | cons e es ih =>
    simp only [List.map_cons, List.flatMap_cons, ih]
    cases e <;> rfl

/-- Adding up weights with rounding; the flags say which ones. -/
noncomputable def accumulate (a : ℝ) (l : List (Bool × ℝ)) : ℝ := l.foldl (fun a m => if m.1 then round53 (a + m.2) else a) a

theorem fl_history {A B : Axis} {S η xo yo : ℝ} (η0 : 0 ≤ η) (es : List (Event Fl)) : ∀ (f : PField Fl) (s : List (ℝ × ℝ)) (p1 p2 : List (Drawn ℝ)) (X Y : ℝ),
    Good A B xo yo s f → (∀ e ∈ es, e.Moderate A B S η) → OnLattice xo yo f.deltax.val f.deltay.val X Y →
    (Records xo yo f.deltax.val f.deltay.val p1 X Y → f.exact.markedAt X Y) → (f.exact.markedAt X Y → Records xo yo f.deltax.val f.deltay.val p2 X Y) →
    ∃ f', f.run (es.map Event.call) = some f' ∧ Good A B xo yo (s ++ (es.map (Event.exact 0)).flatMap Event.points) f' ∧
      f'.deltax.val = f.deltax.val ∧ f'.deltay.val = f.deltay.val ∧
      f'.exact.total = accumulate f.exact.total ((registeredWeights es).map fun x => (true, x.val)) ∧
      ∃ l : List (Bool × ℝ), f'.exact.weightAt X Y = accumulate (f.exact.weightAt X Y) l ∧ l.map Prod.snd = (registeredWeights es).map Fl.val ∧
        List.Forall₂ (fun g m => g.2 = m.2 ∧ (Records xo yo f.deltax.val f.deltay.val g.1 X Y → m.1 = true)) (drawnGroups (es.map (Event.exact (-η))) s p1) l ∧
        List.Forall₂ (fun g m => g.2 = m.2 ∧ (m.1 = true → Records xo yo f.deltax.val f.deltay.val g.1 X Y)) (drawnGroups (es.map (Event.exact η)) s p2) l := by
  induction es with
  | nil =>
    intro f s p1 p2 X Y hg _ _ _ _
    exact ⟨f, rfl, by simpa using hg, rfl, rfl, rfl, [], rfl, rfl, .nil, .nil⟩
  | cons e es ih =>
    intro f s p1 p2 X Y hg hv hL h1 h2
    have hv' : ∀ e ∈ es, e.Moderate A B S η := fun e he => hv e (by simp [he])
    obtain ⟨b, hb, _⟩ := hg.crisp
    have hB : f.exact.body ≠ none := by rw [exact_body hb]; simp
    cases e with
    | track vs u =>
      obtain ⟨hvs, hQ, hS, hu1, hu2, hu3⟩ := hv (.track vs u) (by simp)
      obtain ⟨f1, e1, g1, dx1, dy1, t1, w1, up, mo, dn⟩ := hg.track vs u hvs hQ (fun a c hac => ⟨hS a c hac, η0, hu1, hu2, hu3⟩)
      have dx1' : f1.deltax.val = f.deltax.val := dx1
      have dy1' : f1.deltay.val = f.deltay.val := dy1
      have hnode := g1.spans.isNode X Y
      rw [dx1, dy1] at hnode
      obtain ⟨f2, e2, g2, dx2, dy2, t2, l, w2, l1, l2, l3⟩ := ih f1 (s ++ vs.map pairVal) (p1 ++ [⟨vs.map pairVal, u.val + -η, s ++ vs.map pairVal⟩])
        (p2 ++ [⟨vs.map pairVal, u.val + η, s ++ vs.map pairVal⟩]) X Y g1 hv' (by rw [dx1', dy1']; exact hL)
        (by
          rw [dx1', dy1']
          rintro ⟨t, ht, hn, hr⟩
          rcases List.mem_append.mp ht with ht | ht
          · exact mo X Y (h1 ⟨t, ht, hn, hr⟩)
          · obtain rfl := List.mem_singleton.mp ht
            exact dn X Y (hnode.mpr ⟨hL, hr⟩) hn)
        (by
          rw [dx1', dy1']
          intro hm
          rcases up X Y hm with h | h
          · obtain ⟨t, ht, hn, hr⟩ := h2 h
            exact ⟨t, List.mem_append_left _ ht, hn, hr⟩
          · exact ⟨⟨vs.map pairVal, u.val + η, s ++ vs.map pairVal⟩, List.mem_append_right _ (by simp), h, (hnode.mp (isNode_of_markedAt _ hm)).2⟩)
      rw [dx1', dy1'] at l2 l3
      rw [w1] at w2
      refine ⟨f2, ?_, ?_, dx2.trans dx1', dy2.trans dy1', ?_, l, w2, l1, l2, l3⟩
      · simp only [List.map_cons, Event.call, run, step, e1]; exact e2
      · rw [List.append_assoc] at g2; exact g2
      · rw [t2, t1]; rfl
    | register x =>
      obtain ⟨f1, e1, wf1, hb1, dx1, dy1, t1, w1, m1, n1⟩ := register_fl f b hg.spans.wf hb x
      have dx1' : f1.deltax.val = f.deltax.val := dx1
      have dy1' : f1.deltay.val = f.deltay.val := dy1
      have hg1 : Good A B xo yo s f1 := ⟨hg.spans.same wf1 hb1 dx1 dy1 n1, by rw [dx1']; exact hg.fits_x, by rw [dy1']; exact hg.fits_y, hg.seen⟩
      obtain ⟨f2, e2, g2, dx2, dy2, t2, l, w2, l1, l2, l3⟩ := ih f1 s [] [] X Y hg1 hv' (by rw [dx1', dy1']; exact hL)
        (by simp [Records]) (by simp [m1 X Y])
      rw [dx1', dy1'] at l2 l3
      rw [w1] at w2
      by_cases hm : f.exact.markedAt X Y
      · rw [if_pos hm] at w2
        refine ⟨f2, ?_, ?_, dx2.trans dx1', dy2.trans dy1', ?_, (true, x.val) :: l, ?_, ?_, .cons ⟨rfl, fun _ => rfl⟩ l2, .cons ⟨rfl, fun _ => h2 hm⟩ l3⟩
        · simp only [List.map_cons, Event.call, run, step, e1, lift]; exact e2
        · simpa [Event.points, Event.exact] using g2
        · rw [t2, t1]; rfl
        · rw [w2]; rfl
        · simp only [List.map_cons, l1]; rfl
      · rw [if_neg hm] at w2
        refine ⟨f2, ?_, ?_, dx2.trans dx1', dy2.trans dy1', ?_, (false, x.val) :: l, ?_, ?_, .cons ⟨rfl, fun h => absurd (h1 h) hm⟩ l2, .cons ⟨rfl, fun h => by simp at h⟩ l3⟩
        · simp only [List.map_cons, Event.call, run, step, e1, lift]; exact e2
        · simpa [Event.points, Event.exact] using g2
        · rw [t2, t1]; rfl
        · rw [w2]; rfl
        · simp only [List.map_cons, l1]; rfl
    | reset =>
      obtain ⟨f1, b1, e1, e1', hb1⟩ := reset_fl f b hb
      obtain ⟨F, eF, wf1, dx1, dy1, t1, w1, m1, n1, _⟩ := reset_view f.exact hg.spans.wf hB
      obtain rfl : F = f1.exact := by rw [e1'] at eF; simpa using eF.symm
      have dx1' : f1.deltax.val = f.deltax.val := dx1
      have dy1' : f1.deltay.val = f.deltay.val := dy1
      have hg1 : Good A B xo yo s f1 := ⟨hg.spans.same wf1 (by rw [exact_body hb1]; simp) dx1 dy1 n1, by rw [dx1']; exact hg.fits_x, by rw [dy1']; exact hg.fits_y, hg.seen⟩
      obtain ⟨f2, e2, g2, dx2, dy2, t2, l, w2, l1, l2, l3⟩ := ih f1 s [] [] X Y hg1 hv' (by rw [dx1', dy1']; exact hL)
        (by simp [Records]) (by simp [m1 X Y])
      rw [dx1', dy1'] at l2 l3
      rw [w1] at w2
      refine ⟨f2, ?_, ?_, dx2.trans dx1', dy2.trans dy1', ?_, l, w2, l1, l2, l3⟩
      · simp only [List.map_cons, Event.call, run, step, e1, lift]; exact e2
      · simpa [Event.points, Event.exact] using g2
      · rw [t2, t1]; rfl
    | expand x0 x1 y0 y1 =>
      obtain ⟨hx, hy, q1, q2, q3, q4⟩ := hv (.expand x0 x1 y0 y1) (by simp)
      obtain ⟨f1, e1, g1, dx1, dy1, t1, w1, m1⟩ := hg.expand (new := [(x0.val, y0.val), (x1.val, y1.val)]) (x0 := x0) (x1 := x1) (y0 := y0) (y1 := y1)
        (by simp) (by simp) (by simp) (by simp)
        (by simp only [List.map_cons, List.map_nil, List.mem_cons, List.not_mem_nil, or_false]
            rintro x (rfl | rfl) <;> simp [hx])
        (by simp only [List.map_cons, List.map_nil, List.mem_cons, List.not_mem_nil, or_false]
            rintro x (rfl | rfl) <;> simp [hy])
        (by simp only [List.mem_cons, List.not_mem_nil, or_false]
            rintro p (rfl | rfl)
            · exact ⟨q1, q3⟩
            · exact ⟨q2, q4⟩)
      have dx1' : f1.deltax.val = f.deltax.val := dx1
      have dy1' : f1.deltay.val = f.deltay.val := dy1
      obtain ⟨f2, e2, g2, dx2, dy2, t2, l, w2, l1, l2, l3⟩ := ih f1 _ p1 p2 X Y g1 hv' (by rw [dx1', dy1']; exact hL)
        (by rw [dx1', dy1', m1]; exact h1) (by rw [dx1', dy1', m1]; exact h2)
      rw [dx1', dy1'] at l2 l3
      rw [w1] at w2
      refine ⟨f2, ?_, ?_, dx2.trans dx1', dy2.trans dy1', ?_, l, w2, l1, l2, l3⟩
      · simp only [List.map_cons, Event.call, run, step, e1, lift, Option.map_some]; exact e2
      · simpa [Event.points, Event.exact, List.append_assoc] using g2
      · rw [t2, t1]; rfl

/-! ### adding up -/

/-- The exact sum of the flagged weights. -/
noncomputable def flagged (l : List (Bool × ℝ)) : ℝ := (l.map fun m => if m.1 then m.2 else 0).sum

theorem flagged_cons (m : Bool × ℝ) (l : List (Bool × ℝ)) : flagged (m :: l) = (if m.1 then m.2 else 0) + flagged l := by simp [flagged]

theorem flagged_nonneg (l : List (Bool × ℝ)) (h : ∀ m ∈ l, 0 ≤ m.2) : 0 ≤ flagged l := by
  apply List.sum_nonneg
  intro z hz
  obtain ⟨m, hm, rfl⟩ := List.mem_map.mp hz
  split_ifs
  · exact h m hm
  · exact le_refl _

theorem accumulate_exact {w : ℤ} (l : List (Bool × ℝ)) : ∀ a : ℝ, 0 ≤ a → MultipleOf w a → (∀ m ∈ l, 0 ≤ m.2 ∧ MultipleOf w m.2) →
    a + (l.map Prod.snd).sum ≤ 2 ^ 53 * 2 ^ w → accumulate a l = a + flagged l := by
  induction l with
  | nil => intro a _ _ _ _; simp [accumulate, flagged]
  | cons m l ih =>
    intro a a0 am hl hs
    obtain ⟨m0, mm⟩ := hl m (by simp)
    have hl' : ∀ m ∈ l, 0 ≤ m.2 ∧ MultipleOf w m.2 := fun m hm => hl m (by simp [hm])
    have rest : 0 ≤ (l.map Prod.snd).sum := by
      apply List.sum_nonneg
      intro z hz
      obtain ⟨m, hm, rfl⟩ := List.mem_map.mp hz
      exact (hl' m hm).1
    simp only [List.map_cons, List.sum_cons] at hs
    rw [flagged_cons]
    obtain ⟨f, x⟩ := m
    cases f with
    | false =>
      have := ih a a0 am hl' (by linarith)
      simpa [accumulate] using this
    | true =>
      have hr : round53 (a + x) = a + x := (am.add mm).exact (by rw [abs_of_nonneg (by linarith)]; linarith)
      have := ih (a + x) (by linarith) (am.add mm) hl' (by linarith)
      unfold accumulate at this ⊢
      simp only [List.foldl_cons, if_true, hr, this]
      ring

theorem accumulate_near (l : List (Bool × ℝ)) : ∀ a : ℝ, 0 ≤ a → (∀ m ∈ l, 0 ≤ m.2) →
    (1 - eps) ^ l.length * (a + flagged l) ≤ accumulate a l ∧ accumulate a l ≤ (1 + eps) ^ l.length * (a + flagged l) := by
  have e0 := eps_pos
  have e1 := eps_small
  induction l with
  | nil => intro a _ _; simp [accumulate, flagged]
  | cons m l ih =>
    intro a a0 hl
    have m0 := hl m (by simp)
    have hl' : ∀ m ∈ l, 0 ≤ m.2 := fun m hm => hl m (by simp [hm])
    have F0 := flagged_nonneg l hl'
    have p1 : 0 ≤ (1 - eps) ^ l.length := pow_nonneg (by linarith) _
    have p2 : 0 ≤ (1 + eps) ^ l.length := pow_nonneg (by linarith) _
    obtain ⟨f, x⟩ := m
    dsimp only at m0
    rw [flagged_cons]
    simp only [List.length_cons, pow_succ]
    cases f with
    | false =>
      obtain ⟨h1, h2⟩ := ih a a0 hl'
      have e : accumulate a ((false, x) :: l) = accumulate a l := by simp [accumulate]
      rw [e]
      simp only [Bool.false_eq_true, if_false, zero_add]
      constructor
      · refine le_trans ?_ h1
        nlinarith [mul_nonneg p1 (mul_nonneg e0.le (by linarith : 0 ≤ a + flagged l))]
      · refine h2.trans ?_
        nlinarith [mul_nonneg p2 (mul_nonneg e0.le (by linarith : 0 ≤ a + flagged l))]
    | true =>
      have hr := round53_accurate (a + x)
      rw [abs_of_nonneg (by linarith : 0 ≤ a + x)] at hr
      obtain ⟨r1, r2⟩ := abs_le.mp hr
      change -(eps * (a + x)) ≤ _ at r1
      change _ ≤ eps * (a + x) at r2
      obtain ⟨h1, h2⟩ := ih (round53 (a + x)) (by nlinarith) hl'
      have e : accumulate a ((true, x) :: l) = accumulate (round53 (a + x)) l := by simp [accumulate]
      rw [e]
      simp only [if_true]
      constructor
      · refine le_trans ?_ h1
        rw [mul_assoc]
        exact mul_le_mul_of_nonneg_left (by nlinarith) p1
      · refine h2.trans ?_
        rw [mul_assoc]
        exact mul_le_mul_of_nonneg_left (by nlinarith) p2

open Classical in
theorem recorded_le_flagged (xo yo dx dy X Y : ℝ) (gs : List (List (Drawn ℝ) × ℝ)) (l : List (Bool × ℝ))
    (h : List.Forall₂ (fun g m => g.2 = m.2 ∧ (Records xo yo dx dy g.1 X Y → m.1 = true)) gs l) (h0 : ∀ m ∈ l, 0 ≤ m.2) :
    recordedWeight xo yo dx dy gs X Y ≤ flagged l := by
  induction h with
  | nil => simp [recordedWeight, flagged]
  | @cons g m gs l hgm _ ih =>
    have := ih (fun m hm => h0 m (by simp [hm]))
    rw [flagged_cons]
    unfold recordedWeight at this ⊢
    simp only [List.map_cons, List.sum_cons]
    refine add_le_add ?_ this
    have m0 := h0 m (by simp)
    split_ifs with c1 c2 c2
    · exact hgm.1.le
    · exact absurd (hgm.2 c1) c2
    · exact m0
    · exact le_refl _

open Classical in
theorem flagged_le_recorded (xo yo dx dy X Y : ℝ) (gs : List (List (Drawn ℝ) × ℝ)) (l : List (Bool × ℝ))
    (h : List.Forall₂ (fun g m => g.2 = m.2 ∧ (m.1 = true → Records xo yo dx dy g.1 X Y)) gs l) (h0 : ∀ m ∈ l, 0 ≤ m.2) :
    flagged l ≤ recordedWeight xo yo dx dy gs X Y := by
  induction h with
  | nil => simp [recordedWeight, flagged]
  | @cons g m gs l hgm _ ih =>
    have := ih (fun m hm => h0 m (by simp [hm]))
    rw [flagged_cons]
    unfold recordedWeight at this ⊢
    simp only [List.map_cons, List.sum_cons]
    refine add_le_add ?_ this
    have m0 := h0 m (by simp)
    split_ifs with c1 c2 c2
    · exact hgm.1.ge
    · exact absurd (hgm.2 c1) c2
    · rw [hgm.1]; exact m0
    · exact le_refl _

end PField
end Oneka
