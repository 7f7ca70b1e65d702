import Verif.Lemmas.FlReportExample

/-!
# C102, C103: the impact curve and the decile table in floating-point arithmetic

C53 and C54 are about exact numbers. Here the frequencies, the areas and the thresholds are rounded to 53 binary digits, as in the computer, for fields that
were filled by registrations of weight 1.0 (as `create_deterministic_capturezone` and `create_stochastic_capturezone` make them).
-/

namespace Oneka

open PField

/-! ## C102 -/

/-- **C102.** After any history of calls in which every registration has weight 1, `create_impact_plot` returns the frequencies of all nodes, each rounded to
the nearest floating-point number, in the order of the exact frequencies, from the largest to the smallest, and (k+1) times the area of a cell. -/
theorem C102_curve {dx dy : Fl} {xo yo : Option Fl} {f0 f : PField Fl} {cs : List (Call Fl)} (h0 : new dx dy xo yo = .ok f0)
    (hw : ∀ w, Call.register w ∈ cs → w.val = 1) (h : f0.run cs = some f) {b : Body Fl} (hb : f.body = some b) (ht : 0 < b.totalWeight.val)
    (sq : Fl) : ∃ im, flImpactPlot sq f = .ok im ∧
      (∃ nodes : List (ℕ × ℕ), nodes.Nodup ∧ (∀ n, n ∈ nodes ↔ n.1 < f.nrows ∧ n.2 < f.ncols) ∧
        (nodes.map fun n => b.share n.1 n.2).Pairwise (· ≥ ·) ∧ im.pr = nodes.map fun n => Fl.of (b.share n.1 n.2)) ∧
      im.area.length = im.pr.length ∧ ∀ (k : ℕ) (a : Fl), im.area[k]? = some a → a = ((k + 1 : ℕ) : Fl) * sq := by
  obtain ⟨N, c, C⟩ := census h0 hw h hb
  obtain ⟨im, e, epr, earea, -, -⟩ := flImpactPlot_ok hb ht sq
  refine ⟨im, e, ?_, by rw [earea]; simp, ?_⟩
  · set nodes := ((cells f.nrows f.ncols).mergeSort fun n m => decide (b.share n.1 n.2 ≤ b.share m.1 m.2)).reverse with hnodes
    have perm : nodes.Perm (cells f.nrows f.ncols) := (List.reverse_perm _).trans (List.mergeSort_perm _ _)
    have sorted : (nodes.map fun n => b.share n.1 n.2).Pairwise (· ≥ ·) := by
      rw [List.pairwise_map, List.pairwise_reverse]
      have := List.pairwise_mergeSort (le := fun n m : ℕ × ℕ => decide (b.share n.1 n.2 ≤ b.share m.1 m.2)) (by
        intro a b c h1 h2; simp only [decide_eq_true_eq] at *; exact h1.trans h2) (by
        intro a b; simp only [Bool.or_eq_true, decide_eq_true_eq]; exact le_total _ _) (cells f.nrows f.ncols)
      exact this.imp (by simp)
    refine ⟨nodes, perm.nodup_iff.mpr (cells_nodup _ _), fun n => by rw [perm.mem_iff, mem_cells], sorted, ?_⟩
    have hv : Function.Injective Fl.val := fun a b h => Fl.ext' h
    apply List.map_injective_iff.mpr hv
    refine List.Perm.eq_of_pairwise (le := (· ≥ ·)) (fun a b _ _ h1 h2 => le_antisymm h2 h1) ?_ ?_ ?_
    · rw [epr]; exact flDesc_sorted _
    · rw [List.map_map, List.pairwise_map]
      rw [List.pairwise_map] at sorted
      exact sorted.imp fun h => round53_mono h
    · rw [epr]
      refine ((flDesc_perm _).map _).trans ?_
      rw [C.flat]
      exact (perm.map _).symm.map _
  · intro k a hk
    rw [earea, List.getElem?_map, Option.map_eq_some_iff] at hk
    obtain ⟨x, hx, rfl⟩ := hk
    obtain ⟨hlt, hx⟩ := List.getElem?_eq_some_iff.mp hx
    rw [← hx, List.getElem_range]

/-- **C102.** All entries and the total weight are whole numbers (the entries at most the total), so the frequencies are in [0, 1]; up to 2^52 registrations,
rounding keeps different frequencies apart and in order, and only 0 becomes 0 and only 1 becomes 1. -/
theorem C102_order {dx dy : Fl} {xo yo : Option Fl} {f0 f : PField Fl} {cs : List (Call Fl)} (h0 : new dx dy xo yo = .ok f0)
    (hw : ∀ w, Call.register w ∈ cs → w.val = 1) (h : f0.run cs = some f) {b : Body Fl} (hb : f.body = some b) (ht : 0 < b.totalWeight.val)
    {i j : ℕ} (hi : i < f.nrows) (hj : j < f.ncols) :
    (∃ c N : ℕ, (b.pgrid.val i j).val = c ∧ b.totalWeight.val = N ∧ c ≤ N) ∧ 0 ≤ (Fl.of (b.share i j)).val ∧ (Fl.of (b.share i j)).val ≤ 1 ∧
    (b.totalWeight.val < 2 ^ 52 →
      ((Fl.of (b.share i j)).val = 0 ↔ b.share i j = 0) ∧ ((Fl.of (b.share i j)).val = 1 ↔ b.share i j = 1) ∧
      ∀ i' j', i' < f.nrows → j' < f.ncols → ((Fl.of (b.share i j)).val < (Fl.of (b.share i' j')).val ↔ b.share i j < b.share i' j')) := by
  obtain ⟨N, c, C⟩ := census h0 hw h hb
  have N0 : 0 < N := by rw [C.total] at ht; exact_mod_cast ht
  have hn : (i, j) ∈ cells f.nrows f.ncols := mem_cells.mpr ⟨hi, hj⟩
  have hs := C.share_mem N0 hn
  have one : round53 1 = 1 := by simpa using round53_zpow 0
  have lo : 0 ≤ round53 (b.share i j) := by rw [← round53_zero]; exact round53_mono hs.1
  have up : round53 (b.share i j) ≤ 1 := by rw [← one]; exact round53_mono hs.2
  refine ⟨⟨c i j, N, (C.entry _ hn).1, C.total, (C.entry _ hn).2⟩, lo, up, fun hN => ⟨C.zero_iff (n := (i, j)), ?_, fun i' j' hi' hj' => ?_⟩⟩
  all_goals rw [C.total] at hN
  all_goals have hN' : N < 2 ^ 52 := by exact_mod_cast hN
  · have := C.lt_one_iff N0 hN' hn
    constructor
    · intro h1
      exact le_antisymm hs.2 (not_lt.mp fun hl => absurd (this.mpr hl) (by rw [h1]; exact lt_irrefl _))
    · intro h1; rw [h1]; exact one
  · exact C.lt_iff (n := (i, j)) (m := (i', j')) N0 hN' hn (mem_cells.mpr ⟨hi', hj'⟩)

/-- **C102.** The points drawn are the same as with exact frequencies: if some node was never captured, the curve is drawn from the last node that was always
captured (or from the beginning) to the first node that never was. -/
theorem C102_drawn {dx dy : Fl} {xo yo : Option Fl} {f0 f : PField Fl} {cs : List (Call Fl)} (h0 : new dx dy xo yo = .ok f0)
    (hw : ∀ w, Call.register w ∈ cs → w.val = 1) (h : f0.run cs = some f) {b : Body Fl} (hb : f.body = some b) (ht : 0 < b.totalWeight.val)
    (hN : b.totalWeight.val < 2 ^ 52) (sq : Fl) {im : FlImpact} (him : flImpactPlot sq f = .ok im) (hz : (f.nodesOf b fun s => s = 0).Nonempty) :
    im.lo = (f.nodesOf b fun s => s = 1).card - 1 ∧ im.hi = (f.nodesOf b fun s => 0 < s).card + 1 := by
  classical
  obtain ⟨N, c, C⟩ := census h0 hw h hb
  have N0 : 0 < N := by rw [C.total] at ht; exact_mod_cast ht
  have hN' : N < 2 ^ 52 := by rw [C.total] at hN; exact_mod_cast hN
  obtain ⟨im', e, epr, -, elo, ehi⟩ := flImpactPlot_ok hb ht sq
  obtain rfl := Except.ok.inj (e.symm.trans him)
  obtain ⟨n, hn⟩ := hz
  obtain ⟨hn, hn0⟩ := mem_nodesOf.mp hn
  have sorted : (im'.pr.map Fl.val).Pairwise (· ≥ ·) := by rw [epr]; exact flDesc_sorted _
  have perm : im'.pr.Perm ((cells f.nrows f.ncols).map fun n => Fl.of (b.share n.1 n.2)) := by rw [epr, ← C.flat]; exact flDesc_perm _
  have one : round53 1 = 1 := by simpa using round53_zpow 0
  have oneFl : ((1 : ℕ) : Fl).val = 1 := by
    have : ((1 : ℕ) : Fl).val = ((1 : ℕ) : ℝ) := Fl.of_nat 1 (by norm_num)
    rw [this]; norm_num
  have n0 : (0 : ℝ) ∈ im'.pr.map Fl.val := by
    refine List.mem_map.mpr ⟨Fl.of (b.share n.1 n.2), perm.mem_iff.mpr (List.mem_map.mpr ⟨n, hn, rfl⟩), ?_⟩
    exact C.zero_iff.mpr hn0
  have bnd : ∀ n ∈ cells f.nrows f.ncols, 0 ≤ round53 (b.share n.1 n.2) ∧ round53 (b.share n.1 n.2) ≤ 1 := fun n hn => by
    have hs := C.share_mem N0 hn
    exact ⟨by rw [← round53_zero]; exact round53_mono hs.1, by rw [← one]; exact round53_mono hs.2⟩
  have count : ∀ P : ℝ → Prop, (im'.pr.map Fl.val).countP (fun v => decide (P v)) = (cells f.nrows f.ncols).countP (fun n => decide (P (round53 (b.share n.1 n.2)))) := by
    intro P
    rw [List.countP_map, perm.countP_eq, List.countP_map]
    rfl
  -- largest float below one
  have below : ∃ q < (1 : ℝ), ∀ n ∈ cells f.nrows f.ncols, round53 (b.share n.1 n.2) < 1 → round53 (b.share n.1 n.2) ≤ q := by
    refine ⟨round53 ((N - 1 : ℕ) / N), ?_, fun m hm hl => ?_⟩
    · have := frequency_lt (le_refl N) hN' (by omega : N - 1 < N)
      rw [div_self (by exact_mod_cast N0.ne'), one] at this
      exact this
    · have := (C.lt_one_iff N0 hN' hm).mp hl
      rw [C.share hm] at this ⊢
      have hc : (c m.1 m.2 : ℝ) < N := (div_lt_one (by exact_mod_cast N0)).mp this
      have hc' : c m.1 m.2 < N := by exact_mod_cast hc
      refine round53_mono (div_le_div_of_nonneg_right ?_ (by positivity))
      exact_mod_cast (by omega : c m.1 m.2 ≤ N - 1)
  obtain ⟨q, q1, hq⟩ := below
  have q0 : 0 ≤ q := by
    have z : round53 (b.share n.1 n.2) = 0 := C.zero_iff.mpr hn0
    have := hq n hn (by rw [z]; norm_num)
    rwa [z] at this
  constructor
  · rw [elo, card_nodesOf]
    obtain ⟨v, -, -, -, hv⟩ := first_at_most _ sorted q n0 q0
    have hmap : (im'.pr.map fun v => decide (v < ((1 : ℕ) : Fl))) = (im'.pr.map Fl.val).map fun v => decide (v ≤ q) := by
      rw [List.map_map]
      refine List.map_congr_left fun v hv => ?_
      obtain ⟨m, hm, rfl⟩ := List.mem_map.mp (perm.mem_iff.mp hv)
      simp only [Function.comp, Fl.lt_iff, oneFl]
      rw [decide_eq_decide]
      exact ⟨fun h => hq m hm h, fun h => h.trans_lt q1⟩
    rw [hmap, hv, count]
    congr 1
    refine List.countP_congr fun m hm => ?_
    simp only [decide_eq_true_eq]
    constructor
    · intro h1
      by_contra hne
      have := (C.lt_one_iff N0 hN' hm).mpr (lt_of_le_of_ne (C.share_mem N0 hm).2 hne)
      exact absurd (hq m hm this) (not_le.mpr h1)
    · intro h1; rw [h1, one]; exact q1
  · rw [ehi, card_nodesOf]
    obtain ⟨v, hv1, -, -, hv⟩ := first_at_most _ sorted 0 n0 (le_refl _)
    have hmap : (im'.pr.map fun v => decide (v = 0)) = (im'.pr.map Fl.val).map fun v => decide (v ≤ 0) := by
      rw [List.map_map]
      refine List.map_congr_left fun v hv => ?_
      obtain ⟨m, hm, rfl⟩ := List.mem_map.mp (perm.mem_iff.mp hv)
      simp only [Function.comp]
      rw [decide_eq_decide]
      constructor
      · intro h; rw [h]; simp
      · intro h; apply Fl.ext'; rw [Fl.val_zero]; exact le_antisymm h (bnd m hm).1
    have hlt := (List.getElem?_eq_some_iff.mp hv1).1
    rw [hmap, min_eq_right (by rw [List.length_map] at hlt; omega), hv, count]
    congr 1
    refine List.countP_congr fun m hm => ?_
    simp only [decide_eq_true_eq]
    constructor
    · intro h1
      rcases (C.share_mem N0 hm).1.lt_or_eq with h | h
      · exact h
      · rw [← h, round53_zero] at h1; exact absurd h1 (lt_irrefl _)
    · exact fun h1 => round53_pos h1

example : ∃ f0 f b, new (fi 10) (fi 10) (some (fi 0)) (some (fi 0)) = .ok f0 ∧ (∀ w, Call.register w ∈ twoCalls → w.val = 1) ∧ f0.run twoCalls = some f ∧
    f.body = some b ∧ 0 < b.totalWeight.val ∧ b.totalWeight.val < 2 ^ 52 ∧ (f.nodesOf b fun s => s = 0).Nonempty := by
  obtain ⟨f0, f, b, h0, h, hb, r, c, t, s1, s2⟩ := two_realizations
  refine ⟨f0, f, b, h0, ?_, h, hb, by rw [t]; norm_num, by rw [t]; norm_num, ⟨(2, 2), ?_⟩⟩
  · intro w hw
    simp [twoCalls] at hw
    rw [hw, fi_val 1]; norm_num
  · rw [mem_nodesOf, mem_cells, r, c]
    exact ⟨by norm_num, s2⟩

/-! ## C103 -/

/-- **C103**, what the table shows. It has 19 lines. If some node is not above the level of a line (`AboveLevel`), the line shows the largest
frequency of such a node, rounded, and the area of the nodes above the level plus one cell. If all nodes are above, it shows the largest frequency of all and
one cell. Up to 2^47 registrations. Missing: that "above" means more than (k+1)/20 in every line, as in exact arithmetic; it does not (next theorem). -/
theorem C103_lines_partial {dx dy : Fl} {xo yo : Option Fl} {f0 f : PField Fl} {cs : List (Call Fl)} (h0 : new dx dy xo yo = .ok f0)
    (hw : ∀ w, Call.register w ∈ cs → w.val = 1) (h : f0.run cs = some f) {b : Body Fl} (hb : f.body = some b) (ht : 0 < b.totalWeight.val)
    (hN : b.totalWeight.val ≤ 2 ^ 47) (sq : Fl) :
    ∃ im t, flImpactPlot sq f = .ok im ∧ flDecileTable im = .ok t ∧ t.length = 19 ∧ ∀ k < 19, ∃ v a, t[k]? = some (v, a) ∧
      ((f.nodesOf b fun s => ¬ AboveLevel k s).Nonempty →
        (∃ x, LargestShare f b (fun s => ¬ AboveLevel k s) x ∧ v = Fl.of x) ∧ a = (((f.nodesOf b (AboveLevel k)).card + 1 : ℕ) : Fl) * sq) ∧
      ((f.nodesOf b fun s => ¬ AboveLevel k s) = ∅ → (∃ x, LargestShare f b (fun _ => True) x ∧ v = Fl.of x) ∧ a = ((1 : ℕ) : Fl) * sq) := by
  classical
  obtain ⟨N, c, C⟩ := census h0 hw h hb
  have N0 : 0 < N := by rw [C.total] at ht; exact_mod_cast ht
  have hN' : N ≤ 2 ^ 47 := by rw [C.total] at hN; exact_mod_cast hN
  obtain ⟨im, e, epr, earea, -, -⟩ := flImpactPlot_ok hb ht sq
  have sorted : (im.pr.map Fl.val).Pairwise (· ≥ ·) := by rw [epr]; exact flDesc_sorted _
  have perm : im.pr.Perm ((cells f.nrows f.ncols).map fun n => Fl.of (b.share n.1 n.2)) := by rw [epr, ← C.flat]; exact flDesc_perm _
  have memv : ∀ u, u ∈ im.pr.map Fl.val ↔ ∃ n ∈ cells f.nrows f.ncols, round53 (b.share n.1 n.2) = u := by
    intro u
    rw [List.mem_map]
    constructor
    · rintro ⟨v, hv, rfl⟩
      obtain ⟨m, hm, rfl⟩ := List.mem_map.mp (perm.mem_iff.mp hv)
      exact ⟨m, hm, rfl⟩
    · rintro ⟨n, hn, rfl⟩
      exact ⟨Fl.of (b.share n.1 n.2), perm.mem_iff.mpr (List.mem_map.mpr ⟨n, hn, rfl⟩), rfl⟩
  have area_get : ∀ i, i < im.pr.length → im.area[i]? = some (((i + 1 : ℕ) : Fl) * sq) := by
    intro i hi
    rw [earea, List.getElem?_map, List.getElem?_range hi]; rfl
  have lt_iff : ∀ n ∈ cells f.nrows f.ncols, ∀ m ∈ cells f.nrows f.ncols, round53 (b.share n.1 n.2) ≤ round53 (b.share m.1 m.2) → b.share n.1 n.2 ≤ b.share m.1 m.2 := by
    intro n hn m hm hle
    by_contra hc
    exact absurd ((C.lt_iff N0 (by omega) hm hn).mpr (not_le.mp hc)) (not_lt.mpr hle)
  have lvl : ∀ k < 19, ∀ n ∈ cells f.nrows f.ncols, (round53 (b.share n.1 n.2) ≤ (threshold k).val ↔ ¬ AboveLevel k (b.share n.1 n.2)) := by
    intro k hk n hn
    rw [C.share hn, compare_threshold (C.entry n hn).2 N0 hN' hk]
    unfold AboveLevel
    split_ifs <;> simp
  have zero_mem : (0, 0) ∈ cells f.nrows f.ncols := mem_cells.mpr ⟨by have := C.rows; dsimp only; omega, by have := C.cols; dsimp only; omega⟩
  have len : 0 < im.pr.length := by
    rw [perm.length_eq, List.length_map]
    exact List.length_pos_of_mem zero_mem
  obtain ⟨t, ht1, ht2, ht3⟩ := flDecileLoop_ok im (fun p r => ∀ k < 19, p = threshold k →
      ((f.nodesOf b fun s => ¬ AboveLevel k s).Nonempty →
        (∃ x, LargestShare f b (fun s => ¬ AboveLevel k s) x ∧ r.1 = Fl.of x) ∧ r.2 = (((f.nodesOf b (AboveLevel k)).card + 1 : ℕ) : Fl) * sq) ∧
      ((f.nodesOf b fun s => ¬ AboveLevel k s) = ∅ → (∃ x, LargestShare f b (fun _ => True) x ∧ r.1 = Fl.of x) ∧ r.2 = ((1 : ℕ) : Fl) * sq))
    (flLinspace (Fl.of (5/100)) (Fl.of (95/100)) 19) (by
      intro p _
      have hmap : (im.pr.map fun v => decide (v ≤ p)) = (im.pr.map Fl.val).map fun v => decide (v ≤ p.val) := by
        rw [List.map_map]; rfl
      by_cases hex : ∃ u ∈ im.pr.map Fl.val, u ≤ p.val
      · obtain ⟨u, hu, hup⟩ := hex
        obtain ⟨v, hv1, hv2, hv3, hv4⟩ := first_at_most _ sorted p.val hu hup
        rw [← hmap] at hv1 hv4
        rw [List.getElem?_map, Option.map_eq_some_iff] at hv1
        obtain ⟨w, hw1, rfl⟩ := hv1
        have hlt := (List.getElem?_eq_some_iff.mp hw1).1
        refine ⟨_, flDecile_some im p w _ hw1 (area_get _ hlt), fun k hk hpk => ⟨fun _ => ⟨?_, ?_⟩, fun hempty => ?_⟩⟩
        · obtain ⟨m, hm, hmw⟩ := (memv w.val).mp (List.mem_map.mpr ⟨w, List.mem_of_getElem? hw1, rfl⟩)
          refine ⟨b.share m.1 m.2, ⟨⟨m, mem_nodesOf.mpr ⟨hm, (lvl k hk m hm).mp (by rw [hmw, ← hpk]; exact hv2)⟩, rfl⟩, fun n hn => ?_⟩, Fl.ext' hmw.symm⟩
          obtain ⟨hn1, hn2⟩ := mem_nodesOf.mp hn
          refine lt_iff n hn1 m hm ?_
          rw [hmw]
          exact hv3 _ ((memv _).mpr ⟨n, hn1, rfl⟩) (by rw [hpk]; exact (lvl k hk n hn1).mpr hn2)
        · dsimp only
          rw [hv4, card_nodesOf, List.countP_map, perm.countP_eq, List.countP_map]
          congr 3
          refine List.countP_congr fun n hn => ?_
          simp only [Function.comp, decide_eq_true_eq]
          rw [hpk, ← not_le]
          have := lvl k hk n hn
          exact (not_congr this).trans not_not
        · obtain ⟨n, hn, rfl⟩ := (memv u).mp hu
          have : n ∈ f.nodesOf b fun s => ¬ AboveLevel k s := mem_nodesOf.mpr ⟨hn, (lvl k hk n hn).mp (by rw [← hpk]; exact hup)⟩
          rw [hempty] at this
          exact absurd this (Finset.notMem_empty _)
      · have i0 : argmax (im.pr.map fun v => decide (v ≤ p)) = 0 := by
          apply argmax_none
          intro hm
          obtain ⟨v, hv, hvp⟩ := List.mem_map.mp hm
          exact hex ⟨v.val, List.mem_map.mpr ⟨v, hv, rfl⟩, by simpa [Fl.le_iff] using hvp⟩
        refine ⟨_, flDecile_some im p _ _ (by rw [i0]; exact List.getElem?_eq_getElem len) (by rw [i0]; exact area_get 0 len),
          fun k hk hpk => ⟨fun ⟨n, hn⟩ => ?_, fun _ => ⟨?_, rfl⟩⟩⟩
        · obtain ⟨hn1, hn2⟩ := mem_nodesOf.mp hn
          exact absurd ⟨_, (memv _).mpr ⟨n, hn1, rfl⟩, by rw [hpk]; exact (lvl k hk n hn1).mpr hn2⟩ hex
        · obtain ⟨m, hm, hmw⟩ := (memv (im.pr[0]).val).mp (List.mem_map.mpr ⟨_, List.getElem_mem len, rfl⟩)
          refine ⟨b.share m.1 m.2, ⟨⟨m, mem_nodesOf.mpr ⟨hm, trivial⟩, rfl⟩, fun n hn => ?_⟩, Fl.ext' hmw.symm⟩
          obtain ⟨hn1, -⟩ := mem_nodesOf.mp hn
          refine lt_iff n hn1 m hm ?_
          rw [hmw]
          obtain ⟨q, hq, hqv⟩ := List.mem_iff_getElem.mp ((memv _).mpr ⟨n, hn1, rfl⟩)
          rw [← hqv]
          rcases Nat.eq_zero_or_pos q with rfl | h
          · simp
          · have := List.pairwise_iff_getElem.mp sorted 0 q (by simpa using len) hq h
            simpa using this)
  refine ⟨im, t, e, ht1, by rw [ht2, flLinspace_length], fun k hk => ?_⟩
  obtain ⟨⟨v, a⟩, hr1, hr2⟩ := ht3 k _ (threshold_get k hk)
  exact ⟨v, a, hr1, hr2 k hk rfl⟩

/-- **C103** fails. In the lines for 0.40, 0.45, 0.50, 0.55 and 0.80 the nodes with exactly that frequency are counted as above it: if there is such a node, and
one with a smaller frequency, the line shows the largest smaller frequency, while the same table in exact arithmetic shows the level itself. -/
theorem C103_fails_at_exact_levels {dx dy : Fl} {xo yo : Option Fl} {f0 f : PField Fl} {cs : List (Call Fl)} (h0 : new dx dy xo yo = .ok f0)
    (hw : ∀ w, Call.register w ∈ cs → w.val = 1) (h : f0.run cs = some f) {b : Body Fl} (hb : f.body = some b) (ht : 0 < b.totalWeight.val)
    (hN : b.totalWeight.val ≤ 2 ^ 47) (sq : Fl) {k : ℕ} (hk : k ∈ lowRows) (he : (f.nodesOf b fun s => s = ((k : ℝ) + 1) / 20).Nonempty)
    (hl : (f.nodesOf b fun s => s < ((k : ℝ) + 1) / 20).Nonempty) (spacing : ℝ) :
    (∃ im t v a x, flImpactPlot sq f = .ok im ∧ flDecileTable im = .ok t ∧ t[k]? = some (v, a) ∧
      LargestShare f b (fun s => s < ((k : ℝ) + 1) / 20) x ∧ v = Fl.of x ∧ v.val < ((k : ℝ) + 1) / 20) ∧
    ∃ im a, createImpactPlot spacing f.exact = .ok im ∧ decile im (((k : ℝ) + 1) / 20) = .ok (((k : ℝ) + 1) / 20, a) := by
  have k19 : k < 19 := by
    simp only [lowRows, List.mem_cons, List.not_mem_nil, or_false] at hk
    omega
  have ab : (fun s => ¬ AboveLevel k s) = fun s : ℝ => s < ((k : ℝ) + 1) / 20 := by
    funext s; unfold AboveLevel; rw [if_pos hk]; exact propext not_le
  constructor
  · obtain ⟨im, t, h1, h2, -, h3⟩ := C103_lines_partial h0 hw h hb ht hN sq
    obtain ⟨v, a, h4, h5, -⟩ := h3 k k19
    rw [ab] at h5
    obtain ⟨⟨x, hx, hv⟩, -⟩ := h5 hl
    refine ⟨im, t, v, a, x, h1, h2, h4, hx, hv, ?_⟩
    obtain ⟨N, c, C⟩ := census h0 hw h hb
    have N0 : 0 < N := by rw [C.total] at ht; exact_mod_cast ht
    have hN' : N ≤ 2 ^ 47 := by rw [C.total] at hN; exact_mod_cast hN
    obtain ⟨⟨n, hn, rfl⟩, -⟩ := hx
    obtain ⟨hn1, hn2⟩ := mem_nodesOf.mp hn
    have cmp := compare_threshold (C.entry n hn1).2 N0 hN' k19
    rw [if_pos hk, ← C.share hn1] at cmp
    rw [hv]
    refine (cmp.mpr hn2).trans_lt ?_
    simp only [lowRows, List.mem_cons, List.not_mem_nil, or_false] at hk
    rcases hk with rfl | rfl | rfl | rfl | rfl
    · rw [threshold7]; norm_num
    · rw [threshold8]; norm_num
    · rw [threshold9]; norm_num
    · rw [threshold10]; norm_num
    · rw [threshold15]; norm_num
  · obtain ⟨N, c, C⟩ := census h0 hw h hb
    obtain ⟨n, hn⟩ := he
    obtain ⟨hn1, hn2⟩ := mem_nodesOf.mp hn
    obtain ⟨im, e, epr, earea⟩ : ∃ im, createImpactPlot spacing f.exact = .ok im ∧
        im.pr = ((normalized b.exact).flat.mergeSort fun u v => decide (u ≤ v)).reverse ∧
        im.area = (List.range im.pr.length).map fun (k : ℕ) => ((k : ℝ) + 1) * spacing ^ 2 := by
      unfold createImpactPlot
      rw [exact_body hb]
      simp only
      rw [if_neg (show ¬ b.exact.totalWeight ≤ 0 from not_le.mpr ht)]
      exact ⟨_, rfl, rfl, rfl⟩
    have fl : (normalized b.exact).flat = (cells f.nrows f.ncols).map fun n => b.share n.1 n.2 := by
      rw [flat_eq]
      show (cells b.pgrid.rows b.pgrid.cols).map _ = _
      rw [C.prows, C.pcols]
      rfl
    have mem : ((k : ℝ) + 1) / 20 ∈ im.pr := by
      rw [epr, (desc_perm _).mem_iff, fl]
      exact List.mem_map.mpr ⟨n, hn1, hn2⟩
    obtain ⟨v, hv1, hv2, hv3, -⟩ := first_at_most im.pr (by rw [epr]; exact desc_sorted _) (((k : ℝ) + 1) / 20) mem (le_refl _)
    obtain rfl : v = ((k : ℝ) + 1) / 20 := le_antisymm hv2 (hv3 _ mem (le_refl _))
    have hlt := (List.getElem?_eq_some_iff.mp hv1).1
    have ha : im.area[argmax (im.pr.map fun v => decide (v ≤ ((k : ℝ) + 1) / 20))]? =
        some (((argmax (im.pr.map fun v => decide (v ≤ ((k : ℝ) + 1) / 20)) : ℕ) + 1 : ℝ) * spacing ^ 2) := by
      rw [earea, List.getElem?_map, List.getElem?_range hlt]; rfl
    refine ⟨im, ((argmax (im.pr.map fun v => decide (v ≤ ((k : ℝ) + 1) / 20)) : ℕ) + 1 : ℝ) * spacing ^ 2, e, ?_⟩
    unfold decile
    simp only [hv1, ha]

/-- One of two realizations captures the middle node: the line for 0.50 does not say so. -/
example : ∃ f0 f b, new (fi 10) (fi 10) (some (fi 0)) (some (fi 0)) = .ok f0 ∧ (∀ w, Call.register w ∈ twoCalls → w.val = 1) ∧ f0.run twoCalls = some f ∧
    f.body = some b ∧ 0 < b.totalWeight.val ∧ b.totalWeight.val ≤ 2 ^ 47 ∧ 9 ∈ lowRows ∧
    (f.nodesOf b fun s => s = (((9 : ℕ) : ℝ) + 1) / 20).Nonempty ∧ (f.nodesOf b fun s => s < (((9 : ℕ) : ℝ) + 1) / 20).Nonempty := by
  obtain ⟨f0, f, b, h0, h, hb, r, c, t, s1, s2⟩ := two_realizations
  refine ⟨f0, f, b, h0, ?_, h, hb, by rw [t]; norm_num, by rw [t]; norm_num, by decide, ⟨(1, 1), ?_⟩, ⟨(2, 2), ?_⟩⟩
  · intro w hw
    simp [twoCalls] at hw
    rw [hw, fi_val 1]; norm_num
  · rw [mem_nodesOf, mem_cells, r, c]
    exact ⟨by norm_num, by rw [s1]; norm_num⟩
  · rw [mem_nodesOf, mem_cells, r, c]
    exact ⟨by norm_num, by rw [s2]; norm_num⟩

/-- **C103.** In the other fourteen lines "above" means more than (k+1)/20, as in exact arithmetic, also for the areas: the line shows the largest frequency
that does not exceed the level. -/
theorem C103_other_lines {dx dy : Fl} {xo yo : Option Fl} {f0 f : PField Fl} {cs : List (Call Fl)} (h0 : new dx dy xo yo = .ok f0)
    (hw : ∀ w, Call.register w ∈ cs → w.val = 1) (h : f0.run cs = some f) {b : Body Fl} (hb : f.body = some b) (ht : 0 < b.totalWeight.val)
    (hN : b.totalWeight.val ≤ 2 ^ 47) (sq : Fl) {k : ℕ} (k19 : k < 19) (hk : k ∉ lowRows) (hl : (f.nodesOf b fun s => s ≤ ((k : ℝ) + 1) / 20).Nonempty) :
    ∃ im t v a x, flImpactPlot sq f = .ok im ∧ flDecileTable im = .ok t ∧ t[k]? = some (v, a) ∧
      LargestShare f b (fun s => s ≤ ((k : ℝ) + 1) / 20) x ∧ v = Fl.of x ∧ a = (((f.nodesOf b fun s => ((k : ℝ) + 1) / 20 < s).card + 1 : ℕ) : Fl) * sq := by
  have ab : (fun s => ¬ AboveLevel k s) = fun s : ℝ => s ≤ ((k : ℝ) + 1) / 20 := by
    funext s; unfold AboveLevel; rw [if_neg hk]; exact propext not_lt
  have ab' : AboveLevel k = fun s : ℝ => ((k : ℝ) + 1) / 20 < s := by
    funext s; unfold AboveLevel; rw [if_neg hk]
  obtain ⟨im, t, h1, h2, -, h3⟩ := C103_lines_partial h0 hw h hb ht hN sq
  obtain ⟨v, a, h4, h5, -⟩ := h3 k k19
  rw [ab, ab'] at h5
  obtain ⟨⟨x, hx, hv⟩, ha⟩ := h5 hl
  exact ⟨im, t, v, a, x, h1, h2, h4, hx, hv, ha⟩

end Oneka
