import Verif.Spec.CaptureExact
import Verif.Lemmas.Accuracy
import Mathlib.Analysis.SpecialFunctions.Sqrt
import Mathlib.Analysis.Complex.Norm

/-! Helper lemmas for C95. -/

namespace Oneka

theorem euclid_complex (p q : ℝ × ℝ) : euclid p q = ‖(⟨q.1 - p.1, q.2 - p.2⟩ : ℂ)‖ := by
  unfold euclid
  rw [Complex.norm_def, Complex.normSq_mk]
  congr 1
  ring

theorem euclid_triangle (p q r : ℝ × ℝ) : euclid p r ≤ euclid p q + euclid q r := by
  rw [euclid_complex, euclid_complex, euclid_complex]
  refine le_trans (le_of_eq ?_) (norm_add_le _ _)
  congr 1
  apply Complex.ext <;> simp

theorem euclid_comm (p q : ℝ × ℝ) : euclid p q = euclid q p := by
  unfold euclid
  congr 1
  ring

theorem euclid_le_norm (p q : ℝ × ℝ) : euclid p q ≤ 3/2 * ‖q - p‖ := by
  have h1 : |q.1 - p.1| ≤ ‖q - p‖ := by simpa using norm_fst_le (q - p)
  have h2 : |q.2 - p.2| ≤ ‖q - p‖ := by simpa using norm_snd_le (q - p)
  have h0 := norm_nonneg (q - p)
  unfold euclid
  rw [Real.sqrt_le_iff]
  refine ⟨by positivity, ?_⟩
  have := sq_abs (q.1 - p.1)
  have := sq_abs (q.2 - p.2)
  have := abs_nonneg (q.1 - p.1)
  have := abs_nonneg (q.2 - p.2)
  nlinarith

/-- every time between the first and the last is in one of the strides -/
theorem stride_at {D t H m : ℝ} {l : List (ℝ × (ℝ × ℝ))} : ∀ {a : ℝ × (ℝ × ℝ)}, (a :: l).IsChain (Stride H m) → (l.map Prod.fst).getLast? = some D → a.1 ≤ t → t ≤ D →
    ∃ b c, [b, c] <:+: a :: l ∧ b.1 ≤ t ∧ t ≤ c.1 ∧ Stride H m b c := by
  induction l with
  | nil => intro a _ h; simp at h
  | cons c l ih =>
    intro a hc hl h0 h1
    rw [List.isChain_cons_cons] at hc
    by_cases ht : t ≤ c.1
    · exact ⟨a, c, ⟨[], l, rfl⟩, h0, ht, hc.1⟩
    · rw [not_le] at ht
      cases l with
      | nil =>
        simp only [List.map_cons, List.map_nil, List.getLast?_singleton, Option.some.injEq] at hl
        linarith
      | cons d l =>
        rw [List.map_cons, List.map_cons, List.getLast?_cons_cons, ← List.map_cons] at hl
        obtain ⟨b, e, h2, h3⟩ := ih hc.2 hl ht.le h1
        exact ⟨b, e, h2.trans (List.suffix_cons a _).isInfix, h3⟩

theorem pair_of_map {α β : Type} {g : α → β} {l : List α} {x y : β} (h : [x, y] <:+: l.map g) : ∃ a b, [a, b] <:+: l ∧ g a = x ∧ g b = y := by
  obtain ⟨s, t, h⟩ := h
  obtain ⟨l1, t', rfl, h1, h2⟩ := List.map_eq_append_iff.mp h.symm
  obtain ⟨s', l2, rfl, h3, h4⟩ := List.map_eq_append_iff.mp h1
  obtain ⟨a, l3, rfl, h5, h6⟩ := List.map_eq_cons_iff.mp h4
  obtain ⟨b, l4, rfl, h7, h8⟩ := List.map_eq_cons_iff.mp h6
  obtain rfl := List.map_eq_nil_iff.mp h8
  exact ⟨a, b, ⟨s', t', rfl⟩, h5, h7⟩

/-- the exact pathline between two times -/
theorem pathline_lip {f : ℝ × ℝ → ℝ × ℝ} {start : ℝ × ℝ} {D M : ℝ} {P : ℝ → ℝ × ℝ} (hP : Pathline f start D P) (hM : ∀ t, 0 ≤ t → t ≤ D → ‖f (P t)‖ ≤ M) {s t : ℝ} (h0 : 0 ≤ s) (hst : s ≤ t)
    (ht : t ≤ D) : ‖P t - P s‖ ≤ M * (t - s) :=
  norm_image_sub_le_of_norm_deriv_le_segment' (fun x hx => (hP.2 x (h0.trans hx.1) (hx.2.trans ht)).hasDerivWithinAt) (fun x hx => hM x (h0.trans hx.1) (hx.2.le.trans ht)) t ⟨hst, le_rfl⟩

/-- a trace that follows a pathline up to `E` records what the pathline passes, and nothing else, up to `δ` -/
theorem near_iff {f : ℝ × ℝ → ℝ × ℝ} {start : ℝ × ℝ} {D M H m E δ : ℝ} {P : ℝ → ℝ × ℝ} (hP : Pathline f start D P) (hM : ∀ t, 0 ≤ t → t ≤ D → ‖f (P t)‖ ≤ M) (hD : 0 ≤ D) (hM0 : 0 ≤ M) (hE0 : 0 ≤ E)
    (hm : m ≤ M * H) {path : List (ℝ × (ℝ × ℝ))} (hch : ((0, start) :: path).IsChain (Stride H m)) (hlast : (path.map Prod.fst).getLast? = some D)
    (hE : ∀ v ∈ path, v.1 ≤ D ∧ ‖v.2 - P v.1‖ ≤ E) (hδ : 3/2 * (E + M * H) ≤ δ) (u X Y : ℝ) :
    (Passes P D (u - δ) X Y → NearTrack (start :: path.map Prod.snd) u X Y) ∧ (0 ≤ u → NearTrack (start :: path.map Prod.snd) u X Y → Passes P D (u + δ) X Y) := by
  have hall : ∀ v ∈ (0, start) :: path, v.1 ≤ D ∧ ‖v.2 - P v.1‖ ≤ E := by
    intro v hv
    rcases List.mem_cons.mp hv with rfl | hv
    · refine ⟨hD, ?_⟩
      rw [hP.1]
      simpa using hE0
    · exact hE v hv
  have hpos : ∀ v ∈ (0, start) :: path, 0 ≤ v.1 := by
    have h := hch.imp (S := fun a b : ℝ × (ℝ × ℝ) => a.1 < b.1) fun _ _ h => h.1
    haveI : IsTrans (ℝ × (ℝ × ℝ)) (fun a b => a.1 < b.1) := ⟨fun _ _ _ => lt_trans⟩
    rw [List.isChain_iff_pairwise, List.pairwise_cons] at h
    intro v hv
    rcases List.mem_cons.mp hv with rfl | hv
    · exact le_rfl
    · exact (h.1 v hv).le
  constructor
  · rintro ⟨t, h0, h1, h2⟩
    obtain ⟨b, c, hbc, hb, hc, hs⟩ := stride_at hch hlast h0 h1
    have hbm : b ∈ (0, start) :: path := hbc.subset (by simp)
    have d1 : ‖P t - P b.1‖ ≤ M * H := (pathline_lip hP hM (hpos b hbm) hb h1).trans (mul_le_mul_of_nonneg_left (by linarith [hs.2.1]) hM0)
    have d2 := (hall b hbm).2
    have d3 : ‖P t - b.2‖ ≤ E + M * H := by
      have := norm_sub_le_norm_sub_add_norm_sub (P t) (P b.1) b.2
      rw [norm_sub_rev (P b.1)] at this
      linarith
    have d4 := euclid_triangle b.2 (P t) (X, Y)
    have d5 := euclid_le_norm b.2 (P t)
    have d6 : euclid b.2 (X, Y) < u := by linarith
    refine ⟨b.2, c.2, ?_, hs.2.2.1, 0, le_rfl, zero_le_one, ?_⟩
    · have := hbc.map Prod.snd
      simpa using this
    · have hu : 0 < u := lt_of_le_of_lt (Real.sqrt_nonneg _) d6
      rw [euclid, Real.sqrt_lt' hu] at d6
      simpa using d6
  · rintro hu ⟨x, y, hxy, -, s, hs0, hs1, hs⟩
    have hxy' : [x, y] <:+: ((0, start) :: path).map Prod.snd := hxy
    obtain ⟨b, c, hbc, rfl, rfl⟩ := pair_of_map hxy'
    have hbm : b ∈ (0, start) :: path := hbc.subset (by simp)
    have hst : Stride H m b c := by
      have := hch.infix hbc
      rw [List.isChain_cons_cons] at this
      exact this.1
    refine ⟨b.1, hpos b hbm, (hall b hbm).1, ?_⟩
    set z : ℝ × ℝ := (b.2.1 + s * (c.2.1 - b.2.1), b.2.2 + s * (c.2.2 - b.2.2)) with hz
    have e1 : euclid z (X, Y) < u := by
      have hu' : 0 < u := by
        refine lt_of_le_of_ne hu fun h => ?_
        rw [← h] at hs
        have := add_nonneg (sq_nonneg (X - (b.2.1 + s * (c.2.1 - b.2.1)))) (sq_nonneg (Y - (b.2.2 + s * (c.2.2 - b.2.2))))
        simp at hs
        linarith
      rw [euclid, Real.sqrt_lt' hu']
      exact hs
    have e2 : euclid b.2 z ≤ euclid b.2 c.2 := by
      unfold euclid
      apply Real.sqrt_le_sqrt
      simp only [hz]
      have : s^2 ≤ 1 := by nlinarith
      nlinarith [sq_nonneg (c.2.1 - b.2.1), sq_nonneg (c.2.2 - b.2.2)]
    have e3 := euclid_triangle (P b.1) b.2 (X, Y)
    have e4 := euclid_triangle b.2 z (X, Y)
    have e5 := euclid_le_norm (P b.1) b.2
    have e6 := (hall b hbm).2
    have e7 := hst.2.2.2
    have e8 : 0 ≤ euclid b.2 c.2 := Real.sqrt_nonneg _
    linarith

open Classical in
theorem countP_range {α : Type} (ls : List α) (C : α → Prop) : (ls.countP fun L => C L) = (List.range ls.length).countP fun i => ∃ L, ls[i]? = some L ∧ C L := by
  induction ls with
  | nil => simp
  | cons L ls ih =>
    rw [List.length_cons, List.range_succ_eq_map, List.countP_cons, List.countP_cons, List.countP_map, ih]
    simp [Function.comp_def]

end Oneka
