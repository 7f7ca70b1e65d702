import Verif.Spec.NearWell
import Verif.Spec.CaptureExact
import Verif.Props.Backtrace
import Verif.Lemmas.Draw
import Verif.Lemmas.Call

/-!
# Lemmas for C133
-/

namespace Oneka

theorem first_step {α : Type} : ∀ (l : List α) (s : α), (∃ v ∈ l, v ≠ s) → ∃ b, b ≠ s ∧ [s, b] <:+: s :: l
  | [], s, ⟨v, hv, _⟩ => by simp at hv
  | x :: l, s, h => by
    by_cases hx : x = s
    · subst hx
      obtain ⟨b, hb, hi⟩ := first_step l x (by
        obtain ⟨v, hv, hne⟩ := h
        rcases List.mem_cons.mp hv with rfl | hv
        · exact absurd rfl hne
        · exact ⟨v, hv, hne⟩)
      exact ⟨b, hb, hi.trans (List.suffix_cons x (x :: l)).isInfix⟩
    · exact ⟨x, hx, (show [s, x] <+: s :: x :: l from ⟨l, rfl⟩).isInfix⟩

/-- a trace that moves is near everything that its start is near -/
theorem near_start {path : List (ℝ × ℝ)} {s : ℝ × ℝ} (hs : path.head? = some s) (hm : ∃ a ∈ path, ∃ b ∈ path, a ≠ b) {u X Y : ℝ} (h : (X - s.1) ^ 2 + (Y - s.2) ^ 2 < u ^ 2) : NearTrack path u X Y := by
  obtain ⟨l, rfl⟩ : ∃ l, path = s :: l := by
    cases path with
    | nil => simp at hs
    | cons x l => exact ⟨l, by rw [Option.some.inj hs]⟩
  obtain ⟨b, hb, hi⟩ := first_step l s (by
    obtain ⟨a, ha, b, hb, hne⟩ := hm
    by_contra hall
    push Not at hall
    have all : ∀ v ∈ s :: l, v = s := fun v hv => by
      rcases List.mem_cons.mp hv with rfl | hv
      · rfl
      · exact hall v hv
    exact hne ((all a ha).trans (all b hb).symm))
  exact ⟨s, b, hi, hb.symm, 0, le_rfl, zero_le_one, by simpa using h⟩

/-- a track with nothing but one position is near nothing -/
theorem near_moves {path : List (ℝ × ℝ)} {u X Y : ℝ} (h : NearTrack path u X Y) : ∃ a ∈ path, ∃ b ∈ path, a ≠ b := by
  obtain ⟨a, b, hi, hne, -⟩ := h
  exact ⟨a, hi.subset (by simp), b, hi.subset (by simp), hne⟩

/-- the first vertex of a trace of a realization -/
theorem realized_head {a : RunArgs} {la : LinAlg} {t : SWell} {q : Dist → ℕ → Except PyErr ℝ} {coefs : (Fin 6 → ℝ) → Matrix (Fin 6) (Fin 6) ℝ → Except PyErr (Fin 6 → ℝ)}
    {interrupt : ℕ → ℕ → Option PyErr} {L : RealizationLog} (R : Realized a la t q coefs interrupt L) {k : ℕ} {tr : Trace XR} (h : L.traces[k]? = some tr) :
    tr.path.head? = some (t.start a.npaths k) := by
  have := (C17_start _ _ _ _ _ _).1 tr (R.traces k tr h)
  unfold Trace.path
  rw [List.head?_map, this]
  rfl

/-- a start is `rw + 1` away from the well -/
theorem start_distance (t : SWell) (n : ℤ) (k : ℕ) : ((t.start n k).1 - t.xw) ^ 2 + ((t.start n k).2 - t.yw) ^ 2 = (t.rw + 1) ^ 2 := by
  unfold SWell.start
  have := Real.cos_sq_add_sin_sq (2 * Real.pi * k / n)
  simp only [add_sub_cancel_left]
  rw [mul_pow, mul_pow, ← mul_add, this, mul_one]

theorem disk_start (t : SWell) (n : ℤ) (k : ℕ) (hr : 0 ≤ t.rw + 1) {u X Y : ℝ} (hu : t.rw + 1 < u) (h : (X - t.xw) ^ 2 + (Y - t.yw) ^ 2 < (u - (t.rw + 1)) ^ 2) :
    (X - (t.start n k).1) ^ 2 + (Y - (t.start n k).2) ^ 2 < u ^ 2 := by
  have hs := start_distance t n k
  set p := (t.start n k).1 - t.xw with hp
  set q := (t.start n k).2 - t.yw with hq
  set x := X - t.xw with hx
  set y := Y - t.yw with hy
  rw [show X - (t.start n k).1 = x - p by rw [hx, hp]; ring, show Y - (t.start n k).2 = y - q by rw [hy, hq]; ring]
  set R := t.rw + 1 with hR
  have hd : 0 < u - R := by linarith
  -- |x·p + y·q| ≤ R (u - R)
  have hc : (x * p + y * q) ^ 2 ≤ (R * (u - R)) ^ 2 := by
    have : (x * p + y * q) ^ 2 ≤ (x ^ 2 + y ^ 2) * (p ^ 2 + q ^ 2) := by nlinarith [sq_nonneg (x * q - y * p)]
    rw [hs] at this
    nlinarith [mul_le_mul_of_nonneg_right h.le (sq_nonneg R)]
  have hc' := (abs_le.mp (abs_le_of_sq_le_sq hc (mul_nonneg hr hd.le))).1
  nlinarith

/-- the radii of accepted wells are positive -/
theorem accepted_radius {a : PyArgs} {n : Inputs} (ha : Acceptable a) (hd : a.Denotes n) {t : SWell} (ht : t ∈ n.run.wells) : 0 < t.rw := by
  obtain ⟨ws, hws, hw, -⟩ := ha.wells
  obtain ⟨l, hl, hf⟩ := hd.wells
  obtain rfl : ws = l := by rw [hws] at hl; simpa using hl
  obtain ⟨v, hv, x, y, r, q, hvq, -, -, hr, -⟩ := forall₂_mem hf t ht
  obtain ⟨x', y', r', q', hvq', -, -, ⟨z, hz, hz0⟩, -⟩ := hw v hv
  obtain rfl : r = r' := by
    rcases hvq with rfl | rfl <;> rcases hvq' with h | h <;> simp at h
    · exact h.2.2.1
    · exact h.2.2.1
  obtain rfl : z = .fin t.rw := Option.some.inj (hz.symm.trans hr)
  exact hz0

end Oneka
