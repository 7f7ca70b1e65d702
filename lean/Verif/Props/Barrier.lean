import Verif.Lemmas.Barrier
import Verif.Props.Arrival

/-!
# C153: curves that water crosses outward only bound the capture zone

Vocabulary: Spec/Barrier.lean, Spec/Arrival.lean. Examples: Props/BarrierExamples.lean.
-/

namespace Oneka

open Aquifer

/-- **C153.** If everywhere on a curve the discharge points outward, water that arrives at a place inside or on the curve was never outside: so what is delivered there from near a position comes from inside. Whether or not the aquifer is confined. -/
theorem C153_delivers {m : Aquifer ℝ} (hm : m.Physical) {g gx gy : ℝ × ℝ → ℝ} (hg : m.CrossedOutward g gx gy) {confined : Bool} {D d X Y : ℝ} {p : ℝ × ℝ} (hp : g p ≤ 0) (h : m.Delivers confined D d X Y p) :
    ∃ q, g q ≤ 0 ∧ euclid q (X, Y) < d := by
  obtain ⟨γ, τ, h0, -, hγ, hd, rfl⟩ := h
  exact ⟨γ 0, barrier_keeps hm hg hγ hp le_rfl h0, hd⟩

/-- **C153.** A straight line that all water crosses in the direction `(nx, ny)`: what is delivered to a place behind it comes from at most `d` in front of it. -/
theorem C153_line {m : Aquifer ℝ} (hm : m.Physical) {x y nx ny : ℝ} (hout : ∀ X Y, (X - x) * nx + (Y - y) * ny = 0 → m.OffWells X Y → 0 < nx * (m.discharge X Y).1 + ny * (m.discharge X Y).2)
    {confined : Bool} {D d X Y : ℝ} {p : ℝ × ℝ} (hp : (p.1 - x) * nx + (p.2 - y) * ny ≤ 0) (h : m.Delivers confined D d X Y p) : (X - x) * nx + (Y - y) * ny ≤ d * Real.sqrt (nx ^ 2 + ny ^ 2) := by
  obtain ⟨q, hq, hd⟩ := C153_delivers hm (g := fun p => (p.1 - x) * nx + (p.2 - y) * ny) ⟨line_gradient x y nx ny, fun p h0 hoff => hout p.1 p.2 h0 hoff⟩ hp h
  exact half_plane_near hq hd

/-- **C153.** A circle that all water crosses outward: what is delivered to a place inside or on it comes from at most `d` outside. -/
theorem C153_circle {m : Aquifer ℝ} (hm : m.Physical) {x y R : ℝ} (hR : 0 ≤ R)
    (hout : ∀ X Y, euclid (X, Y) (x, y) = R → m.OffWells X Y → 0 < (X - x) * (m.discharge X Y).1 + (Y - y) * (m.discharge X Y).2)
    {confined : Bool} {D d X Y : ℝ} {p : ℝ × ℝ} (hp : euclid p (x, y) ≤ R) (h : m.Delivers confined D d X Y p) : euclid (X, Y) (x, y) < R + d := by
  have hg : m.CrossedOutward (fun p => (p.1 - x) ^ 2 + (p.2 - y) ^ 2 - R ^ 2) (fun p => 2 * (p.1 - x)) (fun p => 2 * (p.2 - y)) := by
    refine ⟨circle_gradient x y R, fun p h0 hoff => ?_⟩
    have he : euclid (p.1, p.2) (x, y) = R := by
      unfold euclid
      rw [show (x - (p.1, p.2).1) ^ 2 + (y - (p.1, p.2).2) ^ 2 = R ^ 2 by simp only at h0 ⊢; linarith, Real.sqrt_sq hR]
    linarith [hout p.1 p.2 he hoff]
  obtain ⟨q, hq, hd⟩ := C153_delivers hm hg ((euclid_le_iff hR).mp hp) h
  have h1 := (euclid_le_iff hR).mpr hq
  have h2 := euclid_triangle (X, Y) q (x, y)
  have h3 := euclid_comm (X, Y) q
  linarith

/-- **C153.** A well that injects strongly enough, more than the discharge `G` of everything else times the circumference of the starting circle, captures nothing but what is in this circle. -/
theorem C153_injecting {m : Aquifer ℝ} (hm : m.Physical) {w : Well ℝ} {rest : List (Well ℝ)} (hw : m.wells.Perm (w :: rest)) {G : ℝ} (hG : 0 ≤ G) (t : SWell) (hr : 0 ≤ t.rw) (hx : t.xw = w.xw) (hy : t.yw = w.yw)
    (hrest : ∀ x y, euclid (x, y) (w.xw, w.yw) = t.rw + 1 → euclid 0 (({ m with wells := rest } : Aquifer ℝ).discharge x y) ≤ G)
    (hQ : 2 * Real.pi * (t.rw + 1) * G < (1 - 1 / 10 ^ 16) * -w.qw) {confined : Bool} {D d X Y : ℝ} (n : ℤ) (k : ℕ) (h : m.Delivers confined D d X Y (t.start n k)) :
    euclid (X, Y) (t.xw, t.yw) < t.rw + 1 + d := by
  refine C153_circle hm (by linarith) (fun X Y he hoff => ?_) (C131_start t hr n k).le h
  rw [hx, hy] at he ⊢
  set R := t.rw + 1 with hRdef
  have hR : 0 < R := by linarith
  have hr2 : (X - w.xw) ^ 2 + (Y - w.yw) ^ 2 = R ^ 2 := by
    have := euclid_sq_r2 w (X, Y)
    rw [he] at this
    exact this.symm
  have hW : w.r2 X Y = R ^ 2 := hr2
  set Q := ({ m with wells := rest } : Aquifer ℝ).discharge X Y with hQd
  have hdis : m.discharge X Y = (Q.1 - w.qw * (twoPiInv : ℝ) * ((X - w.xw) / R ^ 2), Q.2 - w.qw * (twoPiInv : ℝ) * ((Y - w.yw) / R ^ 2)) := by
    rw [hQd, discharge_eq, discharge_eq]
    simp only
    rw [(hw.map _).sum_eq, (hw.map _).sum_eq, List.map_cons, List.map_cons, List.sum_cons, List.sum_cons, hW]
    refine Prod.ext ?_ ?_ <;> simp only <;> ring
  have hQG : -(R * G) ≤ (X - w.xw) * Q.1 + (Y - w.yw) * Q.2 := by
    have hg : Q.1 ^ 2 + Q.2 ^ 2 ≤ G ^ 2 := by
      have := hrest X Y he
      rw [← hQd] at this
      unfold euclid at this
      rw [Real.sqrt_le_left hG] at this
      simpa using this
    have : ((X - w.xw) * Q.1 + (Y - w.yw) * Q.2) ^ 2 ≤ (R * G) ^ 2 := by
      rw [mul_pow]
      have h4 : R ^ 2 * (Q.1 ^ 2 + Q.2 ^ 2) ≤ R ^ 2 * G ^ 2 := mul_le_mul_of_nonneg_left hg (sq_nonneg R)
      rw [← hr2] at h4 ⊢
      nlinarith [sq_nonneg ((X - w.xw) * Q.2 - (Y - w.yw) * Q.1)]
    exact (abs_le.mp (abs_le_of_sq_le_sq this (by positivity))).1
  rw [hdis]
  simp only
  have e : (X - w.xw) * (Q.1 - w.qw * (twoPiInv : ℝ) * ((X - w.xw) / R ^ 2)) + (Y - w.yw) * (Q.2 - w.qw * (twoPiInv : ℝ) * ((Y - w.yw) / R ^ 2)) = (X - w.xw) * Q.1 + (Y - w.yw) * Q.2 - w.qw * twoPiInv := by
    have : ((X - w.xw) * (X - w.xw) + (Y - w.yw) * (Y - w.yw)) / R ^ 2 = 1 := by
      rw [div_eq_one_iff_eq (by positivity)]
      linarith
    linear_combination (-(w.qw * (twoPiInv : ℝ))) * this
  rw [e]
  -- the constant of the code is 1/(2π) up to 10⁻¹⁶
  obtain ⟨c1, c2⟩ := abs_lt.mp twoPiInv_close
  have hq : 0 < -w.qw := by
    have : 0 ≤ 2 * Real.pi * R * G := by positivity
    by_contra hc
    push Not at hc
    have : (1 - 1 / 10 ^ 16) * -w.qw ≤ 0 := mul_nonpos_of_nonneg_of_nonpos (by norm_num) hc
    linarith
  have h5 : (1 - 1 / 10 ^ 16) * -w.qw ≤ 2 * Real.pi * twoPiInv * -w.qw := mul_le_mul_of_nonneg_right (by linarith) hq.le
  have h6 : 2 * Real.pi * (R * G) < 2 * Real.pi * (twoPiInv * -w.qw) := by linarith
  have h7 := lt_of_mul_lt_mul_left h6 (by positivity)
  linarith

/-- **C153.** A position that is nowhere within `umbra + δ` of the inside of a curve that water crosses outward in all realizations, with the starting points inside, has no weight in the archive; `δ` is the accuracy of the traces (C80). -/
theorem C153_archived (a : PyArgs) (n : Inputs) (env : CallEnv) (v : PyVal) (hden : a.Denotes n) (h : (oneka a env).ending = .returns v) (fs : Files)
    {D tol maxstep δ : ℝ} (hd : n.run.duration = .fin D) (ht : n.run.tol = .fin tol) (hm : n.run.maxstep = .fin maxstep) (hD : 0 < D) (htol : (10/9)^5 * (2:ℝ)^(-52 : ℤ) < tol)
    (hmax : (10/9) * (2:ℝ)^(-52 : ℤ) < maxstep) (hi : ∀ i k j, env.run.interrupt i k j = none) {g gx gy : ℝ × ℝ → ℝ}
    (hout : ∀ L ∈ realizations (oneka a env).events, L.model.Physical ∧ L.model.CrossedOutward g gx gy) :
    ∃ (d : Dict) (f : PField ℝ) (k : ℕ) (t : SWell),
      loadOneka ((oneka a env).events.foldl Effect.apply fs) env.now.archiveName = .ok d ∧ d.get "pfield" = some (.field (.field f)) ∧ n.run.target = k ∧ n.run.wells[k]? = some t ∧
      ((∀ L ∈ realizations (oneka a env).events, ∀ j : ℕ, j < n.run.npaths → ∃ P, Follows L.model n.run.confined (t.start n.run.npaths j) D maxstep δ P) →
        (∀ j : ℕ, j < n.run.npaths → g (t.start n.run.npaths j) ≤ 0) →
        ∀ p q : ℤ, (|p| ≤ 1 ∧ |q| ≤ 1) ∨ n.run.umbra ≤ n.run.spacing → ∀ X Y : ℝ, X = t.xw + p * n.run.spacing → Y = t.yw + q * n.run.spacing →
          (∀ z, g z ≤ 0 → n.run.umbra + δ ≤ euclid z (X, Y)) → f.weightAt X Y = 0) := by
  classical
  obtain ⟨d, f, k, t, h1, h2, h3, h4, h5⟩ := C131_archived a n env v hden h fs (δ := δ) hd ht hm hD htol hmax hi
  refine ⟨d, f, k, t, h1, h2, h3, h4, fun hP hs p q hpq X Y hX hY hfar => ?_⟩
  obtain ⟨lo, up⟩ := h5 hP p q hpq X Y hX hY
  have hz : ((realizations (oneka a env).events).countP fun L => ∃ j : ℕ, j < n.run.npaths ∧ L.model.Delivers n.run.confined D (n.run.umbra + δ) X Y (t.start n.run.npaths j)) = 0 := by
    rw [List.countP_eq_zero]
    intro L hL
    simp only [decide_eq_true_eq]
    rintro ⟨j, hj, hdel⟩
    obtain ⟨hph, hg⟩ := hout L hL
    obtain ⟨z, hz, hlt⟩ := C153_delivers hph hg (hs j hj) hdel
    linarith [hfar z hz]
  rw [hz] at up
  have : (0:ℝ) ≤ f.weightAt X Y := le_trans (Nat.cast_nonneg _) lo
  push_cast at up
  linarith

end Oneka
