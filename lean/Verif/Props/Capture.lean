import Verif.Lemmas.Capture
import Verif.Lemmas.Terminate
import Verif.Props.Backtrace
import Verif.Spec.RK
import Mathlib.Analysis.SpecialFunctions.Complex.Circle
import Mathlib.Analysis.SpecialFunctions.Trigonometric.Angle

/-!
# C27, C28: capture zones

`computeCapturezone … = some r` reads "the call returns"; `r.field` is the probability field afterwards, `r.traces` the
traces computed, in order; `t.path` are the vertices of a trace. The velocity function is arbitrary (it may raise, or return inf or NaN).
-/

namespace Oneka

/-- a field over ℝ with spacing 10 around the origin -/
noncomputable def field10 : PField ℝ :=
  { deltax := 10, deltay := 10, nrows := 3, ncols := 3,
    body := some { xmin := 0 - 10, xmax := 0 + 10, ymin := 0 - 10, ymax := 0 + 10, totalWeight := 0,
                   pgrid := Grid.full 3 3 0, rgrid := Grid.full 3 3 false } }

theorem field10_new : PField.new (10 : ℝ) 10 (some 0) (some 0) = .ok field10 := by
  unfold PField.new field10
  rw [if_neg (by norm_num), if_neg (by norm_num)]

theorem field10_reachable : field10.Reachable := ⟨10, 10, some 0, some 0, field10, [], field10_new, rfl⟩

/-- C27: `npaths` traces are started, the `k`-th one at angle `2πk/npaths` on the circle of radius `rtarget + 1` around the target,
and traced with the given duration, tolerance, step limit and velocity function: so the first due east, all at distance `rtarget + 1`, neighbours (cyclically) equally far apart, all different. Example: at the end of this file. -/
theorem C27_starts {xt yt rt u w : ℝ} {d tol ms : XR} {n : ℕ} {f : PField ℝ}
    {fe : ℕ → ℕ → XR × XR → Except PyErr (XR × XR)}
    (hf : f.Reachable) (hn : 0 < n) (hrt : 0 < rt) {r : CZResult}
    (h : computeCapturezone xt yt rt n d f u w tol ms fe = some r) :
    r.traces.length = n ∧ ∃ start : ℕ → ℝ × ℝ,
      (∀ (k : ℕ) (t : Trace XR), r.traces[k]? = some t → t.path.head? = some (start k) ∧
        t.vertices = t.path.map (fun p => (.fin p.1, .fin p.2)) ∧
        computeBacktrace (.fin (start k).1) (.fin (start k).2) d tol ms (fe k) = some t) ∧
      start 0 = (xt + (rt + 1), yt) ∧
      (∀ k, start k = (xt + (rt + 1) * Real.cos (2 * Real.pi * k / n), yt + (rt + 1) * Real.sin (2 * Real.pi * k / n))) ∧
      (∀ k, euclid (xt, yt) (start k) = rt + 1) ∧
      (∀ k, euclid (start k) (start (k + 1)) = 2 * (rt + 1) * Real.sin (Real.pi / n)) ∧ start n = start 0 ∧
      (∀ i j, i < n → j < n → start i = start j → i = j) := by
  obtain ⟨-, hlen, -, -, hk⟩ := capture_spec (PField.reachable_wf hf) (Or.inr hn) h
  have hn' : (0:ℝ) < n := by exact_mod_cast hn
  have hR : 0 < rt + 1 := by linarith
  have hpi := Real.pi_pos
  refine ⟨hlen, fun k => (xt + (rt + 1) * Real.cos (2 * Real.pi * k / n), yt + (rt + 1) * Real.sin (2 * Real.pi * k / n)),
    ?_, by simp, fun k => rfl, ?_, ?_, ?_, ?_⟩
  · intro k t ht
    have e : startAt xt yt rt ((k:ℝ) * (2 * Real.pi / n)) =
        (xt + (rt + 1) * Real.cos (2 * Real.pi * k / n), yt + (rt + 1) * Real.sin (2 * Real.pi * k / n)) := by
      have e : (k:ℝ) * (2 * Real.pi / n) = 2 * Real.pi * k / n := by ring
      unfold startAt
      rw [e]
      ext <;> simp only <;> ring
    have hb := hk k t ht
    rw [e] at hb
    refine ⟨?_, path_vertices hb, hb⟩
    unfold Trace.path
    rw [trace_vertices hb]
    rfl
  · intro k
    simp only [euclid]
    rw [Real.sqrt_eq_iff_mul_self_eq_of_pos hR]
    have := Real.sin_sq_add_cos_sq (2 * Real.pi * k / n)
    linear_combination (-(rt + 1) ^ 2) * this
  · intro k
    have hs : 0 ≤ Real.sin (Real.pi / n) :=
      Real.sin_nonneg_of_nonneg_of_le_pi (by positivity) (div_le_self hpi.le (by exact_mod_cast hn))
    simp only [euclid]
    have hrw : (2 * (rt + 1) * Real.sin (Real.pi / n)) = Real.sqrt ((2 * (rt + 1) * Real.sin (Real.pi / n)) ^ 2) :=
      (Real.sqrt_sq (by positivity)).symm
    rw [hrw]
    congr 1
    set a := 2 * Real.pi * (k:ℝ) / n with ha
    have hb : 2 * Real.pi * ((k + 1 : ℕ) : ℝ) / n = a + 2 * (Real.pi / n) := by rw [ha]; push_cast; field_simp
    rw [hb, Real.cos_add, Real.sin_add, Real.cos_two_mul, Real.sin_two_mul]
    have h1 := Real.sin_sq_add_cos_sq a
    have h2 := Real.sin_sq_add_cos_sq (Real.pi / n)
    set s := Real.sin a
    set c := Real.cos a
    set S := Real.sin (Real.pi / n)
    set C := Real.cos (Real.pi / n)
    have hC : C ^ 2 = 1 - S ^ 2 := by linarith
    have hc : c ^ 2 = 1 - s ^ 2 := by linarith
    have e : (xt + (rt + 1) * (c * (2 * C ^ 2 - 1) - s * (2 * S * C)) - (xt + (rt + 1) * c)) ^ 2 +
        (yt + (rt + 1) * (s * (2 * C ^ 2 - 1) + c * (2 * S * C)) - (yt + (rt + 1) * s)) ^ 2 =
        (rt + 1) ^ 2 * ((c ^ 2 + s ^ 2) * ((2 * C ^ 2 - 2) ^ 2 + 4 * S ^ 2 * C ^ 2)) := by ring
    rw [e, hC, hc]
    ring
  · have : (2 * Real.pi * (n:ℝ) / n) = 2 * Real.pi := by field_simp
    simp [this]
  · intro i j hi hj hij
    simp only [Prod.mk.injEq, add_right_inj] at hij
    obtain ⟨hc, hs⟩ := hij
    have hc' : Real.cos (2 * Real.pi * i / n) = Real.cos (2 * Real.pi * j / n) := mul_left_cancel₀ hR.ne' hc
    have hs' : Real.sin (2 * Real.pi * i / n) = Real.sin (2 * Real.pi * j / n) := mul_left_cancel₀ hR.ne' hs
    have key : Real.cos (2 * Real.pi * i / n - 2 * Real.pi * j / n) = 1 := by
      rw [Real.cos_sub, hc', hs']
      have := Real.sin_sq_add_cos_sq (2 * Real.pi * j / n)
      nlinarith
    have hi' : (i:ℝ) < n := by exact_mod_cast hi
    have hj' : (j:ℝ) < n := by exact_mod_cast hj
    have hi0 : (0:ℝ) ≤ i := Nat.cast_nonneg i
    have hj0 : (0:ℝ) ≤ j := Nat.cast_nonneg j
    have e : 2 * Real.pi * i / n - 2 * Real.pi * j / n = 2 * Real.pi * (((i:ℝ) - j) / n) := by ring
    rw [e] at key
    have b1 : ((i:ℝ) - j) / n < 1 := by rw [div_lt_one hn']; linarith
    have b2 : -1 < ((i:ℝ) - j) / n := by rw [lt_div_iff₀ hn']; linarith
    have hz := (Real.cos_eq_one_iff_of_lt_of_lt (by nlinarith) (by nlinarith)).mp key
    have : ((i:ℝ) - j) / n = 0 := by
      rcases mul_eq_zero.mp hz with h | h
      · linarith
      · exact h
    rw [div_eq_zero_iff] at this
    rcases this with h | h
    · have : (i:ℝ) = j := by linarith
      exact_mod_cast this
    · linarith

open Classical in
/-- C28: one capture-zone computation registers exactly one realization: `total_weight` grows by `weight`, and the weight of
every node (of the grid at the start, or of the lattice if the umbra does not exceed the spacing) by `weight` if one
of the traces passes strictly within `umbra`, otherwise by 0; no mark is left behind. The call raises nothing. -/
theorem C28_one_realization {xt yt rt u w : ℝ} {d tol ms : XR} {n : ℕ} {f : PField ℝ} {b : Body ℝ}
    {fe : ℕ → ℕ → XR × XR → Except PyErr (XR × XR)} (hf : f.Reachable) (hb : f.body = some b)
    (hclean : ∀ X Y, ¬ f.markedAt X Y) (hu : 0 ≤ u) {r : CZResult}
    (h : computeCapturezone xt yt rt n d f u w tol ms fe = some r) :
    r.outcome = .ok () ∧ r.traces.length = n ∧ r.field.total = f.total + w ∧
    (∀ X Y, f.IsNode X Y ∨ (OnLattice b.xmin b.ymin f.deltax f.deltay X Y ∧ u ≤ f.deltax ∧ u ≤ f.deltay) →
      r.field.weightAt X Y = f.weightAt X Y + if ∃ t ∈ r.traces, NearTrack t.path u X Y then w else 0) ∧
    (∀ X Y, ¬ OnLattice b.xmin b.ymin f.deltax f.deltay X Y → ¬ r.field.IsNode X Y) ∧
    (∀ X Y, ¬ r.field.markedAt X Y) := by
  have hbn : f.body ≠ none := by rw [hb]; simp
  have hwf := PField.reachable_wf hf
  obtain ⟨h1, h2, h3, h4, h5⟩ := capture_spec hwf (Or.inl hbn) h
  have valid : ∀ e ∈ captureEvents r.traces u w, e.Valid := by
    intro e he
    unfold captureEvents at he
    rcases List.mem_append.mp he with he | he
    · obtain ⟨t, ht, rfl⟩ := List.mem_map.mp he
      obtain ⟨k, hk, rfl⟩ := List.mem_iff_getElem.mp ht
      refine ⟨?_, hu⟩
      unfold Trace.path
      rw [trace_vertices (h5 k _ (List.getElem?_eq_getElem hk))]
      simp
    · obtain rfl := List.mem_singleton.mp he
      trivial
  have reg := registered_tracks r.traces u w [] []
  have pend := pending_tracks r.traces u w [] []
  rw [List.append_nil] at reg pend
  simp only [registered, pending, List.nil_append] at reg pend
  have refine' : ∀ X Y, f.IsNode X Y ∨ (OnLattice b.xmin b.ymin f.deltax f.deltay X Y ∧ u ≤ f.deltax ∧ u ≤ f.deltay) →
      PField.StepInv f r.field ∧ r.field.total = f.total + w ∧
      (r.field.weightAt X Y = f.weightAt X Y + if ∃ t ∈ r.traces, NearTrack t.path u X Y then w else 0) ∧
      ¬ r.field.markedAt X Y := by
    intro X Y hXY
    obtain ⟨f', e', i, t', w', m'⟩ := PField.history_refine (captureEvents r.traces u w) f [] X Y hwf hbn valid
      (by
        rcases hXY with h | ⟨h, hx, hy⟩
        · exact Or.inl h
        · refine Or.inr ⟨?_, b, hb, h⟩
          intro e he
          unfold captureEvents at he
          rcases List.mem_append.mp he with he | he
          · obtain ⟨t, ht, rfl⟩ := List.mem_map.mp he
            exact ⟨hx, hy⟩
          · obtain rfl := List.mem_singleton.mp he
            trivial)
      (by simp [hclean X Y, Visits])
    obtain rfl : r.field = f' := by rw [h3] at e'; exact Option.some.inj e'
    rw [reg] at t' w'
    rw [pend] at m'
    refine ⟨i, by simpa using t', ?_, by rw [m']; simp [Visits]⟩
    rw [w']
    simp only [visitWeight, List.map_cons, List.map_nil, List.sum_cons, List.sum_nil, add_zero]
    have : Visits (r.traces.map fun t => (t.path, u)) X Y ↔ ∃ t ∈ r.traces, NearTrack t.path u X Y := by
      unfold Visits
      simp
    simp only [this]
  obtain ⟨hr3, hc3, -⟩ := hwf.grid b hb
  obtain ⟨i, ht, -, -⟩ := refine' b.xmin b.ymin (Or.inl ⟨b, hb, 0, 0, by omega, by omega, by simp, by simp⟩)
  refine ⟨h1, h2, ht, fun X Y hXY => (refine' X Y hXY).2.2.1, fun X Y hXY => PField.weightAt_off_lattice hb i hXY, ?_⟩
  -- no marks: the last call is a successful register
  unfold captureEvents at h3
  rw [List.map_append, PField.run_append] at h3
  cases hrun : f.run ((r.traces.map fun t => Event.track t.path u).map Event.call) with
  | none => rw [hrun] at h3; simp at h3
  | some g =>
    rw [hrun] at h3
    obtain ⟨g', eg, ig⟩ := PField.run_inv ((r.traces.map fun t => Event.track t.path u).map Event.call) f hwf
    obtain rfl : g = g' := by rw [hrun] at eg; exact Option.some.inj eg
    obtain ⟨b', hb', -⟩ := ig.lattice b hb
    obtain ⟨g2, e2, -, -, -, -, -, m2, -⟩ := PField.register_view g ig.wf (by rw [hb']; simp) w
    simp [Event.call, PField.run, PField.step, e2, PField.lift] at h3
    rw [← h3]
    exact m2

/-- C27, C28: there are such calls: with a velocity bounded by linear growth the call returns. -/
theorem C28_returns {xt yt rt d u w tol ms M L : ℝ} {n : ℤ} {f : PField ℝ}
    {fe : ℕ → ℕ → XR × XR → Except PyErr (XR × XR)} (hf : f.Reachable) (hM : 0 ≤ M) (hL : 0 ≤ L)
    (hgrow : ∀ k m (x y : ℝ), (∃ e, fe k m (.fin x, .fin y) = .error e) ∨
      ∃ u v : ℝ, fe k m (.fin x, .fin y) = .ok (.fin u, .fin v) ∧ max |u| |v| ≤ M + L * max |x| |y|)
    (htol : (10/9)^5 * (2:ℝ)^(-52 : ℤ) < tol) (hmax : (10/9) * (2:ℝ)^(-52 : ℤ) < ms) :
    ∃ r, computeCapturezone xt yt rt n (.fin d) f u w (.fin tol) (.fin ms) fe = some r :=
  capture_terminates (PField.reachable_wf hf)
    (fun k _ => C21_terminates_partial _ _ _ _ _ M L (fe k) hM hL (hgrow k) htol hmax)

/-- radial flow away from a well at the origin, on a fresh field: the hypotheses of C27 and C28 are met -/
example : ∃ r, computeCapturezone 0 0 0.25 8 (.fin 3650) field10 10 1 (.fin 1) (.fin 10) (fun _ _ p => .ok p) = some r ∧
    (∀ X Y, ¬ field10.markedAt X Y) := by
  obtain ⟨r, hr⟩ := C28_returns (xt := 0) (yt := 0) (rt := 0.25) (d := 3650) (u := 10) (w := 1) (tol := 1) (ms := 10) (M := 0)
    (L := 1) (n := 8) (f := field10) (fe := fun _ _ p => .ok p) field10_reachable le_rfl zero_le_one
    (fun k m x y => Or.inr ⟨x, y, rfl, by simp⟩) (by norm_num) (by norm_num)
  refine ⟨r, hr, ?_⟩
  intro X Y hm
  rw [PField.markedAt_iff field10 _ (PField.reachable_wf field10_reachable) rfl] at hm
  obtain ⟨i, j, _, _, _, _, hm⟩ := hm
  simp [Grid.full] at hm

end Oneka
