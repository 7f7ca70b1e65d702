import Verif.Spec.Speed
import Verif.Lemmas.Accuracy

/-!
# Lemmas for Props/Speed.lean
-/

namespace Oneka

theorem along_add (u v w : ℝ × ℝ) : along u (v + w) = along u v + along u w := by
  simp only [along, Prod.fst_add, Prod.snd_add]
  ring

theorem along_scq (u v : ℝ × ℝ) (c : ℚ) : along u (scq c v) = c * along u v := by
  simp only [along, scq, sc, PyMath.q_real]
  ring

theorem along_sc (u v : ℝ × ℝ) (c : ℝ) : along u (sc c v) = c * along u v := by
  simp only [along, sc]
  ring

theorem along_sub (u v w : ℝ × ℝ) : along u (v - w) = along u v - along u w := by
  simp only [along, Prod.fst_sub, Prod.snd_sub]
  ring

/-- how far one step leads -/
theorem trial_along {u : ℝ × ℝ} {lo hi h : ℝ} (hh : 0 ≤ h) {feval : FEval} (hf : ∀ n q v, feval n q = .ok v → lo ≤ along u v ∧ along u v ≤ hi) {n : ℕ} {xy k1 xyt k7 : ℝ × ℝ} {est ds : ℝ} (h1 : lo ≤ along u k1 ∧ along u k1 ≤ hi)
    (ht : trial feval n xy k1 h = .ok (xyt, k7, est, ds)) :
    h * (lo - overshoot * (hi - lo)) ≤ along u xyt - along u xy ∧ along u xyt - along u xy ≤ h * (hi + overshoot * (hi - lo)) ∧ lo ≤ along u k7 ∧ along u k7 ≤ hi := by
  obtain ⟨k2, k3, k4, k5, k6, -, e3, e4, e5, e6, rfl, e7, -, -⟩ := trial_evals ht
  obtain ⟨a1, b1⟩ := h1
  obtain ⟨a3, b3⟩ := hf _ _ _ e3
  obtain ⟨a4, b4⟩ := hf _ _ _ e4
  obtain ⟨a5, b5⟩ := hf _ _ _ e5
  obtain ⟨a6, b6⟩ := hf _ _ _ e6
  have e : along u (xy + sc h (scq (35/384) k1 + scq (500/1113) k3 + scq (125/192) k4 + scq (-2187/6784) k5 + scq (11/84) k6)) - along u xy =
      h * (35/384 * along u k1 + 500/1113 * along u k3 + 125/192 * along u k4 - 2187/6784 * along u k5 + 11/84 * along u k6) := by
    simp only [along_add, along_sc, along_scq]
    push_cast
    ring
  refine ⟨?_, ?_, hf _ _ _ e7⟩
  · rw [e]
    refine mul_le_mul_of_nonneg_left ?_ hh
    unfold overshoot
    linarith
  · rw [e]
    refine mul_le_mul_of_nonneg_left ?_ hh
    unfold overshoot
    linarith

theorem trace_along {u : ℝ × ℝ} {lo hi xs ys D tol maxstep : ℝ} (hD : 0 < D) (htol : 0 < tol) (hms : 0 < maxstep) {feval : FEval} (hf : ∀ n q v, feval n q = .ok v → lo ≤ along u v ∧ along u v ≤ hi) {r : Trace ℝ}
    (h : computeBacktrace xs ys D tol maxstep feval = some r) :
    (∀ v ∈ r.vertices, ∃ τ, 0 ≤ τ ∧ τ ≤ D ∧ (lo - overshoot * (hi - lo)) * τ ≤ along u v - along u (xs, ys) ∧ along u v - along u (xs, ys) ≤ (hi + overshoot * (hi - lo)) * τ) ∧
    (∃ v, r.vertices.getLast? = some v ∧ ∃ τ, τ = r.warning.getD D ∧ 0 ≤ τ ∧ τ ≤ D ∧ (lo - overshoot * (hi - lo)) * τ ≤ along u v - along u (xs, ys) ∧ along u v - along u (xs, ys) ≤ (hi + overshoot * (hi - lo)) * τ) ∧
    (0 < lo - overshoot * (hi - lo) → (r.vertices.map (along u)).Pairwise (· < ·)) := by
  set a := lo - overshoot * (hi - lo) with ha
  set b := hi + overshoot * (hi - lo) with hb
  set o := along u (xs, ys) with ho
  refine backtrace_inv
    (fun s => 0 ≤ s.t ∧ s.t ≤ D ∧ 0 < s.dt ∧ (lo ≤ along u s.k1 ∧ along u s.k1 ≤ hi) ∧ (a * s.t ≤ along u s.xy - o ∧ along u s.xy - o ≤ b * s.t) ∧ s.vs.getLast? = some s.xy ∧
      (∀ v ∈ s.vs, ∃ τ, 0 ≤ τ ∧ τ ≤ D ∧ a * τ ≤ along u v - o ∧ along u v - o ≤ b * τ) ∧ (0 < a → (s.vs.map (along u)).Pairwise (· < ·) ∧ ∀ v ∈ s.vs, along u v ≤ along u s.xy))
    (fun r => (∀ v ∈ r.vertices, ∃ τ, 0 ≤ τ ∧ τ ≤ D ∧ a * τ ≤ along u v - o ∧ along u v - o ≤ b * τ) ∧
      (∃ v, r.vertices.getLast? = some v ∧ ∃ τ, τ = r.warning.getD D ∧ 0 ≤ τ ∧ τ ≤ D ∧ a * τ ≤ along u v - o ∧ along u v - o ≤ b * τ) ∧ (0 < a → (r.vertices.map (along u)).Pairwise (· < ·))) ?_ ?_ ?_ ?_ h
  · intro e _
    refine ⟨fun v hv => ⟨0, le_rfl, hD.le, ?_⟩, ⟨(xs, ys), rfl, 0, by simp, le_rfl, hD.le, by simp [ho], by simp [ho]⟩, fun _ => by simp⟩
    rw [List.mem_singleton.mp hv]
    simp [ho]
  · intro k1 hk
    simp only [PyMath.q_real, PyMath.sign_real, Real.sign_of_pos hD, Rat.cast_zero]
    refine ⟨le_rfl, hD.le, by norm_num, hf _ _ _ hk, by simp [ho], rfl, fun v hv => ⟨0, le_rfl, hD.le, ?_⟩, fun _ => ⟨by simp, by simp⟩⟩
    rw [List.mem_singleton.mp hv]
    simp [ho]
  · intro s s' ⟨i1, i2, i3, i4, i5, i6, i7, i8⟩ hp
    obtain ⟨c1, c2, c3, c4⟩ := clip_bounds hD i1 i2 i3
    cases hp with
    | accept hlt xyt k2 est ds he h1 h2 =>
      obtain ⟨e1, e2⟩ := trial_nonneg he
      rw [PyMath.abs_real, PyMath.abs_real, abs_of_nonneg i1, abs_of_pos hD] at hlt
      have c4 := c4 hlt
      obtain ⟨t1, t2, t3⟩ := trial_along c1 hf i4 he
      have j5 : a * (s.t + clipDt D s.t s.dt) ≤ along u xyt - o ∧ along u xyt - o ≤ b * (s.t + clipDt D s.t s.dt) := by
        rw [mul_add, mul_add]
        rw [mul_comm] at t1 t2
        exact ⟨by linarith [i5.1], by linarith [i5.2]⟩
      refine ⟨by simp only; linarith, c3, nextDt_pos htol hms e1 e2 c4, t3, j5, by simp, ?_, ?_⟩
      · intro v hv
        rcases List.mem_append.mp hv with hv | hv
        · exact i7 v hv
        · rw [List.mem_singleton.mp hv]
          exact ⟨_, by linarith, c3, j5⟩
      · intro h0
        obtain ⟨k1, k2⟩ := i8 h0
        have hlt2 : along u s.xy < along u xyt := by
          have := mul_pos c4 h0
          linarith
        refine ⟨?_, ?_⟩
        · simp only [List.map_append, List.map_cons, List.map_nil, List.pairwise_append, List.mem_map, List.mem_singleton]
          refine ⟨k1, by simp, ?_⟩
          rintro x ⟨v, hv, rfl⟩ y rfl
          exact (k2 v hv).trans_lt hlt2
        · intro v hv
          rcases List.mem_append.mp hv with hv | hv
          · exact (k2 v hv).trans hlt2.le
          · rw [List.mem_singleton.mp hv]
    | reject hlt xyt k2 est ds he h1 =>
      obtain ⟨e1, e2⟩ := trial_nonneg he
      rw [PyMath.abs_real, PyMath.abs_real, abs_of_nonneg i1, abs_of_pos hD] at hlt
      exact ⟨i1, i2, nextDt_pos htol hms e1 e2 (c4 hlt), i4, i5, i6, i7, i8⟩
  · intro s r ⟨i1, i2, i3, i4, i5, i6, i7, i8⟩ hp
    cases hp with
    | done hd =>
      rw [PyMath.abs_real, PyMath.abs_real, abs_of_nonneg i1, abs_of_pos hD, not_lt] at hd
      obtain rfl : s.t = D := le_antisymm i2 hd
      exact ⟨i7, ⟨_, i6, _, rfl, i1, i2, i5⟩, fun h0 => (i8 h0).1⟩
    | error => exact ⟨i7, ⟨_, i6, _, rfl, i1, i2, i5⟩, fun h0 => (i8 h0).1⟩

end Oneka
