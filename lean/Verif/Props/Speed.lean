import Verif.Spec.Speed
import Verif.Lemmas.Speed

/-!
# C147: how far a trace can lead

Vocabulary: Spec/Speed.lean. Examples: Props/SpeedExamples.lean. There is no hypothesis on the accuracy of the trace: the tolerance and the step limit are arbitrary, and the velocity function may be stateful and may raise.
-/

namespace Oneka

/-- **C147.** If the component in the direction `u` of every velocity is between `lo` and `hi`, a trace that ends after the time `τ` (the duration, or the time in the warning if the trace is cut short) has moved in this direction by at least
`τ (lo - 0.3224 (hi - lo))` and at most `τ (hi + 0.3224 (hi - lo))`. -/
theorem C147_range {u : ℝ × ℝ} {lo hi xs ys duration tol maxstep : ℝ} (hD : 0 < duration) (htol : 0 < tol) (hmax : 0 < maxstep) {feval : ℕ → ℝ × ℝ → Except PyErr (ℝ × ℝ)}
    (hf : ∀ n q v, feval n q = .ok v → lo ≤ along u v ∧ along u v ≤ hi) {r : Trace ℝ} (h : computeBacktrace xs ys duration tol maxstep feval = some r) :
    ∃ last τ, r.vertices.getLast? = some last ∧ τ = r.warning.getD duration ∧ 0 ≤ τ ∧ τ ≤ duration ∧
      τ * (lo - overshoot * (hi - lo)) ≤ along u (last - (xs, ys)) ∧ along u (last - (xs, ys)) ≤ τ * (hi + overshoot * (hi - lo)) := by
  obtain ⟨-, ⟨v, h1, τ, h2, h3, h4, h5, h6⟩, -⟩ := trace_along hD htol hmax hf h
  rw [mul_comm] at h5 h6
  exact ⟨v, τ, h1, h2, h3, h4, by rw [along_sub]; exact h5, by rw [along_sub]; exact h6⟩

/-- **C147.** If the slowest velocity in this direction is more than 0.3224 times the difference between the fastest and the slowest, every vertex is farther in this direction than the one before. -/
theorem C147_advances {u : ℝ × ℝ} {lo hi xs ys duration tol maxstep : ℝ} (hD : 0 < duration) (htol : 0 < tol) (hmax : 0 < maxstep) {feval : ℕ → ℝ × ℝ → Except PyErr (ℝ × ℝ)}
    (hf : ∀ n q v, feval n q = .ok v → lo ≤ along u v ∧ along u v ≤ hi) (hlo : overshoot * (hi - lo) < lo) {r : Trace ℝ} (h : computeBacktrace xs ys duration tol maxstep feval = some r) :
    (r.vertices.map (along u)).Pairwise (· < ·) :=
  (trace_along hD htol hmax hf h).2.2 (sub_pos.mpr hlo)

/-- the bound for one sign of the duration -/
private theorem reach_pos {M xs ys D tol maxstep : ℝ} (hM : 0 ≤ M) (hD : 0 < D) (htol : 0 < tol) (hmax : 0 < maxstep) {feval : ℕ → ℝ × ℝ → Except PyErr (ℝ × ℝ)} (hf : ∀ n q v, feval n q = .ok v → lengthSq v ≤ M ^ 2) {r : Trace ℝ}
    (h : computeBacktrace xs ys D tol maxstep feval = some r) : ∀ v ∈ r.vertices, lengthSq (v - (xs, ys)) ≤ (5579 / 3392 * M * D) ^ 2 := by
  intro v hv
  set w := v - (xs, ys) with hw
  have hl : 0 ≤ lengthSq w := by unfold lengthSq; positivity
  have hs := Real.sq_sqrt hl
  have hs0 := Real.sqrt_nonneg (lengthSq w)
  set s := Real.sqrt (lengthSq w)
  have hb : ∀ n q k, feval n q = .ok k → -(M * s) ≤ along w k ∧ along w k ≤ M * s := by
    intro n q k hk
    rw [← abs_le]
    refine abs_le_of_sq_le_sq ?_ (by positivity)
    have h1 := hf n q k hk
    have h2 : along w k ^ 2 ≤ lengthSq k * lengthSq w := by
      unfold along lengthSq
      linarith [sq_nonneg (w.1 * k.2 - w.2 * k.1), (by ring : (k.1 ^ 2 + k.2 ^ 2) * (w.1 ^ 2 + w.2 ^ 2) = (w.1 * k.1 + w.2 * k.2) ^ 2 + (w.1 * k.2 - w.2 * k.1) ^ 2)]
    rw [mul_pow, hs]
    exact h2.trans (mul_le_mul_of_nonneg_right h1 hl)
  obtain ⟨τ, t0, tD, -, h2⟩ := (trace_along hD htol hmax hb h).1 v hv
  rw [← along_sub, ← hw] at h2
  have e : along w w = s ^ 2 := by rw [hs]; unfold along lengthSq; ring
  have e2 : M * s + overshoot * (M * s - -(M * s)) = 5579 / 3392 * M * s := by unfold overshoot; ring
  rw [e, e2] at h2
  have h3 : s ^ 2 ≤ (5579 / 3392 * M * D) * s := by
    refine h2.trans ?_
    have := mul_le_mul_of_nonneg_left tD (by positivity : 0 ≤ 5579 / 3392 * M * s)
    linarith
  have h4 : s ≤ 5579 / 3392 * M * D := by
    rcases hs0.eq_or_lt with h0 | h0
    · rw [← h0]; positivity
    · rw [pow_two] at h3
      exact le_of_mul_le_mul_right h3 h0
  rw [← hs]
  exact pow_le_pow_left₀ hs0 h4 2

/-- **C147.** If no velocity is faster than `M`, no vertex of a trace, forward or backward, is farther from its start than 5579/3392, about 1.645, times `M` times the duration. -/
theorem C147_speed {M xs ys duration tol maxstep : ℝ} (hM : 0 ≤ M) (hD : duration ≠ 0) (htol : 0 < tol) (hmax : 0 < maxstep) {feval : ℕ → ℝ × ℝ → Except PyErr (ℝ × ℝ)}
    (hf : ∀ n q v, feval n q = .ok v → lengthSq v ≤ M ^ 2) {r : Trace ℝ} (h : computeBacktrace xs ys duration tol maxstep feval = some r) :
    ∀ v ∈ r.vertices, lengthSq (v - (xs, ys)) ≤ (5579 / 3392 * M * |duration|) ^ 2 := by
  rcases lt_or_gt_of_ne hD with hneg | hpos
  · have h' := computeBacktrace_neg xs ys duration tol maxstep feval
    rw [h] at h'
    rw [abs_of_neg hneg]
    refine reach_pos (feval := FEval.neg feval) (r := r.neg) hM (neg_pos.mpr hneg) htol hmax (fun n q v hv => ?_) h'
    unfold FEval.neg at hv
    cases hk : feval n q with
    | error e => rw [hk] at hv; simp [Except.map] at hv
    | ok k =>
      rw [hk] at hv
      obtain rfl := Except.ok.inj hv
      have := hf n q k hk
      simpa [lengthSq] using this
  · rw [abs_of_pos hpos]
    exact reach_pos hM hpos htol hmax hf h

/-- **C147.** No smaller factor will do, and the tolerance is no help if the duration is short: there is a velocity function, of constant speed `M`, whose trace leads exactly this far. So a trace can lead farther than the water moves. -/
theorem C147_attained {M duration tol maxstep : ℝ} (hM : 0 < M) (hD : 0 < duration) (hD' : duration < 1 / 10) (htol : M * duration ≤ tol) (hmax : 2 * M * duration ≤ maxstep) :
    ∃ feval : ℕ → ℝ × ℝ → Except PyErr (ℝ × ℝ), (∀ n q, ∃ v, feval n q = .ok v ∧ lengthSq v = M ^ 2) ∧
      ∃ r, computeBacktrace 0 0 duration tol maxstep feval = some r ∧ r.vertices = [(0, 0), (5579 / 3392 * M * duration, 0)] := by
  refine ⟨fun n _ => .ok (if n = 4 then -M else M, 0), fun n q => ⟨_, rfl, ?_⟩, ?_⟩
  · unfold lengthSq
    split_ifs <;> ring
  · have hMD : 0 < M * duration := mul_pos hM hD
    unfold computeBacktrace
    simp only [PyMath.q_real, PyMath.sign_real, Real.sign_of_pos hD]
    rw [traceLoop, if_pos (by simp [PyMath.abs_real, hD.ne'])]
    have hc : clipDt duration ((0 : ℚ) : ℝ) (((1 / 10 : ℚ) : ℝ) * 1) = duration := by
      unfold clipDt
      simp only [PyMath.abs_real]
      rw [if_pos]
      · simp
      · rw [abs_of_pos hD]; push_cast; rw [abs_of_pos] <;> norm_num; linarith
    rw [hc]
    have ht : trial (fun n (_ : ℝ × ℝ) => (.ok (if n = 4 then -M else M, 0) : Except PyErr (ℝ × ℝ))) 1 (0, 0) (if (0 : ℕ) = 4 then -M else M, 0) duration =
        .ok ((5579 / 3392 * M * duration, 0), (M, 0), (71/57600 - 1/40 - 71/16695 + 71/1920 + 17253/339200 + 22/525) * (M * duration), 5579 / 3392 * M * duration) := by
      have hx : ((0, 0) : ℝ × ℝ) + sc duration (scq (35/384) (M, 0) + scq (500/1113) (M, 0) + scq (125/192) (M, 0) + scq (-2187/6784) (-M, 0) + scq (11/84) (M, 0)) = (5579 / 3392 * M * duration, 0) := by
        refine Prod.ext ?_ ?_
        · simp only [sc, scq, PyMath.q_real, Prod.mk_add_mk]
          push_cast
          ring
        · simp [sc, scq]
      have he : normInf (sc duration (scq (71/57600) (M, 0) + scq (-1/40) (M, 0) + scq (-71/16695) (M, 0) + scq (71/1920) (M, 0) + scq (-17253/339200) (-M, 0) + scq (22/525) ((M, 0) : ℝ × ℝ))) =
          (71/57600 - 1/40 - 71/16695 + 71/1920 + 17253/339200 + 22/525) * (M * duration) := by
        have : sc duration (scq (71/57600) (M, 0) + scq (-1/40) (M, 0) + scq (-71/16695) (M, 0) + scq (71/1920) (M, 0) + scq (-17253/339200) (-M, 0) + scq (22/525) ((M, 0) : ℝ × ℝ)) =
            ((71/57600 - 1/40 - 71/16695 + 71/1920 + 17253/339200 + 22/525) * (M * duration), 0) := by
          refine Prod.ext ?_ ?_
          · simp only [sc, scq, PyMath.q_real, Prod.mk_add_mk]
            push_cast
            ring
          · simp [sc, scq]
        rw [this]
        have hp : 0 < (71/57600 - 1/40 - 71/16695 + 71/1920 + 17253/339200 + 22/525) * (M * duration) := mul_pos (by norm_num) hMD
        simp only [normInf, PyMath.abs_real, PyMath.fmax_real, abs_zero, abs_of_pos hp]
        exact max_eq_left hp.le
      have hd : norm2 (((5579 / 3392 * M * duration, 0) : ℝ × ℝ) - (0, 0)) = 5579 / 3392 * M * duration := by
        simp only [norm2, PyMath.sqrt_real, Prod.mk_sub_mk, sub_zero, mul_zero, add_zero]
        exact Real.sqrt_mul_self (by positivity)
      unfold trial
      simp only [bind, Except.bind, pure, Except.pure, Nat.reduceAdd, Nat.reduceEqDiff, if_true, if_false]
      rw [hx, he, hd]
    rw [ht]
    simp only
    rw [if_pos, traceLoop, if_neg]
    · exact ⟨_, rfl, rfl⟩
    · simp [PyMath.abs_real]
    · refine ⟨lt_of_lt_of_le ?_ htol, lt_of_lt_of_le ?_ hmax⟩
      · have := mul_lt_mul_of_pos_right (by norm_num : (71/57600 - 1/40 - 71/16695 + 71/1920 + 17253/339200 + 22/525 : ℝ) < 1) hMD
        linarith
      · linarith

end Oneka
