import Verif.Spec.RoundingTrace
import Verif.Lemmas.FlDist
import Verif.Lemmas.FlField
import Verif.Lemmas.TraceInv

/-! # Time in a floating-point trace -/

namespace Oneka

theorem Fl.add_val (a b : Fl) : (a + b).val = round53 (a.val + b.val) := rfl
theorem Fl.sub_val (a b : Fl) : (a - b).val = round53 (a.val - b.val) := rfl
theorem Fl.mul_val (a b : Fl) : (a * b).val = round53 (a.val * b.val) := rfl
theorem Fl.div_val (a b : Fl) : (a / b).val = round53 (a.val / b.val) := rfl
theorem Fl.zero_val : (0 : Fl).val = 0 := round53_zero

theorem round53_one : round53 1 = 1 := by simpa using round53_zpow 0

theorem round53_nonneg {x : ℝ} (h : 0 ≤ x) : 0 ≤ round53 x := by
  have := round53_mono h; rwa [round53_zero] at this

theorem digits_le (D : Fl) (h : 0 < D.val) : round53 (D.val + ulp D.val) = D.val + ulp D.val := by
  have hu := ulp_pos D.val
  set n := roundEven (D.val / ulp D.val) with hn
  have e : D.val = n * ulp D.val := by
    have := D.isFloat
    unfold round53 at this
    exact this.symm
  have hlt : (n : ℝ) < 2 ^ 53 := by
    have h1 := abs_lt_zpow D.val
    rw [abs_of_pos h] at h1
    have h2 : (2:ℝ) ^ (Int.log 2 D.val + 1) = 2 ^ 53 * ulp D.val := by
      unfold ulp; rw [abs_of_pos h, ← zpow_natCast, ← zpow_add₀ (by norm_num)]; congr 1; push_cast; ring
    rw [h2] at h1
    rw [e] at h1
    have e' : ulp (n * ulp D.val) = ulp D.val := by rw [← e]
    rw [e'] at h1
    exact lt_of_mul_lt_mul_right h1 hu.le
  have hge : 0 < n := by
    have : (0:ℝ) < n := by
      by_contra hc
      rw [not_lt] at hc
      have := mul_nonpos_of_nonpos_of_nonneg hc hu.le
      linarith
    exact_mod_cast this
  have hlt' : n < 2 ^ 53 := by exact_mod_cast hlt
  have e2 : D.val + ulp D.val = ((n + 1 : ℤ) : ℝ) * 2 ^ (Int.log 2 |D.val| - 52) := by
    conv_lhs => rw [e]
    push_cast
    have : ulp (n * ulp D.val) = ulp D.val := by rw [← e]
    rw [this]
    unfold ulp
    ring
  rw [e2]
  refine round53_exact _ _ ?_
  rw [abs_of_pos (by omega)]
  omega

theorem eps_ulp {D : ℝ} (h : 0 < D) : eps * D ≤ ulp D := by
  have h1 := abs_lt_zpow D
  rw [abs_of_pos h] at h1
  have : ulp D = eps * 2 ^ (Int.log 2 D + 1) := by
    unfold ulp eps; rw [abs_of_pos h, ← zpow_add₀ (by norm_num)]; congr 1; ring
  rw [this]
  exact mul_le_mul_of_nonneg_left h1.le eps_pos.le

theorem ulp_eps {D : ℝ} (h : 0 < D) : ulp D ≤ 2 * eps * D := by
  have h1 := abs_ge_zpow h.ne'
  rw [abs_of_pos h] at h1
  have : ulp D = 2 * eps * 2 ^ (Int.log 2 D) := by
    unfold ulp eps
    rw [abs_of_pos h, show (2:ℝ) * 2 ^ (-53 : ℤ) = 2 ^ (-52 : ℤ) by norm_num [zpow_neg], ← zpow_add₀ (by norm_num)]; congr 1; ring
  rw [this]
  exact mul_le_mul_of_nonneg_left h1 (by have := eps_pos; positivity)

theorem clock_snoc (l : List Fl) (d : Fl) : clock (l ++ [d]) = clock l + d := by unfold clock; rw [List.foldl_append]; rfl

section
variable [LibM]

theorem q_val (r : ℚ) : (PyMath.q r : Fl).val = round53 (r : ℝ) := rfl
theorem abs_val (a : Fl) : (PyMath.abs a).val = |a.val| := rfl
theorem sign_val (a : Fl) : (PyMath.sign a).val = round53 (Real.sign a.val) := rfl
theorem sqrt_val (a : Fl) : (PyMath.sqrt a).val = round53 (Real.sqrt a.val) := rfl
theorem fmax_val (a b : Fl) : (PyMath.fmax a b).val = max a.val b.val := PField.pyMax2_val a b

theorem sign_pos_val {a : Fl} (h : 0 < a.val) : (PyMath.sign a).val = 1 := by
  rw [sign_val, Real.sign_of_pos h, round53_one]

theorem normInf_fl_nonneg (v : Fl × Fl) : 0 ≤ (normInf v).val := by
  unfold normInf
  rw [fmax_val, abs_val]
  exact (abs_nonneg _).trans (le_max_left _ _)

theorem norm2_fl_nonneg (v : Fl × Fl) : 0 ≤ (norm2 v).val := by
  unfold norm2
  rw [sqrt_val]
  exact round53_nonneg (Real.sqrt_nonneg _)

theorem EPS_fl : (EPS : Fl).val = 2 ^ (-52 : ℤ) := by
  unfold EPS
  rw [q_val, ← round53_zpow (-52)]
  congr 1
  norm_num [zpow_neg]

theorem EPS_fl_pos : 0 < (EPS : Fl).val := by rw [EPS_fl]; positivity

theorem trial_nonneg_fl {fe : ℕ → Fl × Fl → Except PyErr (Fl × Fl)} {n : ℕ} {xy k1 xyt k2 : Fl × Fl} {dt est ds : Fl}
    (h : trial fe n xy k1 dt = .ok (xyt, k2, est, ds)) : 0 ≤ est.val ∧ 0 ≤ ds.val := by
  obtain ⟨_, _, _, _, _, -, -, -, -, -, -, -, he, hd⟩ := trial_evals h
  rw [he, hd]
  exact ⟨normInf_fl_nonneg _, norm2_fl_nonneg _⟩

omit [LibM] in
theorem pyMin3_fl (a b c : Fl) : (pyMin3 a b c).val = min (min a.val b.val) c.val := by
  unfold pyMin3; rw [PField.pyMin2_val, PField.pyMin2_val]

theorem nextDt_fl_pos (hpow : PowPositive) {tol maxstep est ds dt : Fl} (ht : 0 < tol.val) (hm : 0 < maxstep.val) (he : 0 ≤ est.val) (hd : 0 ≤ ds.val)
    (h : 0 < dt.val) : 0 < (nextDt tol maxstep est ds dt).val := by
  unfold nextDt
  have e0 := EPS_fl_pos
  have pos : ∀ {a b : Fl}, 0 ≤ a.val → 0 < b.val → 0 < (a + b).val := fun ha hb => round53_pos (add_pos_of_nonneg_of_pos ha hb)
  rw [Fl.mul_val, Fl.mul_val, pyMin3_fl]
  refine round53_pos (mul_pos (round53_pos (mul_pos ?_ (lt_min (lt_min ?_ ?_) ?_))) h)
  · rw [q_val]; exact round53_pos (by norm_num)
  · exact hpow _ (by rw [Fl.div_val]; exact round53_pos (div_pos ht (pos he e0)))
  · rw [Fl.div_val]; exact round53_pos (div_pos hm (pos hd e0))
  · rw [q_val]; exact round53_pos (by norm_num)

/-! ## The clock -/

/-- A step never passes the duration by more than a unit in the last place. -/
theorem clip_fl {D t dt : Fl} (hD : 0 < D.val) (t0 : 0 ≤ t.val) (hlt : t.val < D.val) (h0 : 0 < dt.val) :
    0 < (clipDt D t dt).val ∧ t.val ≤ (t + clipDt D t dt).val ∧ (t + clipDt D t dt).val ≤ D.val + ulp D.val := by
  have hu := ulp_pos D.val
  have hpos : 0 < (clipDt D t dt).val := by
    unfold clipDt
    split_ifs
    · rw [Fl.sub_val]; exact round53_pos (by linarith)
    · exact h0
  refine ⟨hpos, ?_, ?_⟩
  · rw [Fl.add_val]
    conv_lhs => rw [← t.isFloat]
    exact round53_mono (by linarith)
  · unfold clipDt
    split_ifs with hc
    · have h1 : (D - t).val ≤ D.val - t.val + eps * D.val := by
        rw [Fl.sub_val]
        have := (abs_le.mp (round53_accurate (D.val - t.val))).2
        rw [abs_of_pos (by linarith : 0 < D.val - t.val)] at this
        have e := eps_pos
        have : (2:ℝ) ^ (-53 : ℤ) * (D.val - t.val) ≤ eps * D.val := mul_le_mul_of_nonneg_left (by linarith) e.le
        linarith
      rw [Fl.add_val, ← digits_le D hD]
      exact round53_mono (by have := eps_ulp hD; linarith)
    · rw [Fl.lt_iff, abs_val, abs_val, not_lt, abs_of_pos hD] at hc
      have := (abs_le.mp hc).2
      linarith

/-- What is true of the loop variables. -/
structure OnTime (D : Fl) (s : TState Fl) : Prop where
  t0 : 0 ≤ s.t.val
  h0 : 0 < s.dt.val
  clock : s.t = clock (s.ss.map Accepted.dt)
  le : s.t.val ≤ D.val + ulp D.val
  pos : ∀ st ∈ s.ss, 0 < st.dt.val
  sum : |((s.ss.map Accepted.dt).map Fl.val).sum - s.t.val| ≤ s.ss.length * (2 * eps * D.val)

theorem OnTime.pass (hpow : PowPositive) {c : TCfg Fl} (hD : 0 < c.duration.val) (ht : 0 < c.tol.val) (hm : 0 < c.maxstep.val) {s s' : TState Fl}
    (I : OnTime c.duration s) (hp : Pass c s (.inr s')) : OnTime c.duration s' := by
  have hlt : PyMath.abs s.t < PyMath.abs c.duration → s.t.val < c.duration.val := by
    intro h
    rw [Fl.lt_iff, abs_val, abs_val, abs_of_nonneg I.t0, abs_of_pos hD] at h
    exact h
  cases hp with
  | reject h xyt k2 est ds he hr =>
    obtain ⟨e1, e2⟩ := trial_nonneg_fl he
    obtain ⟨c1, -, -⟩ := clip_fl hD I.t0 (hlt h) I.h0
    exact ⟨I.t0, nextDt_fl_pos hpow ht hm e1 e2 c1, I.clock, I.le, I.pos, I.sum⟩
  | accept h xyt k2 est ds he h1 h2 =>
    obtain ⟨e1, e2⟩ := trial_nonneg_fl he
    obtain ⟨c1, c2, c3⟩ := clip_fl hD I.t0 (hlt h) I.h0
    refine ⟨I.t0.trans c2, nextDt_fl_pos hpow ht hm e1 e2 c1, ?_, c3, ?_, ?_⟩
    · simp only [List.map_append, List.map_cons, List.map_nil]
      rw [clock_snoc, ← I.clock]
    · intro st hst
      rcases List.mem_append.mp hst with h | h
      · exact I.pos st h
      · obtain rfl := List.mem_singleton.mp h
        exact c1
    · simp only [List.map_append, List.map_cons, List.map_nil, List.sum_append, List.sum_cons, List.sum_nil, List.length_append, List.length_cons, List.length_nil]
      set d := clipDt c.duration s.t s.dt
      have e := eps_pos
      have hacc := round53_accurate (s.t.val + d.val)
      have hle : s.t.val + d.val ≤ 2 * c.duration.val := by
        have h3 : (1 - eps) * (s.t.val + d.val) ≤ (s.t + d).val := by
          rw [Fl.add_val]
          have := (abs_le.mp hacc).1
          rw [abs_of_nonneg (by linarith [I.t0])] at this
          have e' : (2:ℝ) ^ (-53:ℤ) = eps := rfl
          rw [e'] at this
          linarith
        have h4 := ulp_eps hD
        have h5 := eps_small
        nlinarith [I.t0]
      have h6 : |round53 (s.t.val + d.val) - (s.t.val + d.val)| ≤ 2 * eps * c.duration.val := by
        refine hacc.trans ?_
        rw [abs_of_nonneg (by linarith [I.t0])]
        have e' : (2:ℝ) ^ (-53:ℤ) = eps := rfl
        rw [e']
        nlinarith
      have := I.sum
      rw [Fl.add_val]
      push_cast
      have tri : |((s.ss.map Accepted.dt).map Fl.val).sum + (d.val + 0) - round53 (s.t.val + d.val)| ≤
          |((s.ss.map Accepted.dt).map Fl.val).sum - s.t.val| + |round53 (s.t.val + d.val) - (s.t.val + d.val)| := by
        rw [abs_sub_comm (round53 _)]
        refine le_trans (le_of_eq ?_) (abs_add_le _ _)
        congr 1; ring
      linarith

theorem OnTime.start {D : Fl} (hD : 0 < D.val) (p k1 : Fl × Fl) (vs : List (Fl × Fl)) :
    OnTime D ⟨PyMath.q 0, PyMath.q (1/10) * PyMath.sign D, p, k1, 1, vs, []⟩ where
  t0 := by rw [q_val]; simp [round53_zero]
  h0 := by
    rw [Fl.mul_val, sign_pos_val hD, q_val, mul_one]
    exact round53_pos (round53_pos (by norm_num))
  clock := Fl.ext' (by rw [q_val]; simp [Oneka.clock, round53_zero])
  le := by
    rw [q_val]
    have := ulp_pos D.val
    simp only [Rat.cast_zero, round53_zero]
    linarith
  pos := by simp
  sum := by rw [q_val]; simp [round53_zero]

theorem trace_time_fl (hpow : PowPositive) {xs ys D tol maxstep : Fl} {fe : ℕ → Fl × Fl → Except PyErr (Fl × Fl)} (hD : 0 < D.val) (ht : 0 < tol.val)
    (hm : 0 < maxstep.val) {r : Trace Fl} (h : computeBacktrace xs ys D tol maxstep fe = some r) :
    (∀ st ∈ r.steps, 0 < st.dt.val) ∧ (clock (r.steps.map Accepted.dt)).val ≤ D.val + ulp D.val ∧
    |((r.steps.map Accepted.dt).map Fl.val).sum - (clock (r.steps.map Accepted.dt)).val| ≤ r.steps.length * (2 * eps * D.val) ∧
    (r.warning = none → D.val ≤ (clock (r.steps.map Accepted.dt)).val) ∧
    (∀ t, r.warning = some t → t = clock (r.steps.map Accepted.dt) ∧ t.val < D.val) := by
  have hD' := ulp_pos D.val
  refine backtrace_inv (OnTime D) (fun r => (∀ st ∈ r.steps, 0 < st.dt.val) ∧ (clock (r.steps.map Accepted.dt)).val ≤ D.val + ulp D.val ∧
    |((r.steps.map Accepted.dt).map Fl.val).sum - (clock (r.steps.map Accepted.dt)).val| ≤ r.steps.length * (2 * eps * D.val) ∧
    (r.warning = none → D.val ≤ (clock (r.steps.map Accepted.dt)).val) ∧
    (∀ t, r.warning = some t → t = clock (r.steps.map Accepted.dt) ∧ t.val < D.val)) ?_ ?_ ?_ ?_ h
  · intro e _
    have z : (clock ([] : List Fl)).val = 0 := Fl.zero_val
    refine ⟨by simp, ?_, ?_, by simp, ?_⟩
    · simp only [List.map_nil, z]; linarith
    · simp [z]
    · intro t h
      simp only [Option.some.injEq] at h
      subst h
      refine ⟨Fl.ext' ?_, ?_⟩
      · simp [z, q_val, round53_zero]
      · simp [q_val, round53_zero, hD]
  · intro k1 _; exact OnTime.start hD _ _ _
  · intro s s' I hp; exact I.pass hpow (c := ⟨D, tol, maxstep, fe⟩) hD ht hm hp
  · intro s r I hp
    have hs := I.sum
    cases hp with
    | done h =>
      rw [I.clock] at hs
      refine ⟨I.pos, I.clock ▸ I.le, hs, fun _ => ?_, by simp⟩
      rw [Fl.lt_iff, abs_val, abs_val, abs_of_nonneg I.t0, abs_of_pos hD, not_lt, I.clock] at h
      exact h
    | error h e he =>
      rw [I.clock] at hs
      refine ⟨I.pos, I.clock ▸ I.le, hs, by simp, ?_⟩
      intro t ht
      simp only [Option.some.injEq] at ht
      subst ht
      rw [Fl.lt_iff, abs_val, abs_val, abs_of_nonneg I.t0, abs_of_pos hD] at h
      exact ⟨I.clock, h⟩

end
end Oneka
