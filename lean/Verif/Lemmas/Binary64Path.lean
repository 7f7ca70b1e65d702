import Verif.Lemmas.Binary64Trace
import Verif.Lemmas.Binary64Aquifer

/-! # Backtraces through an aquifer model with binary64 numbers -/

namespace Oneka
open Aquifer

section
variable {F : Type} [Add F] [Sub F] [Mul F] [Div F] [LT F] [DecidableLT F] [PyMath F] {fe fe' : ℕ → F × F → Except PyErr (F × F)}

/-- a trial step that succeeds with the one function succeeds with the other -/
theorem trial_agree (h : ∀ n q v, fe n q = .ok v → fe' n q = .ok v) {n : ℕ} {p k1 : F × F} {d : F} {x} (he : trial fe n p k1 d = .ok x) : trial fe' n p k1 d = .ok x := by
  obtain ⟨xyt, k7, est, ds⟩ := x
  obtain ⟨k2, k3, k4, k5, k6, h2, h3, h4, h5, h6, rfl, h7, rfl, rfl⟩ := trial_evals he
  unfold trial
  simp only [h _ _ _ h2, h _ _ _ h3, h _ _ _ h4, h _ _ _ h5, h _ _ _ h6, h _ _ _ h7, bind, Except.bind, pure, Except.pure]

/-- a trace without warning is the same with a function that answers in more places -/
theorem backtrace_agree (h : ∀ n q v, fe n q = .ok v → fe' n q = .ok v) {xs ys D tol maxstep : F} {r : Trace F} (hw : r.warning = none)
    (hr : computeBacktrace xs ys D tol maxstep fe = some r) : computeBacktrace xs ys D tol maxstep fe' = some r := by
  cases hk : fe 0 (xs, ys) with
  | error e =>
    unfold computeBacktrace at hr
    rw [hk] at hr
    obtain rfl := Option.some.inj hr
    simp at hw
  | ok k1 =>
    rw [computeBacktrace_ok _ _ _ _ _ _ _ hk] at hr
    rw [computeBacktrace_ok _ _ _ _ _ _ _ (h _ _ _ hk)]
    obtain ⟨k, hr⟩ := (tloop_eq_some _ _ _).mp hr
    refine (tloop_eq_some _ _ _).mpr ⟨k, ?_⟩
    revert hr
    generalize (⟨PyMath.q 0, PyMath.q (1/10) * PyMath.sign D, (xs, ys), k1, 1, [(xs, ys)], []⟩ : TState F) = s
    induction k generalizing s with
    | zero => simp [tfuel]
    | succ k ih =>
      intro hr
      simp only [tfuel] at hr ⊢
      unfold titer at hr ⊢
      split_ifs at hr ⊢
      · simp only at hr ⊢
        cases he : trial fe s.n s.xy s.k1 (clipDt D s.t s.dt) with
        | error e =>
          rw [he] at hr
          obtain rfl := Option.some.inj hr
          simp at hw
        | ok x =>
          rw [he] at hr
          rw [trial_agree h he]
          simp only at hr ⊢
          split_ifs at hr ⊢ <;> exact ih _ hr
      · exact hr

end

theorem Alike.of_ok {α β : Type} {R : α → β → Prop} {a : Except PyErr α} {b : β} (h : Alike R a (.ok b)) : ∃ x, a = .ok x ∧ R x b := by
  cases a with
  | error e => exact h.elim
  | ok x => exact ⟨x, rfl, h⟩

theorem within_ok {Q : Fl × Fl → Prop} {f : Fl × Fl → Except PyErr (Fl × Fl)} {q v : Fl × Fl} (h : within Q f q = .ok v) : Q q ∧ f q = .ok v := by
  unfold within at h
  split_ifs at h with hq
  exact ⟨hq, h⟩

theorem Fl.Ordinary.ge_of_pos {x : Fl} (h : x.Ordinary) (h0 : 0 < x.val) : 2 ^ (-40 : ℤ) ≤ x.val := by
  have := h.resolve_left h0.ne'
  rw [abs_of_pos h0] at this
  exact this.1

theorem Fl.Ordinary.le_of_pos {x : Fl} (h : x.Ordinary) (h0 : 0 < x.val) : x.val ≤ 2 ^ (40 : ℤ) := by
  have := h.resolve_left h0.ne'
  rw [abs_of_pos h0] at this
  exact this.2

/-- a lower bound for the steps -/
theorem step_lower {D tol maxstep : Fl} {M d : ℝ} (hd : 0 < d) (hD0 : 0 < D.val) (hM0 : 0 ≤ M) (hM : M ≤ 2 ^ (40 : ℤ)) (hD : 2 ^ (-40 : ℤ) ≤ D.val) (ht : 2 ^ (-40 : ℤ) ≤ tol.val) (hm : 2 ^ (-40 : ℤ) ≤ maxstep.val)
    (hc : ∀ n : ℕ, (n : ℝ) * (d / 2) ≤ D.val + d / 2 → (n : ℝ) ≤ 9 + 40 * D.val + 16 * (M * D.val / tol.val) + 288 * (M * D.val / maxstep.val)) : 2 ^ (-90 : ℤ) ≤ d := by
  have p : (0:ℝ) < 2 ^ (-40 : ℤ) := two_zpow_pos _
  have h1 := hc ⌊2 * D.val / d⌋₊ (by
    have := Nat.floor_le (show 0 ≤ 2 * D.val / d by positivity)
    have := mul_le_mul_of_nonneg_right this (half_pos hd).le
    have e : 2 * D.val / d * (d / 2) = D.val := by field_simp
    linarith)
  have h2 := Nat.lt_floor_add_one (2 * D.val / d)
  have q : ∀ {y : ℝ}, 2 ^ (-40 : ℤ) ≤ y → M * D.val / y ≤ 2 ^ (80 : ℤ) * D.val := by
    intro y hy
    rw [div_le_iff₀ (p.trans_le hy)]
    have a1 : M * D.val ≤ 2 ^ (40 : ℤ) * D.val := mul_le_mul_of_nonneg_right hM hD0.le
    have a2 : 2 ^ (80 : ℤ) * D.val * 2 ^ (-40 : ℤ) ≤ 2 ^ (80 : ℤ) * D.val * y := mul_le_mul_of_nonneg_left hy (by positivity)
    have a3 : (2:ℝ) ^ (80 : ℤ) * D.val * 2 ^ (-40 : ℤ) = 2 ^ (40 : ℤ) * D.val := by norm_num; ring
    linarith
  have h3 := q ht
  have h4 := q hm
  have h5 : (1:ℝ) ≤ 2 ^ (40 : ℤ) * D.val := by
    have := mul_le_mul_of_nonneg_left hD (two_zpow_pos 40).le
    have e : (2:ℝ) ^ (40 : ℤ) * 2 ^ (-40 : ℤ) = 1 := by norm_num
    linarith
  have h6 : 2 * D.val / d ≤ 2 ^ (91 : ℤ) * D.val := by
    have e1 : (2:ℝ) ^ (40 : ℤ) = 1099511627776 := by norm_num
    have e2 : (2:ℝ) ^ (80 : ℤ) = 1208925819614629174706176 := by norm_num
    have e3 : (2:ℝ) ^ (91 : ℤ) = 2475880078570760549798248448 := by norm_num
    rw [e1] at h5
    rw [e2] at h3 h4
    rw [e3]
    linarith
  rw [div_le_iff₀ hd] at h6
  have e4 : (2:ℝ) ^ (91 : ℤ) = 2 * 2 ^ (90 : ℤ) := by norm_num
  rw [e4] at h6
  have h7 : 1 ≤ 2 ^ (90 : ℤ) * d := by
    have : 2 * D.val * 1 ≤ 2 * D.val * (2 ^ (90 : ℤ) * d) := by linarith
    exact le_of_mul_le_mul_left this (by linarith)
  have h8 := mul_le_mul_of_nonneg_left h7 (two_zpow_pos (-90)).le
  have e5 : (2:ℝ) ^ (-90 : ℤ) * (2 ^ (90 : ℤ) * d) = d := by rw [← mul_assoc, ← two_zpow_add]; simp
  rwa [mul_one, e5] at h8

variable [LibM]

theorem same_reverse (hl : LogAccurate) {m : Aquifer Fl} (confined : Bool) {q : Fl × Fl} (hm : m.Ordinary) (hx : q.1.Ordinary) (hy : q.2.Ordinary) (ho : m.exact.OffWells q.1.val q.2.val) :
    Alike (PairSame 781 870) (m.to64.reverseVelocity confined (q.1.to64, q.2.to64)) (m.reverseVelocity confined q) := by
  cases confined with
  | true =>
    obtain ⟨h1, h2⟩ := Aquifer.same_confined hm hx hy ho
    exact ⟨(h1.neg (by norm_num) (by norm_num)).mono (by norm_num) (by norm_num), (h2.neg (by norm_num) (by norm_num)).mono (by norm_num) (by norm_num)⟩
  | false =>
    have h := Aquifer.same_velocity hl hm hx hy ho
    unfold reverseVelocity
    simp only [Bool.false_eq_true, if_false]
    cases e1 : m.to64.velocity q.1.to64 q.2.to64 with
    | error e =>
      cases e2 : m.velocity q.1 q.2 with
      | error e' => rw [e1, e2] at h; exact h
      | ok v => rw [e1, e2] at h; exact h.elim
    | ok b =>
      cases e2 : m.velocity q.1 q.2 with
      | error e' => rw [e1, e2] at h; exact h.elim
      | ok v =>
        rw [e1, e2] at h
        exact ⟨h.1.neg (by norm_num) (by norm_num), h.2.neg (by norm_num) (by norm_num)⟩


end Oneka
