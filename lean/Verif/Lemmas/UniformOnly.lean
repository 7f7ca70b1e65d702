import Verif.Lemmas.Embed
import Verif.Lemmas.Diverge
import Verif.Props.Backtrace
import Verif.Model.Capturezone

/-!
# Traces through a place where the velocity is uniform

(for the examples of C136 and C137)
-/

namespace Oneka

open Classical in
/-- the velocity `v` on the segment that a particle from `p0` passes in the time `D`, and exceptions elsewhere -/
noncomputable def segmentOnly (p0 v : ℝ × ℝ) (D : ℝ) : FEval := fun _ p => if ∃ s, 0 ≤ s ∧ s ≤ D ∧ p = p0 + s • v then .ok v else .error .aquiferError

theorem segment_at {p0 v : ℝ × ℝ} {D s : ℝ} (h0 : 0 ≤ s) (h1 : s ≤ D) (n : ℕ) : segmentOnly p0 v D n (p0 + s • v) = .ok v := if_pos ⟨s, h0, h1, rfl⟩

theorem segment_trial {p0 v : ℝ × ℝ} {D t h : ℝ} (ht : 0 ≤ t) (hh : 0 ≤ h) (hD : t + h ≤ D) (n : ℕ) : ∃ est ds, trial (segmentOnly p0 v D) n (p0 + t • v) v h = .ok (p0 + (t + h) • v, v, est, ds) := by
  have at_ : ∀ (n : ℕ) (c : ℝ) (q : ℝ × ℝ), 0 ≤ c → c ≤ 1 → q = p0 + (t + c * h) • v → segmentOnly p0 v D n q = .ok v := by
    intro n c q h0 h1 hq
    rw [hq]
    exact segment_at (by positivity) (by nlinarith) n
  unfold trial
  simp only [bind, Except.bind, pure, Except.pure]
  rw [at_ n (1/5) _ (by norm_num) (by norm_num) (by ext <;> simp [sc, scq] <;> ring)]
  simp only
  rw [at_ (n+1) (3/10) _ (by norm_num) (by norm_num) (by ext <;> simp [sc, scq] <;> ring)]
  simp only
  rw [at_ (n+2) (4/5) _ (by norm_num) (by norm_num) (by ext <;> simp [sc, scq] <;> ring)]
  simp only
  rw [at_ (n+3) (8/9) _ (by norm_num) (by norm_num) (by ext <;> simp [sc, scq] <;> ring)]
  simp only
  rw [at_ (n+4) 1 _ (by norm_num) (by norm_num) (by ext <;> simp [sc, scq] <;> ring)]
  simp only
  rw [at_ (n+5) 1 _ (by norm_num) (by norm_num) (by ext <;> simp [sc, scq] <;> ring)]
  simp only [Except.ok.injEq, Prod.mk.injEq, true_and]
  refine ⟨_, _, ?_, rfl, rfl⟩
  ext <;> simp [sc, scq] <;> ring

theorem segment_trace (p0 v : ℝ × ℝ) {D tol M : ℝ} (hD : 0 < D) (htol : (10/9)^5 * (2:ℝ)^(-52 : ℤ) < tol) (hM : (10/9) * (2:ℝ)^(-52 : ℤ) < M) :
    ∃ r, computeBacktrace p0.1 p0.2 D tol M (segmentOnly p0 v D) = some r ∧ r.warning = none := by
  obtain ⟨r, hr⟩ := C20_terminates p0.1 p0.2 D tol M ‖v‖ 0 (segmentOnly p0 v D) (norm_nonneg _) le_rfl (fun n p w hw => by
    unfold segmentOnly at hw
    split_ifs at hw
    rw [← Except.ok.inj hw]
    simp) htol hM
  have ht0 : 0 < tol := lt_trans (by positivity) htol
  have hM0 : 0 < M := lt_trans (by positivity) hM
  have first : ∀ n, segmentOnly p0 v D n (p0.1, p0.2) = .ok v := fun n => by
    have := segment_at (p0 := p0) (v := v) (le_refl 0) hD.le n
    simpa using this
  refine ⟨r, hr, ?_⟩
  have clip : ∀ t dt : ℝ, 0 ≤ t → t ≤ D → 0 ≤ dt → 0 ≤ clipDt D t dt ∧ t + clipDt D t dt ≤ D := by
    intro t dt h0 h1 h2
    unfold clipDt
    simp only [PyMath.abs_real]
    split_ifs with h
    · exact ⟨by linarith, by linarith⟩
    · rw [abs_of_pos hD, abs_of_nonneg (by linarith)] at h
      exact ⟨h2, not_lt.mp h⟩
  have next : ∀ est ds h : ℝ, 0 ≤ est → 0 ≤ ds → 0 ≤ h → 0 ≤ nextDt tol M est ds h := by
    intro est ds h h1 h2 h3
    have hE : (0:ℝ) < EPS := EPS_pos
    rw [nextDt_eq]
    have a : 0 ≤ min (min ((tol / (est + EPS)) ^ ((1:ℝ)/5)) (M / (ds + EPS))) 10 := le_min (le_min (by positivity) (by positivity)) (by norm_num)
    positivity
  refine backtrace_inv (fun s => 0 ≤ s.t ∧ s.t ≤ D ∧ 0 ≤ s.dt ∧ s.xy = p0 + s.t • v ∧ s.k1 = v) (fun r => r.warning = none) ?_ ?_ ?_ ?_ hr
  · intro e he
    rw [first] at he
    simp at he
  · intro k1 hk
    rw [first] at hk
    refine ⟨by simp, by simpa using hD.le, ?_, by simp, (Except.ok.inj hk).symm⟩
    show (0:ℝ) ≤ ((1/10 : ℚ) : ℝ) * Real.sign D
    rw [Real.sign_of_pos hD]
    norm_num
  · rintro s s' ⟨h1, h2, h3, h4, h5⟩ hp
    obtain ⟨c1, c2⟩ := clip s.t s.dt h1 h2 h3
    obtain ⟨est, ds, e⟩ := segment_trial (p0 := p0) (v := v) h1 c1 c2 s.n
    rw [← h4] at e
    cases hp with
    | accept hlt xyt k2 est' ds' he ht hd =>
      simp only [h5] at he
      have hx := e.symm.trans he
      simp only [Except.ok.injEq, Prod.mk.injEq] at hx
      obtain ⟨rfl, rfl, rfl, rfl⟩ := hx
      obtain ⟨n1, n2⟩ := trial_nonneg he
      exact ⟨by simp only; linarith, c2, next _ _ _ n1 n2 c1, rfl, rfl⟩
    | reject hlt xyt k2 est' ds' he ht =>
      simp only [h5] at he
      have hx := e.symm.trans he
      simp only [Except.ok.injEq, Prod.mk.injEq] at hx
      obtain ⟨rfl, rfl, rfl, rfl⟩ := hx
      obtain ⟨n1, n2⟩ := trial_nonneg he
      exact ⟨h1, h2, next _ _ _ n1 n2 c1, h4, h5⟩
  · rintro s r ⟨h1, h2, h3, h4, h5⟩ hp
    cases hp with
    | done => rfl
    | error hlt e he =>
      obtain ⟨c1, c2⟩ := clip s.t s.dt h1 h2 h3
      obtain ⟨est, ds, e'⟩ := segment_trial (p0 := p0) (v := v) h1 c1 c2 s.n
      rw [← h4] at e'
      simp only [h5] at he
      rw [e'] at he
      simp at he

/-- If the velocity is `v` on the segment that a particle from `p0` passes in the time `D`, the trace is complete, whatever the velocity is elsewhere. -/
theorem uniform_complete {g : ℕ → XR × XR → Except PyErr (XR × XR)} (p0 v : ℝ × ℝ) {D tol M : ℝ} (hD : 0 < D) (htol : (10/9)^5 * (2:ℝ)^(-52 : ℤ) < tol) (hM : (10/9) * (2:ℝ)^(-52 : ℤ) < M)
    (hg : ∀ n s, 0 ≤ s → s ≤ D → g n (emb (p0 + s • v)) = .ok (emb v)) : ∃ r, computeBacktrace (.fin p0.1) (.fin p0.2) (.fin D) (.fin tol) (.fin M) g = some r ∧ r.warning = none := by
  classical
  obtain ⟨r, hr, hw⟩ := segment_trace p0 v hD htol hM
  let fe : ℕ → XR × XR → Except PyErr (XR × XR) := fun n p => if ∃ q, p = emb q then (segmentOnly p0 v D n (p.1.toReal, p.2.toReal)).map emb else .error .aquiferError
  have hext : Extends fe (segmentOnly p0 v D) := by
    intro n p
    show (if _ then _ else _) = _
    rw [if_pos ⟨p, rfl⟩]
    rfl
  have hx := computeBacktrace_embed hext (xs := p0.1) (ys := p0.2) (d := D) (tol := tol) (maxstep := M) (lt_trans (by positivity) htol).le
  rw [hr, Option.map_some] at hx
  refine ⟨_, undisturbed (fe' := fe) ?_ hx (by simp [Trace.emb, hw]), by simp [Trace.emb, hw]⟩
  intro n p
  simp only [fe]
  by_cases hq : ∃ q, p = emb q
  · rw [if_pos hq]
    obtain ⟨q, rfl⟩ := hq
    show (segmentOnly p0 v D n q).map emb = _ ∨ ∃ e, (segmentOnly p0 v D n q).map emb = _
    unfold segmentOnly
    by_cases hs : ∃ s, 0 ≤ s ∧ s ≤ D ∧ q = p0 + s • v
    · rw [if_pos hs]
      obtain ⟨s, s0, s1, rfl⟩ := hs
      exact .inl (hg n s s0 s1).symm
    · rw [if_neg hs]
      exact .inr ⟨_, rfl⟩
  · rw [if_neg hq]
    exact .inr ⟨_, rfl⟩

end Oneka
