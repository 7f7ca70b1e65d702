import Verif.Spec.Straight
import Verif.Lemmas.Still
import Verif.Lemmas.Upstream

/-!
# Lemmas for Props/Straight.lean
-/

namespace Oneka

open Aquifer

theorem onLine_move {p d q v : ℝ × ℝ} (h : ℝ) (hq : OnLine p d q) (hv : Parallel d v) : OnLine p d (q + sc h v) := by
  unfold OnLine Parallel at *
  simp only [sc, Prod.fst_add, Prod.snd_add, Prod.fst_sub, Prod.snd_sub] at *
  linear_combination hq + h * hv

theorem parallel_scq {d v : ℝ × ℝ} (c : ℚ) (hv : Parallel d v) : Parallel d (scq c v) := by
  unfold Parallel at *
  simp only [scq, sc] at *
  linear_combination (PyMath.q c : ℝ) * hv

theorem parallel_add {d v w : ℝ × ℝ} (hv : Parallel d v) (hw : Parallel d w) : Parallel d (v + w) := by
  unfold Parallel at *
  simp only [Prod.fst_add, Prod.snd_add] at *
  linear_combination hv + hw

theorem trace_straight {p d : ℝ × ℝ} {xs ys D tol maxstep : ℝ} {feval : FEval} {r : Trace ℝ} (h0 : OnLine p d (xs, ys)) (hf : ∀ n q v, OnLine p d q → feval n q = .ok v → Parallel d v)
    (h : computeBacktrace xs ys D tol maxstep feval = some r) : ∀ v ∈ r.vertices, OnLine p d v := by
  refine backtrace_inv (fun s => (∀ v ∈ s.vs, OnLine p d v) ∧ OnLine p d s.xy ∧ Parallel d s.k1) (fun r => ∀ v ∈ r.vertices, OnLine p d v)
    (fun e he v hv => ?_) (fun k1 hk => ⟨fun v hv => ?_, h0, hf _ _ _ h0 hk⟩) ?_ ?_ h
  · rw [List.mem_singleton.mp hv]
    exact h0
  · rw [List.mem_singleton.mp hv]
    exact h0
  · intro s s' ⟨h1, h2, h3⟩ hp
    cases hp with
    | accept hlt xyt k7 est ds he ht hd =>
      obtain ⟨k2, k3, k4, k5, k6, e2, e3, e4, e5, e6, rfl, e7, -, -⟩ := trial_evals he
      have p2 := hf _ _ _ (onLine_move _ h2 (parallel_scq _ h3)) e2
      have p3 := hf _ _ _ (onLine_move _ h2 (parallel_add (parallel_scq _ h3) (parallel_scq _ p2))) e3
      have p4 := hf _ _ _ (onLine_move _ h2 (parallel_add (parallel_add (parallel_scq _ h3) (parallel_scq _ p2)) (parallel_scq _ p3))) e4
      have p5 := hf _ _ _ (onLine_move _ h2 (parallel_add (parallel_add (parallel_add (parallel_scq _ h3) (parallel_scq _ p2)) (parallel_scq _ p3)) (parallel_scq _ p4))) e5
      have p6 := hf _ _ _ (onLine_move _ h2 (parallel_add (parallel_add (parallel_add (parallel_add (parallel_scq _ h3) (parallel_scq _ p2)) (parallel_scq _ p3)) (parallel_scq _ p4)) (parallel_scq _ p5))) e6
      have px := onLine_move (clipDt D s.t s.dt) h2 (parallel_add (parallel_add (parallel_add (parallel_add (parallel_scq (35/384) h3) (parallel_scq (500/1113) p3)) (parallel_scq (125/192) p4)) (parallel_scq (-2187/6784) p5)) (parallel_scq (11/84) p6))
      refine ⟨fun v hv => ?_, px, hf _ _ _ px e7⟩
      rcases List.mem_append.mp hv with hv | hv
      · exact h1 v hv
      · rw [List.mem_singleton.mp hv]
        exact px
    | reject => exact ⟨h1, h2, h3⟩
  · intro s r hs hp
    cases hp <;> exact hs.1

/-- what the code computes is the flow, reversed -/
theorem backVelocity_flows {m : Aquifer ℝ} (hm : m.Physical) {c : Bool} {p w : ℝ × ℝ} (hoff : m.OffWells p.1 p.2) (h : m.backVelocity c p = .ok w) : m.FlowsWith c p (-w) := by
  have hn := hm.porosity
  have hT := hm.thickness
  obtain ⟨d1, d2⟩ := C29_partials m p.1 p.2 hoff
  have main : ∀ b, 0 < b → m.Saturated c p.1 p.2 b → w = (-((m.discharge p.1 p.2).1 / (m.porosity * b)), -((m.discharge p.1 p.2).2 / (m.porosity * b))) → m.FlowsWith c p (-w) := by
    intro b hb hs hw
    have hnb : m.porosity * b ≠ 0 := (mul_pos hn hb).ne'
    refine ⟨hoff, b, hs, d1.congr_deriv ?_, d2.congr_deriv ?_⟩
    · rw [hw]
      simp only [Prod.fst_neg, neg_neg]
      rw [mul_div_cancel₀ _ hnb]
    · rw [hw]
      simp only [Prod.snd_neg, neg_neg]
      rw [mul_div_cancel₀ _ hnb]
  cases c with
  | true =>
    refine main m.thickness hT (by simp [Saturated]) ?_
    have h' := (Except.ok.inj h).symm
    rw [h']
    simp only [velocityConfined, mul_comm m.porosity]
  | false =>
    unfold backVelocity at h
    simp only [Bool.false_eq_true, if_false] at h
    rw [velocity_eq m hm] at h
    by_cases hp : m.potential p.1 p.2 ≤ 0
    · rw [if_pos hp] at h; simp at h
    · rw [if_neg hp] at h
      have hp' := not_le.mp hp
      have hh := headOf_pos hm.conductivity hT hp'
      refine main _ (lt_min hh hT) ?_ (Except.ok.inj h).symm
      simp only [Saturated, Bool.false_eq_true, if_false]
      exact ⟨_, hh, potential_headOf hm.conductivity hT hp', rfl⟩

/-- the flow has the direction of the discharge -/
theorem parallel_of_discharge {m : Aquifer ℝ} (hm : m.Physical) {c : Bool} {q V d : ℝ × ℝ} (h : m.FlowsWith c q V) (hd : Parallel d (m.discharge q.1 q.2)) : Parallel d V := by
  obtain ⟨hoff, b, hb, e1, e2⟩ := h
  obtain ⟨d1, d2⟩ := C29_partials m q.1 q.2 hoff
  have u1 := e1.unique d1
  have u2 := e2.unique d2
  have hb0 : 0 < b := by
    cases c with
    | true =>
      simp only [Saturated, if_true] at hb
      rw [hb]
      exact hm.thickness
    | false =>
      simp only [Saturated, Bool.false_eq_true, if_false] at hb
      obtain ⟨hh, h1, -, rfl⟩ := hb
      exact lt_min h1 hm.thickness
  have hnb : m.porosity * b ≠ 0 := (mul_pos hm.porosity hb0).ne'
  unfold Parallel at *
  refine mul_left_cancel₀ hnb ?_
  linear_combination hd - d.1 * u2 + d.2 * u1

end Oneka
