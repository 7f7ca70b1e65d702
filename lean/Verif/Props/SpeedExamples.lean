import Verif.Props.Speed
import Verif.Props.StraightExamples

/-!
# Examples for Props/Speed.lean
-/

namespace Oneka

/-- a river: 1 m/d to the east near its southern bank, 3 m/d to the east and 1 m/d to the north elsewhere; interrupted after `N` evaluations -/
noncomputable def river (N : ℕ) : ℕ → ℝ × ℝ → Except PyErr (ℝ × ℝ) :=
  fun n q => if n < N then .ok (if q.2 < 10 then (1, 0) else (3, 1)) else .error .keyboardInterrupt

theorem river_returns (N : ℕ) (x y D tol maxstep : ℝ) : ∃ r, computeBacktrace x y D tol maxstep (river N) = some r :=
  interrupted_terminates (N := N) (fun p => ⟨.keyboardInterrupt, by simp [river]⟩) _ _ _ _ _

theorem river_velocity {N n : ℕ} {q v : ℝ × ℝ} (h : river N n q = .ok v) : v = (1, 0) ∨ v = (3, 1) := by
  unfold river at h
  split_ifs at h
  · exact .inl (Except.ok.inj h).symm
  · exact .inr (Except.ok.inj h).symm

theorem river_range {N n : ℕ} {q v : ℝ × ℝ} (h : river N n q = .ok v) : 1 ≤ along (1, 0) v ∧ along (1, 0) v ≤ 3 := by
  rcases river_velocity h with rfl | rfl <;> norm_num [along]

/-- `C147_range` and `C147_advances`: however coarse, a trace of 100 d leads steadily to the east, by more than 0.35 τ and less than 3.65 τ in the time τ. -/
example (N : ℕ) : ∃ r, computeBacktrace 0 9 100 50 500 (river N) = some r ∧ (r.vertices.map (along (1, 0))).Pairwise (· < ·) ∧
    ∃ last τ, r.vertices.getLast? = some last ∧ τ = r.warning.getD 100 ∧ 0 ≤ τ ∧ 0.35 * τ ≤ last.1 ∧ last.1 ≤ 3.65 * τ := by
  obtain ⟨r, hr⟩ := river_returns N 0 9 100 50 500
  refine ⟨r, hr, C147_advances (by norm_num) (by norm_num) (by norm_num) (fun _ _ _ => river_range) (by norm_num [overshoot]) hr, ?_⟩
  obtain ⟨last, τ, h1, h2, h3, -, h4, h5⟩ := C147_range (u := (1, 0)) (by norm_num) (by norm_num) (by norm_num) (fun _ _ _ => river_range) hr
  refine ⟨last, τ, h1, h2, h3, ?_, ?_⟩
  · norm_num [along, overshoot] at h4
    linarith
  · norm_num [along, overshoot] at h5
    linarith

/-- `C147_speed`: forward and backward, no vertex is farther than 530 m from the start. -/
example (N : ℕ) : ∃ r, computeBacktrace 0 9 (-100) 50 500 (river N) = some r ∧ ∀ v ∈ r.vertices, lengthSq (v - (0, 9)) ≤ 530 ^ 2 := by
  obtain ⟨r, hr⟩ := river_returns N 0 9 (-100) 50 500
  refine ⟨r, hr, fun v hv => (C147_speed (M := 3.2) (by norm_num) (by norm_num) (by norm_num) (by norm_num) (fun n q w hw => ?_) hr v hv).trans (by norm_num)⟩
  rcases river_velocity hw with rfl | rfl <;> norm_num [lengthSq]

/-- `C147_attained`: at 3 m/d for an hour, 0.206 m instead of 0.125 m. -/
example : ∃ feval : ℕ → ℝ × ℝ → Except PyErr (ℝ × ℝ), (∀ n q, ∃ v, feval n q = .ok v ∧ lengthSq v = 3 ^ 2) ∧
    ∃ r, computeBacktrace 0 0 (1/24) 1 10 feval = some r ∧ r.vertices = [(0, 0), (5579 / 3392 * 3 * (1/24), 0)] :=
  C147_attained (by norm_num) (by norm_num) (by norm_num) (by norm_num) (by norm_num)

end Oneka
