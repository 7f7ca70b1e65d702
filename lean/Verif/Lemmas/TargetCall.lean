import Verif.Lemmas.Target
import Verif.Props.Oneka
import Verif.Props.Reach

/-!
# Two calls about two targets (for Props/Target.lean)
-/

namespace Oneka

/-- what both returning calls log, realization by realization -/
theorem target_realized {a a' : PyArgs} {n : Inputs} {k' : ℤ} {env env' : CallEnv} {v v' : PyVal} (hd : a.Denotes n) (hd' : a'.Denotes (n.withTarget k')) (hr : (oneka a env).ending = .returns v)
    (hr' : (oneka a' env').ending = .returns v') (hu : env'.run.u = env.run.u) :
    ∃ (k j : ℕ) (t t' : SWell) (obs : List Obs) (q : ℕ → Dist → ℕ → Except PyErr ℝ) (coefs coefs' : ℕ → (Fin 6 → ℝ) → Matrix (Fin 6) (Fin 6) ℝ → Except PyErr (Fin 6 → ℝ)),
      n.run.target = k ∧ n.run.wells[k]? = some t ∧ k' = j ∧ n.run.wells[j]? = some t' ∧ filterObs n.run.obs (n.run.wells.map fun w => (w.xw, w.yw)) n.buffer = .ok obs ∧
      (realizations (oneka a' env').events).length = (realizations (oneka a env).events).length ∧
      (1 < n.nrealizations → q = fun i d j => d.sample (env.run.u i j)) ∧ (n.nrealizations ≤ 1 → (q = fun _ d _ => d.mean) ∧ (coefs = fun _ ev _ => .ok ev) ∧ coefs' = fun _ ev _ => .ok ev) ∧
      (∀ (i : ℕ) (L : RealizationLog), (realizations (oneka a env).events)[i]? = some L → Realized { n.run with obs := obs } env.run.la t (q i) (coefs i) (env.run.interrupt i) L) ∧
      (∀ (i : ℕ) (L : RealizationLog), (realizations (oneka a' env').events)[i]? = some L → Realized { (n.withTarget k').run with obs := obs } env'.run.la t' (q i) (coefs' i) (env'.run.interrupt i) L) := by
  have hlen : (realizations (oneka a' env').events).length = (realizations (oneka a env).events).length := by
    obtain ⟨-, -, -, -, -, -, -, -, e5, -⟩ := C74_archived a n env v hd hr fun _ => none
    obtain ⟨-, -, -, -, -, -, -, -, e5', -⟩ := C74_archived a' (n.withTarget k') env' v' hd' hr' fun _ => none
    have : ((realizations (oneka a' env').events).length : ℤ) = (realizations (oneka a env).events).length := e5'.trans e5.symm
    exact_mod_cast this
  by_cases hn : 1 < n.nrealizations
  · obtain ⟨-, -, obs, k, t, -, -, j3, -, j4, j5, -, j7, -⟩ := C68_stochastic a n env v hd hn hr fun _ => none
    obtain ⟨-, -, obs', j, t', -, -, i3, -, i4, i5, -, i7, -⟩ := C68_stochastic a' (n.withTarget k') env' v' hd' hn hr' fun _ => none
    obtain rfl : obs = obs' := Except.ok.inj (j3.symm.trans i3)
    rw [hu] at i7
    exact ⟨k, j, t, t', obs, _, _, _, j4, j5, i4, i5, j3, hlen, fun _ => rfl, fun h => absurd hn (by omega), j7, i7⟩
  · obtain ⟨-, -, obs, k, t, M, -, -, j3, -, j4, j5, j6, j7, -⟩ := C68_deterministic a n env v hd (not_lt.mp hn) hr fun _ => none
    obtain ⟨-, -, obs', j, t', M', -, -, i3, -, i4, i5, i6, i7, -⟩ := C68_deterministic a' (n.withTarget k') env' v' hd' (not_lt.mp hn) hr' fun _ => none
    obtain rfl : obs = obs' := Except.ok.inj (j3.symm.trans i3)
    refine ⟨k, j, t, t', obs, fun _ d _ => d.mean, fun _ ev _ => .ok ev, fun _ ev _ => .ok ev, j4, j5, i4, i5, j3, hlen, fun h => absurd h hn, fun _ => ⟨rfl, rfl, rfl⟩, fun i L hL => ?_, fun i L hL => ?_⟩
    · rw [j6] at hL
      rcases i with _ | i
      · obtain rfl := Option.some.inj hL
        exact j7
      · simp at hL
    · rw [i6] at hL
      rcases i with _ | i
      · obtain rfl := Option.some.inj hL
        exact i7
      · simp at hL

end Oneka
