import Verif.Spec.RunReach

/-!
# Vocabulary for runs in batches
-/

namespace Oneka

/-- The first `m` realizations get the random numbers of `e`, the following ones those of `e'`. -/
structure Env.Pools (env : Env) (m : ℕ) (e e' : Env) : Prop where
  la : e.la = env.la ∧ e'.la = env.la
  first : ∀ i < m, e.u i = env.u i ∧ e.mvn i = env.mvn i ∧ e.interrupt i = env.interrupt i
  second : ∀ i, e'.u i = env.u (m + i) ∧ e'.mvn i = env.mvn (m + i) ∧ e'.interrupt i = env.interrupt (m + i)

end Oneka
