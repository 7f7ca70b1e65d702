import Verif.Spec.Run

/-!
# Runs in which every draw takes its mean
-/

namespace Oneka

/-- In the first `n` realizations of the run `a` nothing is uncertain: each variate that is drawn is the mean of its distribution (as it is for constants), the coefficients that are drawn are the expected values of the
fit, and the realizations are interrupted alike (or not at all). -/
structure RunArgs.Certain (a : RunArgs) (env : Env) (n : ℕ) : Prop where
  wells : ∀ i < n, ∀ (j : ℕ) (w : SWell), a.wells[j]? = some w → w.q.sample (env.u i j) = w.q.mean
  conductivity : ∀ i < n, a.cDist.sample (env.u i a.wells.length) = a.cDist.mean
  porosity : ∀ i < n, a.pDist.sample (env.u i (a.wells.length + 1)) = a.pDist.mean
  thickness : ∀ i < n, a.tDist.sample (env.u i (a.wells.length + 2)) = a.tDist.mean
  coefs : ∀ i < n, ∀ ev cov, env.mvn i ev cov = .ok ev
  interrupts : ∀ i < n, env.interrupt i = env.interrupt 0

/-- `L` and `L'` are about the same model and fit, with the same traces; the recharge that `L'` reports is the opposite of the one that `L` reports. -/
structure RealizationLog.SameButRecharge (L L' : RealizationLog) : Prop where
  model : L.model = L'.model
  ev : L.ev = L'.ev
  cov : L.cov = L'.cov
  traces : L.traces = L'.traces
  recharge : L'.recharge = -L.recharge

end Oneka
