import Verif.Spec.Run

/-!
# Runs that differ in the duration, the tolerance, the step limit and the umbra
-/

namespace Oneka

/-- `a` with other settings for the traces: another duration, tolerance and step limit; and another umbra. -/
def RunArgs.retraced (a : RunArgs) (duration tol maxstep umbra : ℝ) : RunArgs :=
  { a with duration := .fin duration, tol := .fin tol, maxstep := .fin maxstep, umbra := umbra }

/-- `L` and `L'` are about the same model, fit and recharge, with the same number of traces. -/
structure RealizationLog.SameModel (L L' : RealizationLog) : Prop where
  model : L.model = L'.model
  ev : L.ev = L'.ev
  cov : L.cov = L'.cov
  recharge : L.recharge = L'.recharge
  count : L.traces.length = L'.traces.length

end Oneka
