import Verif.Spec.RunReach

/-!
# Runs that differ in the umbra, the spacing and the number of paths
-/

namespace Oneka

/-- `a` with another umbra and another grid spacing. -/
def RunArgs.redrawn (a : RunArgs) (umbra spacing : ℝ) : RunArgs := { a with umbra := umbra, spacing := spacing }

/-- `a` with another umbra, another grid spacing and `k` times as many paths. -/
def RunArgs.denser (a : RunArgs) (k : ℕ) (umbra spacing : ℝ) : RunArgs :=
  { a with umbra := umbra, spacing := spacing, npaths := k * a.npaths }

/-- `env'` gives every realization the same draws and the same linear algebra as `env`, and (unless interrupts from outside occur this is no condition) trace `k * j` is interrupted as trace `j` is in `env`. -/
structure Env.Denser (k : ℕ) (env env' : Env) : Prop where
  la : env'.la = env.la
  u : env'.u = env.u
  mvn : env'.mvn = env.mvn
  interrupt : ∀ i j n, env'.interrupt i (k * j) n = env.interrupt i j n

/-- Everything logged about a realization in `L` is also in `L'`: the same model, fit and recharge, and trace number `j` is trace number `k * j`. -/
structure RealizationLog.Within (k : ℕ) (L L' : RealizationLog) : Prop where
  model : L.model = L'.model
  ev : L.ev = L'.ev
  cov : L.cov = L'.cov
  recharge : L.recharge = L'.recharge
  count : L'.traces.length = k * L.traces.length
  traces : ∀ j < L.traces.length, L.traces[j]? = L'.traces[k * j]?

/-- Both runs never return; or both raise the same exception, or both return a field; having logged the same. -/
def SameCourse : Option RunResult → Option RunResult → Prop
  | none, none => True
  | some ⟨.ok _, l⟩, some ⟨.ok _, l'⟩ => l = l'
  | some ⟨.error e, l⟩, some ⟨.error e', l'⟩ => e = e' ∧ l = l'
  | _, _ => False

end Oneka
