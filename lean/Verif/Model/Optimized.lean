import Verif.Model.Oneka

/-!
# Model of `oneka` under `python -O` (oneka/oneka.py:73-317)

With the option `-O` (or `PYTHONOPTIMIZE`) Python leaves out all `assert` statements. The package has them in oneka/oneka.py only: the checks of the arguments (206-243) and of the number of retained observations (255).
-/

namespace Oneka

/-- oneka/oneka.py:253-305 without the assertion in line 255. -/
noncomputable def computeO (n : Inputs) (env : CallEnv) : Prog FieldVal := do
  Prog.infos ((filterLog n.run.obs (n.run.wells.map fun w => (w.xw, w.yw)) n.buffer).map .filter)
  let obs ← Prog.lift (filterObs n.run.obs (n.run.wells.map fun w => (w.xw, w.yw)) n.buffer)
  let cols ← Prog.lift (summaryStatistics (obs.map fun o => [some o.x, some o.y, some o.z, some o.std]))
  Prog.info (.text "\n")
  Prog.info (.summary cols)
  if 1 < n.nrealizations then
    let f ← runProg (endlessStochastic { n.run with obs := obs } n.nrealizations env.run) (createStochastic { n.run with obs := obs } n.nrealizations env.run)
    let plot ← Prog.lift (createProbabilityPlot env.gaussian n.run.target n.run.wells obs f n.smooth)
    Prog.emit (.figure (.probability plot))
    let im ← Prog.lift (createImpactPlot n.run.spacing f)
    Prog.emit (.figure (.impact im.drawn))
    Prog.infos decileHeader
    let lines ← Prog.lift (decileTable im)
    Prog.infos (lines.map fun l => .decile l.1 l.2)
    Prog.info (.text "===========================================")
    pure (.field f)
  else
    let f ← runProg (endlessDeterministic { n.run with obs := obs } env.run) (createDeterministic { n.run with obs := obs } env.run)
    let plot ← Prog.lift (createDeterministicPlot n.run.target n.run.wells obs f)
    Prog.emit (.figure (.deterministic plot))
    Prog.info (.text "\n")
    Prog.info (.text "Capture Zone Area:")
    Prog.info (.area plot.area)
    Prog.info (.acres (plot.area / acre))
    pure (.field f)

/-- oneka/oneka.py:73-317 `oneka` without the assertions in lines 206-243 and 255. Simplification, as in `oneka`: what is computed from arguments outside `PyArgs.inputs` is left open. -/
noncomputable def onekaO (a : PyArgs) (env : CallEnv) : Prog PyVal := do
  logTheRun a
  let pfield ← (match a.inputs with
    | some n => computeO n env
    | none => ⟨(env.unmodelled a).1.map effect, (env.unmodelled a).2⟩ : Prog FieldVal)
  dumpOneka a pfield env
  Prog.emit .shown
  pure .none

end Oneka
