import Verif.Lemmas.Zones
import Verif.Props.Report

/-!
# The capture zones of the realizations of a call
-/

namespace Oneka

/-- The field that a returning call with several realizations archives counts the capture zones of its realizations. -/
theorem archived_counts {a : PyArgs} {n : Inputs} {env : CallEnv} {v : PyVal} (hd : a.Denotes n) (h1 : 1 < n.nrealizations) (h : (oneka a env).ending = .returns v) (hu : n.run.umbra ≤ n.run.spacing)
    (fs : Files) :
    ∃ (d : Dict) (f : PField ℝ) (k : ℕ) (t : SWell),
      loadOneka ((oneka a env).events.foldl Effect.apply fs) env.now.archiveName = .ok d ∧ d.get "pfield" = some (.field (.field f)) ∧
      n.run.target = k ∧ n.run.wells[k]? = some t ∧ CountsZones f (realizations (oneka a env).events) t.xw t.yw n.run.spacing n.run.umbra := by
  obtain ⟨d, f, obs, k, t, c1, c2, -, -, c3, c4, c5, -, c6, c7, c8⟩ := C68_stochastic a n env v hd h1 h fs
  refine ⟨d, f, k, t, c1, c2, c3, c4, ?_⟩
  rcases returned_cases hd h with ⟨-, obs', cols, r, f', pl, im, lines, H⟩ | ⟨h2, -⟩
  swap
  · omega
  obtain ⟨d', e1, e2⟩ := archived_field h H.archived fs
  obtain rfl : d' = d := Except.ok.inj (e1.symm.trans c1)
  obtain rfl : f' = f := by rw [c2] at e2; simpa using e2.symm
  obtain ⟨im', -, -, hfin, -⟩ := C53_impact f' H.reachable H.total n.run.spacing
  refine ⟨fun P => (hfin P).1, by omega, ?_, fun X Y hN => ?_, ?_⟩
  · rw [c6, ← c5, Int.cast_natCast]
  · obtain ⟨p, q, e⟩ := c8 X Y hN
    exact ⟨p, q, e⟩
  · rintro X Y ⟨p, q, rfl, rfl⟩
    exact c7 p q (.inr hu)

end Oneka
