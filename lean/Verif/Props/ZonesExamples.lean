import Verif.Props.Zones
import Verif.Props.Examples

/-!
# Examples for C140
-/

namespace Oneka

/-- C140_stochastic: a hundred realizations -/
example (N : ℕ) (t : DateTime) (fs : Files) :
    ∃ (d : Dict) (f : PField ℝ), loadOneka ((oneka (exampleCall 100) (exampleCallEnv N t)).events.foldl Effect.apply fs) t.archiveName = .ok d ∧ d.get "pfield" = some (.field (.field f)) ∧
      1/2 * f.areaWhere 4 (fun w => 1/2 < w) ≤ meanZoneArea (realizations (oneka (exampleCall 100) (exampleCallEnv N t)).events) 1000 1000 4 4 := by
  obtain ⟨d, f, k, w, M, c1, c2, c3, c4, c5, -, c6, -⟩ :=
    C140_stochastic (exampleCall 100) (exampleInputs 100) (exampleCallEnv N t) _ (exampleCall_denotes 100) (by norm_num [exampleInputs]) (example_returns 100 N t) le_rfl fs
  have ek : k = 0 := by
    have : ((0:ℤ)) = k := c3
    omega
  subst ek
  obtain rfl : (⟨1000, 1000, 0.25, .tuple [500, 1000]⟩ : SWell) = w := Option.some.inj c4
  exact ⟨d, f, c1, c2, c5 ▸ c6 (1/2)⟩

/-- C140_deterministic -/
example (N : ℕ) (t : DateTime) : ∃ L, realizations (oneka (exampleCall 1) (exampleCallEnv N t)).events = [L] ∧ areas (oneka (exampleCall 1) (exampleCallEnv N t)).events = [L.zoneArea 1000 1000 4 4] := by
  obtain ⟨k, w, L, c3, c4, c5, c6⟩ := C140_deterministic (exampleCall 1) (exampleInputs 1) (exampleCallEnv N t) _ (exampleCall_denotes 1) le_rfl (example_returns 1 N t) le_rfl
  have ek : k = 0 := by
    have : ((0:ℤ)) = k := c3
    omega
  subst ek
  obtain rfl : (⟨1000, 1000, 0.25, .tuple [500, 1000]⟩ : SWell) = w := Option.some.inj c4
  exact ⟨L, c5, c6⟩

end Oneka
