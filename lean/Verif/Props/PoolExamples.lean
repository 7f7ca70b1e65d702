import Verif.Props.Pool
import Verif.Props.Examples

/-!
# Examples for C152
-/

namespace Oneka

/-- any two sequences of random numbers can be pooled -/
example (m : ℕ) (e e' : Env) (h : e.la = e'.la) : ∃ env : Env, env.Pools m e e' :=
  ⟨⟨e.la, fun i => if i < m then e.u i else e'.u (i - m), fun i => if i < m then e.mvn i else e'.mvn (i - m), fun i => if i < m then e.interrupt i else e'.interrupt (i - m)⟩, ⟨rfl, h.symm⟩,
    fun i hi => by simp [hi], fun i => by simp⟩

theorem example_pools (m N : ℕ) (t : DateTime) : (exampleCallEnv N t).run.Pools m (exampleCallEnv N t).run (exampleCallEnv N t).run :=
  ⟨⟨rfl, rfl⟩, fun _ _ => ⟨rfl, rfl, rfl⟩, fun _ => ⟨rfl, rfl, rfl⟩⟩

/-- `C152_archived`: five realizations, in batches of two and three; `C152_weights` and `C152_returns` are about the runs in these calls. -/
example (N : ℕ) (t t₁ t₂ : DateTime) (fs fs₁ fs₂ : Files) :
    ∃ (d d₁ d₂ : Dict) (f f₁ f₂ : PField ℝ), loadOneka ((oneka (exampleCall 5) (exampleCallEnv N t)).events.foldl Effect.apply fs) t.archiveName = .ok d ∧ d.get "pfield" = some (.field (.field f)) ∧
      loadOneka ((oneka (exampleCall 2) (exampleCallEnv N t₁)).events.foldl Effect.apply fs₁) t₁.archiveName = .ok d₁ ∧ d₁.get "pfield" = some (.field (.field f₁)) ∧
      loadOneka ((oneka (exampleCall 3) (exampleCallEnv N t₂)).events.foldl Effect.apply fs₂) t₂.archiveName = .ok d₂ ∧ d₂.get "pfield" = some (.field (.field f₂)) ∧
      ∀ X Y, f.weightAt X Y / f.total = (2 * (f₁.weightAt X Y / f₁.total) + 3 * (f₂.weightAt X Y / f₂.total)) / 5 := by
  obtain ⟨d, d₁, d₂, f, f₁, f₂, e1, e2, e3, e4, e5, e6, -, h⟩ := C152_archived (exampleCall 5) (exampleCall 2) (exampleCall 3) _ _ _ (exampleCallEnv N t) (exampleCallEnv N t₁) (exampleCallEnv N t₂) _ _ _
    (exampleCall_denotes 5) (exampleCall_denotes 2) (exampleCall_denotes 3) (example_returns 5 N t) (example_returns 2 N t₁) (example_returns 3 N t₂) ⟨rfl, rfl⟩ ⟨rfl, rfl⟩
    ⟨by decide, by decide, by decide⟩ (example_pools _ N t) fs fs₁ fs₂
  refine ⟨d, d₁, d₂, f, f₁, f₂, e1, e2, e3, e4, e5, e6, fun X Y => ?_⟩
  have := (h X Y).2 (by simp [exampleInputs])
  simpa [exampleInputs] using this

end Oneka
