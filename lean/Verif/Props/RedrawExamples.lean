import Verif.Props.Redraw

/-!
# C150 on concrete tracks
-/

namespace Oneka

open PField

/-- The same segment with its midpoint, from the other end. -/
theorem redrawn_example : Redrawn ([(0, 0), (2, 0)] : List (ℚ × ℚ)) [(2, 0), (1, 0), (0, 0)] := by
  refine (Redrawn.refined [] (0, 0) (2, 0) [] (1/2) (by norm_num) (by norm_num)).trans ?_
  have := Redrawn.reverse ([(0, 0), (1, 0), (2, 0)] : List (ℚ × ℚ))
  norm_num at this ⊢
  exact this

/-- With an umbra of three spacings and another track in between: the fields agree, and something was recorded. -/
example : ∃ f0 f f' : PField ℚ, PField.new 1 1 (some 0) (some 0) = .ok f0 ∧
    f0.run (([.track [(0,0),(2,0)] 3, .register 4, .track [(0,0),(0,9)] 3] : List (Event ℚ)).map Event.call) = some f ∧
    f0.run (([.track [(2,0),(1,0),(0,0)] 3, .register 4, .track [(0,0),(0,9)] 3] : List (Event ℚ)).map Event.call) = some f' ∧
    f.Alike f' ∧ f'.weightAt 1 0 = 4 := by
  obtain ⟨f0, b, hnew, -⟩ := new_origin (1:ℚ) 1 0 0 (by norm_num) (by norm_num)
  have v : ∀ e ∈ ([.track [(0,0),(2,0)] 3, .register 4, .track [(0,0),(0,9)] 3] : List (Event ℚ)), e.Valid := by
    simp [Event.Valid]
  obtain ⟨f, f', e, e', h⟩ := C150_redrawn hnew
    (es' := [.track [(2,0),(1,0),(0,0)] 3, .register 4, .track [(0,0),(0,9)] 3])
    (.cons (.track 3 redrawn_example) (.cons (.refl _) (.cons (.refl _) .nil))) v
  refine ⟨f0, f, f', hnew, e, e', h, ?_⟩
  rw [← (h.2.2.2 1 0).2.1]
  obtain ⟨g, eg, hg⟩ := C73_weights hnew _ v
  obtain rfl := Option.some.inj (eg.symm.trans e)
  rw [(hg 1 0 ⟨1, 0, by norm_num, by norm_num⟩).1]
  have r : Records (0:ℚ) 0 1 1 [⟨[(0, 0), (2, 0)], 3, [(0, 0), (2, 0)]⟩] 1 0 := by
    refine ⟨_, List.mem_singleton_self _, ⟨(0, 0), (2, 0), ⟨[], [], rfl⟩, by norm_num, 1/2, by norm_num, by norm_num, by norm_num⟩, ?_⟩
    norm_num [Reached, InReach]
  simp [drawnGroups, recordedWeight, r]

/-- A bent track in two pieces, between tracks with a larger umbra. -/
example : ∃ f0 f f' : PField ℚ, PField.new 1 1 (some 0) (some 0) = .ok f0 ∧
    f0.run (([.track [(0,0),(2,0)] 3, .track [(0,0),(2,0),(2,5)] 1, .register 1] : List (Event ℚ)).map Event.call) = some f ∧
    f0.run (([.track [(0,0),(2,0)] 3, .track [(0,0),(2,0)] 1, .track [(2,0),(2,5)] 1, .register 1] : List (Event ℚ)).map Event.call) = some f' ∧
    f.Alike f' := by
  obtain ⟨f0, b, hnew, -⟩ := new_origin (1:ℚ) 1 0 0 (by norm_num) (by norm_num)
  obtain ⟨f, f', e, e', h⟩ := C150_cut hnew [.track [(0,0),(2,0)] 3] [.register 1] [(0,0)] (2,0) [(2,5)] 1
    (by norm_num) (by norm_num) (by norm_num) (by simp [Event.Valid]) (by simp [Event.Valid])
  exact ⟨f0, f, f', hnew, e, e', h⟩

end Oneka
