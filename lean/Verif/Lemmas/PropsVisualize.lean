import Verif.Lemmas.Visualize
import Verif.Lemmas.AquiferX
import Verif.Props.Field
import Verif.Props.Aquifer
import Verif.Spec.Visualize

/-!
# Lemmas for Props/Visualize.lean
-/

namespace Oneka

open PField

theorem at_least_nine (f : PField ℝ) (hf : f.Reachable) (ht : 0 < f.total) : 9 ≤ (f.nodesWhere (fun _ => True)).ncard := by
  classical
  have wf := reachable_wf hf
  obtain ⟨b, hb⟩ : ∃ b, f.body = some b := by
    cases h : f.body with
    | none => unfold PField.total at ht; rw [h] at ht; exact absurd ht (lt_irrefl _)
    | some b => exact ⟨b, rfl⟩
  obtain ⟨h1, h2, -⟩ := wf.grid b hb
  rw [← (count_cells wf hb _).1]
  simp only [decide_true, List.countP_true]
  have : (cells f.nrows f.ncols).length = f.nrows * f.ncols := by
    have e : cells f.nrows f.ncols = (List.range f.nrows) ×ˢ (List.range f.ncols) := rfl
    rw [e, List.length_product, List.length_range, List.length_range]
  rw [this]
  nlinarith

end Oneka
