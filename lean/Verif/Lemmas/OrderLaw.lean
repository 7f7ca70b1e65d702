import Mathlib.Probability.ProductMeasure
import Verif.Lemmas.OrderRun
import Verif.Lemmas.Draw
import Verif.Spec.Statistics

/-!
# The law of a run does not depend on the order of the wells
-/

namespace Oneka

open MeasureTheory

theorem accepted_proper {v : PyVal} {d : Dist} {lb ub : XR} (h : v.DistIn lb ub) (hm : v.Means d) : d.Proper := by
  rcases accepted_dist h hm with ⟨c, rfl⟩ | ⟨x, y, rfl, -⟩ | ⟨x, m, y, rfl, -, -⟩
  · trivial
  · exact .inl rfl
  · exact .inr rfl

theorem collect_rel {β : Type} {R : β → β → Prop} {φ : Effect → Option β} {l l' : List Effect} (h : List.Forall₂ EffectSame l l') (hφ : ∀ e e', EffectSame e e' → Option.Rel R (φ e) (φ e')) :
    List.Forall₂ R (l.filterMap φ) (l'.filterMap φ) := by
  induction h with
  | nil => exact .nil
  | @cons e e' l l' he _ ih =>
    rw [List.filterMap_cons, List.filterMap_cons]
    have := hφ e e' he
    revert this
    generalize φ e = x
    generalize φ e' = x'
    intro hx
    match x, x', hx with
    | none, none, _ => exact ih
    | some a, some b, .some hab => exact .cons hab ih

theorem collect_same {β : Type} {φ : Effect → Option β} {l l' : List Effect} (h : List.Forall₂ EffectSame l l') (hφ : ∀ e e', EffectSame e e' → φ e' = φ e) : l'.filterMap φ = l.filterMap φ := by
  induction h with
  | nil => rfl
  | @cons e e' l l' he _ ih => rw [List.filterMap_cons, List.filterMap_cons, hφ e e' he, ih]

theorem Aquifer.SameButOrder.refl (m : Aquifer ℝ) : m.SameButOrder m := ⟨rfl, rfl, rfl, rfl, .refl _, rfl, rfl, rfl⟩

theorem RealizationLog.SameButOrder.refl (l : RealizationLog) : l.SameButOrder l := ⟨.refl _, rfl, rfl, rfl, rfl⟩

/-- the numbers of a realization, with the draws in another order -/
def reorderNumbers (σ : Equiv.Perm ℕ) : Numbers ≃ᵐ Numbers where
  toFun x := (fun j => x.1 (σ j), x.2)
  invFun x := (fun j => x.1 (σ.symm j), x.2)
  left_inv x := by simp
  right_inv x := by simp
  measurable_toFun := by
    refine Measurable.prodMk (measurable_pi_lambda _ fun j => ?_) measurable_snd
    exact (measurable_pi_apply (σ j)).comp measurable_fst
  measurable_invFun := by
    refine Measurable.prodMk (measurable_pi_lambda _ fun j => ?_) measurable_snd
    exact (measurable_pi_apply (σ.symm j)).comp measurable_fst

theorem envOf_reorder (la : LinAlg) (mv : NormalGen) (σ : Equiv.Perm ℕ) (x : ℕ → Numbers) : envOf la mv (fun i => reorderNumbers σ (x i)) = (envOf la mv x).reorder σ := rfl

/-- reordering the draws of all realizations preserves the product law -/
theorem reorder_law {ν : Measure Numbers} [IsProbabilityMeasure ν] {σ : Equiv.Perm ℕ} (hν : ν.map (fun x => (fun j => x.1 (σ j), x.2)) = ν) (A : Set (ℕ → Numbers)) :
    (Measure.infinitePi fun _ : ℕ => ν) {x | (fun i => reorderNumbers σ (x i)) ∈ A} = (Measure.infinitePi fun _ : ℕ => ν) A := by
  have hm : (Measure.infinitePi fun _ : ℕ => ν).map (fun x i => reorderNumbers σ (x i)) = Measure.infinitePi fun _ : ℕ => ν := by
    rw [Measure.infinitePi_map_pi (f := fun _ => reorderNumbers σ) _ fun _ => (reorderNumbers σ).measurable]
    congr 1
    funext i
    exact hν
  let T : (ℕ → Numbers) ≃ᵐ (ℕ → Numbers) := MeasurableEquiv.piCongrRight fun _ => reorderNumbers σ
  have hT : (Measure.infinitePi fun _ : ℕ => ν).map T = Measure.infinitePi fun _ : ℕ => ν := hm
  conv_rhs => rw [← hT]
  rw [T.map_apply]
  rfl

end Oneka
