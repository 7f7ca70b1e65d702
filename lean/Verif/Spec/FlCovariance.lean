import Verif.Model.FlFit
import Verif.Spec.FlFit

/-!
# Vocabulary for C114: the covariance matrix in floating-point arithmetic
-/

namespace Oneka

/-- `matmul(WA.T, WA)`: every entry is off by at most `γ rows` times the absolute values of the products that are added up. -/
def FlLinAlg.Multiplies (la : FlLinAlg) (γ : List (Fin 6 → Fl) → ℝ) : Prop :=
  ∀ (rows : List (Fin 6 → Fl)) (i j : Fin 6),
    |(la.normal rows i j).val - (rows.map fun r => (r i).val * (r j).val).sum| ≤ γ rows * (rows.map fun r => |(r i).val * (r j).val|).sum

/-- `inv`: the product of the matrix `A` with the result differs from the unit matrix, in every entry, by at most `δ A` times the absolute values of the products that are added up. -/
def FlLinAlg.Inverts (la : FlLinAlg) (δ : Matrix (Fin 6) (Fin 6) Fl → ℝ) : Prop :=
  ∀ A B : Matrix (Fin 6) (Fin 6) Fl, la.inv A = .ok B → ∀ i j, |∑ k, (A i k).val * (B k j).val - if i = j then 1 else 0| ≤ δ A * ∑ k, |(A i k).val * (B k j).val|

/-- `inv` raises only if a relative change of the entries by at most `δ A` makes the matrix singular. -/
def FlLinAlg.Gives (la : FlLinAlg) (δ : Matrix (Fin 6) (Fin 6) Fl → ℝ) : Prop :=
  ∀ (A : Matrix (Fin 6) (Fin 6) Fl) (e : PyErr), la.inv A = .error e → ∃ E : Matrix (Fin 6) (Fin 6) ℝ, E.det = 0 ∧ ∀ i j, |E i j - (A i j).val| ≤ δ A * |(A i j).val|

/-- `lstsq` returns for finite rows. -/
def FlLinAlg.Converges (la : FlLinAlg) : Prop := ∀ rows, ∃ c, la.lstsq rows = .ok c

end Oneka
