import Verif.Spec.CaptureExact
import Verif.Spec.RoundingAquifer
import Verif.Model.FlCapturezone

/-!
# Vocabulary for C105: capture zones in floating-point arithmetic
-/

namespace Oneka

/-- The conditions of C94, under which a trace of the model `m` from `start`, computed with rounding, follows the exact pathline `P`; and the resulting precision `δ`. `P` is the exact pathline
upstream from `start`, up to slightly more than the duration (`T`); in the tube of radius `ρ` around it the coordinates are at most `Qx`, `Qy`, there are no wells, there is a saturated
thickness, the rounding error of a velocity is at most `ν`, and the upstream direction `f` has the Lipschitz constant `L`, the bound `M` and is nowhere slower than `6/5 maxstep / H`. `R` bounds
the coordinates on the pathline, `η` is the rounding error of a position, `μ` the resulting error of a velocity, `mm` is `maxstep` with the roundings of a step added, `N` bounds the number of
steps, `E` the distance of the vertices from the pathline. The magnitudes are not too far apart, and the pathline moves farther than the precision. -/
structure RoundedFollowed [LibM] (m : Aquifer Fl) (confined : Bool) (start : Fl × Fl) (D tol maxstep : Fl) (Qx Qy δ : ℝ) (P : ℝ → ℝ × ℝ) (f : ℝ × ℝ → ℝ × ℝ) (L M H ρ R ν η μ mm T E : ℝ) (N : ℕ) :
    Prop where
  η_eq : η = 2 ^ (-53 : ℤ) * (R + 18 * ρ)
  μ_eq : μ = ν + L * η
  mm_eq : mm = maxstep.val * (1 + 2 ^ (-51 : ℤ)) + η + 3 * (H * μ)
  T_eq : T = D.val * (1 + (N + 1) * 2 ^ (-52 : ℤ))
  E_eq : E = 22 * mm * (Real.exp (L * T) - 1) + (N * η + 2 * (T * μ)) * Real.exp (L * T)
  physical : m.exact.Physical
  upstream : m.exact.Upstream confined f
  exact : Pathline f (fv start) T P
  bounded : ∀ t, 0 ≤ t → t ≤ T → ‖P t‖ ≤ R
  within : ∀ q ∈ Tube P T ρ, |q.1| ≤ Qx ∧ |q.2| ≤ Qy
  moderate : Moderate f (Tube P T ρ) L M
  flow : ∀ q ∈ Tube P T ρ, m.exact.OffWells q.1 q.2 ∧ (100 + 7 * m.wells.length) * 2 ^ (-53 : ℤ) * m.exact.condition confined q.1 q.2 ≤ 1/100 ∧
    ∃ b, m.exact.Saturated confined q.1 q.2 b ∧
      (100 + 7 * m.wells.length) * 2 ^ (-53 : ℤ) * m.exact.condition confined q.1 q.2 * (m.exact.dischargeTerms q.1 q.2 / (m.exact.porosity * b)) ≤ ν
  D_pos : 0 < D.val
  D_le : D.val ≤ 2 ^ 40
  tol_ge : 2 ^ (-50 : ℤ) ≤ tol.val
  maxstep_ge : 2 ^ (-50 : ℤ) ≤ maxstep.val
  tol_way : (M + ν) * D.val ≤ 2 ^ 37 * tol.val
  maxstep_way : (M + ν) * D.val ≤ 2 ^ 37 * maxstep.val
  near : ‖fv start‖ ≤ 2 ^ 47 * maxstep.val
  L_pos : 0 < L
  M_nonneg : 0 ≤ M
  H_ge : 11/100 ≤ H
  ν_nonneg : 0 ≤ ν
  ρ_nonneg : 0 ≤ ρ
  H_le : L * H ≤ 1/100
  wide : E + 25 * (H * (M + μ)) + η ≤ ρ
  fast : ∀ q ∈ Tube P T ρ, 6/5 * maxstep.val ≤ H * ‖f q‖
  fine : 3 * (H * μ) + 10 * η ≤ maxstep.val / 100
  steps : 9 + 40 * D.val + 16 * ((M + ν) * D.val / tol.val) + 288 * ((M + ν) * D.val / maxstep.val) ≤ N
  precision : 3/2 * (E + M * H + M * (T - D.val)) ≤ δ
  moves : ∃ t, 0 ≤ t ∧ t ≤ D.val ∧ δ ≤ ‖P t - P 0‖

/-- `P` is an exact pathline of the model that the traces computed with rounding follow up to `δ`, with coordinates up to `Qx`, `Qy`. -/
def RoundedFollows [LibM] (m : Aquifer Fl) (confined : Bool) (start : Fl × Fl) (D tol maxstep : Fl) (Qx Qy δ : ℝ) (P : ℝ → ℝ × ℝ) : Prop :=
  ∃ f L M H ρ R ν η μ mm T E N, RoundedFollowed m confined start D tol maxstep Qx Qy δ P f L M H ρ R ν η μ mm T E N

/-- Cosine and sine of the C library, for angles up to 7, are accurate to `2^-52`, and its π is the floating-point number nearest to π. -/
structure TrigAccurate [LibM] : Prop where
  cos : ∀ x : Fl, |x.val| ≤ 7 → |(LibM.cos x).val - Real.cos x.val| ≤ 2 ^ (-52 : ℤ)
  sin : ∀ x : Fl, |x.val| ≤ 7 → |(LibM.sin x).val - Real.sin x.val| ≤ 2 ^ (-52 : ℤ)
  pi : LibM.pi.val = round53 Real.pi

end Oneka
