import Verif.Model.FlRun
import Verif.Spec.FlFit
import Verif.Spec.RoundingZone
import Verif.Spec.Rivals

/-!
# Vocabulary for C113: whole runs in floating-point arithmetic
-/

namespace Oneka

/-- The target of the run: counted from the front, or with a negative number from the back. -/
def FlRunArgs.IsTarget (a : FlRunArgs) (w : FlSWell) : Prop := ∃ i : ℕ, a.wells[i]? = some w ∧ ((i : ℤ) = a.target ∨ (i : ℤ) = a.target + a.wells.length)

/-- The model whose parameters are the means of the distributions (with roundings, C108), before the fit. -/
noncomputable def FlRunArgs.meanModel (a : FlRunArgs) : Aquifer Fl :=
  ⟨a.base, a.cDist.mean, a.pDist.mean, a.tDist.mean, a.wells.map fun s => ⟨s.xw, s.yw, s.rw, s.q.mean⟩, 0, 0, fun _ => 0⟩

/-- `m` is the model of a realization: the discharges of the wells and then conductivity, porosity and thickness come from the draws `u 0, u 1, …`, and the coefficients are the draw `mvn` from the normal distribution that
the fit of this model at the target `w` gives. -/
structure FlRunArgs.Realized [LibM] [LibObs] (a : FlRunArgs) (la : FlLinAlg) (w : FlSWell) (u : ℕ → Fl) (mvn : (Fin 6 → Fl) → Matrix (Fin 6) (Fin 6) Fl → Except PyErr (Fin 6 → Fl)) (m : Aquifer Fl) :
    Prop where
  base : m.base = a.base
  count : m.wells.length = a.wells.length
  wells : ∀ (j : ℕ) (s : FlSWell) (v : Well Fl), a.wells[j]? = some s → m.wells[j]? = some v → v.xw = s.xw ∧ v.yw = s.yw ∧ v.rw = s.rw ∧ s.q.sample (u j) = .ok v.qw
  conductivity : a.cDist.sample (u a.wells.length) = .ok m.conductivity
  porosity : a.pDist.sample (u (a.wells.length + 1)) = .ok m.porosity
  thickness : a.tDist.sample (u (a.wells.length + 2)) = .ok m.thickness
  origin : m.xo = w.xw ∧ m.yo = w.yw
  coef : ∃ ev cov, (m.flFitRegionalFlow la a.obs w.xw w.yw).2 = .ok (ev, cov) ∧ mvn ev cov = .ok m.coef

/-- As `RoundedFollowed` (C105), for an exact fit `m₀` with the covariance matrix `V` and a model `m'` whose potential and discharge are within `B` standard deviations of it (C111, C112): `P` is a pathline of `m₀`, and in the
tube around it the rounding error of the velocity of `m'`, and its difference to the velocity of `m₀`, are together at most `ν`. -/
structure FittedFollowed [LibM] (m' : Aquifer Fl) (m₀ : Aquifer ℝ) (V : Matrix (Fin 6) (Fin 6) ℝ) (B : ℝ) (confined : Bool) (start : Fl × Fl) (D tol maxstep : Fl) (Qx Qy δ : ℝ) (P : ℝ → ℝ × ℝ)
    (f : ℝ × ℝ → ℝ × ℝ) (L M H ρ R ν η μ mm T E : ℝ) (N : ℕ) : Prop where
  η_eq : η = 2 ^ (-53 : ℤ) * (R + 18 * ρ)
  μ_eq : μ = ν + L * η
  mm_eq : mm = maxstep.val * (1 + 2 ^ (-51 : ℤ)) + η + 3 * (H * μ)
  T_eq : T = D.val * (1 + (N + 1) * 2 ^ (-52 : ℤ))
  E_eq : E = 22 * mm * (Real.exp (L * T) - 1) + (N * η + 2 * (T * μ)) * Real.exp (L * T)
  upstream : m₀.Upstream confined f
  exact : Pathline f (fv start) T P
  bounded : ∀ t, 0 ≤ t → t ≤ T → ‖P t‖ ≤ R
  within : ∀ q ∈ Tube P T ρ, |q.1| ≤ Qx ∧ |q.2| ≤ Qy
  moderate : Moderate f (Tube P T ρ) L M
  flow : ∀ q ∈ Tube P T ρ, m₀.OffWells q.1 q.2 ∧ (100 + 7 * m'.wells.length) * 2 ^ (-53 : ℤ) * m'.exact.condition confined q.1 q.2 ≤ 1/100 ∧
    ∃ b ε, m₀.Saturated confined q.1 q.2 b ∧ 0 ≤ ε ∧ ε ≤ 1/2 ∧ (confined = false → B * spread V (q.1 - m₀.xo) (q.2 - m₀.yo) ≤ ε * m₀.potential q.1 q.2) ∧
      ((100 + 7 * m'.wells.length) * 2 ^ (-53 : ℤ) * m'.exact.condition confined q.1 q.2 * m'.exact.dischargeTerms q.1 q.2 +
        B * gradientSpread V (q.1 - m₀.xo) (q.2 - m₀.yo) + ε * ‖m₀.discharge q.1 q.2‖) / ((1 - ε) * (m₀.porosity * b)) ≤ ν
  D_pos : 0 < D.val
  D_le : D.val ≤ 2 ^ 40
  tol_ge : 2 ^ (-50 : ℤ) ≤ tol.val
  maxstep_ge : 2 ^ (-50 : ℤ) ≤ maxstep.val
  tol_way : (M + ν) * D.val ≤ 2 ^ 37 * tol.val
  maxstep_way : (M + ν) * D.val ≤ 2 ^ 37 * maxstep.val
  near : ‖fv start‖ ≤ 2 ^ 47 * maxstep.val
  L_pos : 0 < L
  M_nonneg : 0 ≤ M
  H_ge : 11/100 ≤ H
  ν_nonneg : 0 ≤ ν
  ρ_nonneg : 0 ≤ ρ
  H_le : L * H ≤ 1/100
  wide : E + 25 * (H * (M + μ)) + η ≤ ρ
  fast : ∀ q ∈ Tube P T ρ, 6/5 * maxstep.val ≤ H * ‖f q‖
  fine : 3 * (H * μ) + 10 * η ≤ maxstep.val / 100
  steps : 9 + 40 * D.val + 16 * ((M + ν) * D.val / tol.val) + 288 * ((M + ν) * D.val / maxstep.val) ≤ N
  precision : 3/2 * (E + M * H + M * (T - D.val)) ≤ δ
  moves : ∃ t, 0 ≤ t ∧ t ≤ D.val ∧ δ ≤ ‖P t - P 0‖

/-- `P` is an exact pathline of the exact fit that the traces computed with rounding, through the fit computed with rounding, follow up to `δ`, with coordinates up to `Qx`, `Qy`. -/
def FittedFollows [LibM] (m' : Aquifer Fl) (m₀ : Aquifer ℝ) (V : Matrix (Fin 6) (Fin 6) ℝ) (B : ℝ) (confined : Bool) (start : Fl × Fl) (D tol maxstep : Fl) (Qx Qy δ : ℝ) (P : ℝ → ℝ × ℝ) : Prop :=
  ∃ f L M H ρ R ν η μ mm T E N, FittedFollowed m' m₀ V B confined start D tol maxstep Qx Qy δ P f L M H ρ R ν η μ mm T E N

end Oneka
