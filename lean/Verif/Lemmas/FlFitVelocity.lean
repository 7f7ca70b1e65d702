import Verif.Lemmas.Rivals
import Verif.Lemmas.FlFit
import Verif.Props.RoundingAquifer

/-!
# Lemma for C112 and C113: the velocity of the rounded fit, computed with rounding, against that of the exact fit
-/

namespace Oneka
open Matrix Aquifer

variable [LibM] [LibObs]

theorem fitted_velocity (hlog : LogAccurate) (hl : LibObs.Accurate) {la : FlLinAlg} {ζ : List ((Fin 6 → Fl) × Fl) → ℝ} (hζ : ∀ rows, 0 ≤ ζ rows) (hla : la.Within ζ) {la₀ : LinAlg}
    (hla₀ : la₀.Correct) {m : Aquifer Fl} (hphys : m.exact.Physical) (hn : m.wells.length ≤ 2 ^ 40) {obs : List FlObs} {xo yo : Fl} (hu : m.exact.Usable (obs.map FlObs.exact))
    (hc : ∀ o ∈ obs, m.exact.LevelClear o.exact) {κ : ℝ} (hκ0 : 0 ≤ κ) (hκ : m.exact.Determined (obs.map FlObs.exact) xo.val yo.val κ) (hκ1 : κ ≤ 2 ^ 46)
    {rows : List ((Fin 6 → Fl) × Fl)} (hrows : m.flConstructFit xo yo obs = .ok rows) {m' : Aquifer Fl} {c' : Fin 6 → Fl} {V' : Matrix (Fin 6) (Fin 6) Fl}
    (hfit : m.flFitRegionalFlow la obs xo yo = (m', .ok (c', V'))) {m₀ : Aquifer ℝ} {c : Fin 6 → ℝ} {V : Matrix (Fin 6) (Fin 6) ℝ}
    (hfit₀ : m.exact.fitRegionalFlow la₀ (obs.map FlObs.exact) xo.val yo.val = (m₀, .ok (c, V))) {B : ℝ}
    (hB : B = 8/7 * ζ rows + 2 ^ (-53 : ℤ) * (48 * κ * √(misfit m.exact (obs.map FlObs.exact) m₀.potential) + (132 + 9 * m.wells.length) * m.exact.residualTerms (obs.map FlObs.exact) xo.val yo.val c))
    {confined : Bool} {f : ℝ × ℝ → ℝ × ℝ} (hup : m₀.Upstream confined f) {S : Set (ℝ × ℝ)} {ν : ℝ}
    (hflow : ∀ q ∈ S, m.exact.OffWells q.1 q.2 ∧ (100 + 7 * m.wells.length) * 2 ^ (-53 : ℤ) * m'.exact.condition confined q.1 q.2 ≤ 1/100 ∧
      ∃ b ε, m₀.Saturated confined q.1 q.2 b ∧ 0 ≤ ε ∧ ε ≤ 1/2 ∧ (confined = false → B * spread V (q.1 - xo.val) (q.2 - yo.val) ≤ ε * m₀.potential q.1 q.2) ∧
        ((100 + 7 * m.wells.length) * 2 ^ (-53 : ℤ) * m'.exact.condition confined q.1 q.2 * m'.exact.dischargeTerms q.1 q.2 +
          B * gradientSpread V (q.1 - xo.val) (q.2 - yo.val) + ε * ‖m₀.discharge q.1 q.2‖) / ((1 - ε) * (m.porosity.val * b)) ≤ ν) :
    ∀ q : Fl × Fl, fv q ∈ S → ∃ v, m'.reverseVelocity confined q = .ok v ∧ ‖fv v - f (fv q)‖ ≤ ν := by
  have hK : 0 < m.conductivity.val := hphys.conductivity
  have hT' : 0 < m.thickness.val := hphys.thickness
  have hφ : 0 < m.porosity.val := hphys.porosity
  obtain ⟨rfl, rfl, hg, hB0, hq⟩ := flFit_quad hlog hl hζ hla hla₀ hK hT' hn hu hc hκ0 hκ hκ1 hrows hfit hfit₀
  rw [← hB] at hB0 hq
  have hd : ({ m with xo := xo, yo := yo, coef := c' } : Aquifer Fl).exact = { m.exact with xo := xo.val, yo := yo.val, coef := fun i => (c' i).val } := rfl
  have hph : ({ m with xo := xo, yo := yo, coef := c' } : Aquifer Fl).exact.Physical := ⟨hphys.1, hphys.2, hphys.3⟩
  obtain ⟨g, hgu⟩ := exists_upstream ({ m with xo := xo, yo := yo, coef := c' } : Aquifer Fl).exact hph confined
  intro q hqt
  obtain ⟨hoff, hcond, b, ε, hb, hε0, hε, hp, hle⟩ := hflow _ hqt
  obtain ⟨b', k1, k2, k3⟩ := velocity_near (m := { m.exact with xo := xo.val, yo := yo.val, coef := c }) (m' := ({ m with xo := xo, yo := yo, coef := c' } : Aquifer Fl).exact)
    (q := B * gradientSpread V ((fv q).1 - xo.val) ((fv q).2 - yo.val))
    ⟨hphys.1, hphys.2, hphys.3⟩ rfl rfl rfl hup hgu hε0 hε hoff hoff hb
    (fun hcf => by
      rw [hd, potential_sub]
      exact (within_spread hg hB0 hq).trans (by rw [← spread_eq]; exact hp hcf)) (by rw [hd]; exact discharge_near hg xo.val yo.val hB0 hq _ _)
  obtain ⟨v, hv, hv'⟩ := C93_velocity hlog ({ m with xo := xo, yo := yo, coef := c' } : Aquifer Fl) hph confined g hgu q b' hoff k1 hcond
  refine ⟨v, hv, ?_⟩
  have hb0 : 0 < b := saturated_pos (m := { m.exact with xo := xo.val, yo := yo.val, coef := c }) ⟨hphys.1, hphys.2, hphys.3⟩ hb
  have e1 : (0:ℝ) < (1 - ε) * (m.porosity.val * b) := mul_pos (by linarith) (by positivity)
  have e2 : (1 - ε) * (m.porosity.val * b) ≤ m.porosity.val * b' := by nlinarith
  have e3 : 0 ≤ ({ m with xo := xo, yo := yo, coef := c' } : Aquifer Fl).exact.condition confined (fv q).1 (fv q).2 := condition_nonneg hph k1
  have e4 : 0 ≤ ({ m with xo := xo, yo := yo, coef := c' } : Aquifer Fl).exact.dischargeTerms (fv q).1 (fv q).2 := dischargeTerms_nonneg _ _ _
  have e5 : (100 + 7 * m.wells.length) * 2 ^ (-53 : ℤ) * ({ m with xo := xo, yo := yo, coef := c' } : Aquifer Fl).exact.condition confined (fv q).1 (fv q).2 *
      (({ m with xo := xo, yo := yo, coef := c' } : Aquifer Fl).exact.dischargeTerms (fv q).1 (fv q).2 / (m.porosity.val * b')) ≤
      (100 + 7 * m.wells.length) * 2 ^ (-53 : ℤ) * ({ m with xo := xo, yo := yo, coef := c' } : Aquifer Fl).exact.condition confined (fv q).1 (fv q).2 *
      ({ m with xo := xo, yo := yo, coef := c' } : Aquifer Fl).exact.dischargeTerms (fv q).1 (fv q).2 / ((1 - ε) * (m.porosity.val * b)) := by
    rw [← mul_div_assoc]
    exact div_le_div_of_nonneg_left (by positivity) e1 e2
  have tri : fv v - f (fv q) = (fv v - g (fv q)) + (g (fv q) - f (fv q)) := by abel
  rw [tri]
  refine (norm_add_le _ _).trans ((add_le_add (hv'.trans e5) k3).trans ?_)
  refine (le_of_eq ?_).trans hle
  change _ / ((1 - ε) * (m.porosity.val * b)) + _ / ((1 - ε) * (m.porosity.val * b)) = _
  rw [← add_div, ← add_assoc]

end Oneka
