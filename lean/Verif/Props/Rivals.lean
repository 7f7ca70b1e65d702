import Verif.Lemmas.FlFitVelocity

/-!
# C112: what the misfit and the rounding of the fit mean for discharge, velocity and pathlines

C110 and C111 say how far the fitted *potential* can be from that of a flow that fits almost as well. Traces follow the gradient. `slopeSpread V u v a b` is the standard deviation of the derivative in the direction
`(a, b)`, and `gradientSpread V u v` the larger one of the two components of the gradient, according to the covariance matrix `V` (`Verif/Spec/Rivals.lean`).
-/

namespace Oneka
open Matrix Aquifer

/-- C112: the values that `a · Qx + b · Qy` takes at `(x, y)`, for the discharge vector `(Qx, Qy)` of a flow whose misfit exceeds the least one by at most `η ^ 2`, are exactly those within `η` standard deviations of the
value for the fitted flow. -/
theorem C112_discharge (la : LinAlg) (hla : la.Correct) (m m' : Aquifer ℝ) (hK : 0 < m.conductivity) (hT : 0 < m.thickness) (obs : List Obs) (xo yo : ℝ) (ev : Fin 6 → ℝ)
    (cov : Matrix (Fin 6) (Fin 6) ℝ) (hu : m.Usable obs) (h : m.fitRegionalFlow la obs xo yo = (m', .ok (ev, cov))) (η : ℝ) (hη : 0 ≤ η) (x y a b v : ℝ) :
    (∃ c : Fin 6 → ℝ, misfit m obs ({ m with xo := xo, yo := yo, coef := c } : Aquifer ℝ).potential ≤ misfit m obs m'.potential + η ^ 2 ∧
      a * (({ m with xo := xo, yo := yo, coef := c } : Aquifer ℝ).discharge x y).1 + b * (({ m with xo := xo, yo := yo, coef := c } : Aquifer ℝ).discharge x y).2 = v) ↔
    |v - (a * (m'.discharge x y).1 + b * (m'.discharge x y).2)| ≤ η * slopeSpread cov (x - xo) (y - yo) a b := by
  obtain ⟨rfl, h1, h2⟩ := fit_excess hla hK hT hu h
  rw [slopeSpread_eq]
  constructor
  · rintro ⟨c, hc, rfl⟩
    rw [discharge_diff, abs_neg]
    rw [h2 c] at hc
    exact within_spread h1 hη (by linarith)
  · intro hv
    rw [abs_sub_comm] at hv
    obtain ⟨d, hd1, hd2⟩ := inverse_attained h1 _ hη hv
    refine ⟨ev + d, ?_, ?_⟩
    · rw [h2 (ev + d), add_sub_cancel_left]
      linarith
    · have := discharge_diff m xo yo (ev + d) ev x y a b
      rw [add_sub_cancel_left, hd1] at this
      linarith

/-- C112: velocities. Let the misfit of another flow exceed the least one by at most `η ^ 2`. Where the fitted flow has saturated thickness `b` and, unless the thickness is taken as constant, `η` standard deviations of the
potential are at most a fraction `ε ≤ 1/2` of it, the other flow has a saturated thickness too, and its upstream velocity differs by at most `η` standard deviations of the discharge, and `ε` times the discharge, both
divided by `(1 - ε)` porosity times `b`. -/
theorem C112_velocity (la : LinAlg) (hla : la.Correct) (m m' : Aquifer ℝ) (hm : m.Physical) (obs : List Obs) (xo yo : ℝ) (ev : Fin 6 → ℝ)
    (cov : Matrix (Fin 6) (Fin 6) ℝ) (hu : m.Usable obs) (h : m.fitRegionalFlow la obs xo yo = (m', .ok (ev, cov))) (η : ℝ) (hη : 0 ≤ η) (c : Fin 6 → ℝ)
    (hc : misfit m obs ({ m with xo := xo, yo := yo, coef := c } : Aquifer ℝ).potential ≤ misfit m obs m'.potential + η ^ 2) (confined : Bool) (f g : ℝ × ℝ → ℝ × ℝ) (hf : m'.Upstream confined f)
    (hg : ({ m with xo := xo, yo := yo, coef := c } : Aquifer ℝ).Upstream confined g) (x y b ε : ℝ) (hoff : m.OffWells x y) (hs : m'.Saturated confined x y b) (hε0 : 0 ≤ ε) (hε : ε ≤ 1/2)
    (hp : confined = false → η * spread cov (x - xo) (y - yo) ≤ ε * m'.potential x y) :
    (∃ b', ({ m with xo := xo, yo := yo, coef := c } : Aquifer ℝ).Saturated confined x y b') ∧
      ‖g (x, y) - f (x, y)‖ ≤ (η * gradientSpread cov (x - xo) (y - yo) + ε * ‖m'.discharge x y‖) / ((1 - ε) * (m.porosity * b)) := by
  obtain ⟨rfl, h1, h2⟩ := fit_excess hla hm.conductivity hm.thickness hu h
  rw [h2 c] at hc
  have hq : (c - ev) ⬝ᵥ (gram ((obs.map (m.rowOf xo yo)).map Prod.fst) *ᵥ (c - ev)) ≤ η ^ 2 := by linarith
  obtain ⟨b', k1, -, k2⟩ := velocity_near (m := { m with xo := xo, yo := yo, coef := ev }) (m' := { m with xo := xo, yo := yo, coef := c }) ⟨hm.1, hm.2, hm.3⟩ rfl rfl rfl hf hg hε0 hε hoff hoff hs
    (fun hcf => by
      rw [potential_sub]
      exact (within_spread h1 hη hq).trans (by rw [← spread_eq]; exact hp hcf)) (discharge_near h1 xo yo hη hq x y)
  exact ⟨⟨b', k1⟩, k2⟩

/-- C112: pathlines. Let the misfit of another flow exceed the least one by at most `η ^ 2`. If in a tube of radius `ρ` around the pathline `X` of the fitted flow the bound of `C112_velocity` is at most `ν` and the velocity
is Lipschitz with constant `L`, and the bound below does not reach `ρ` within the time `D`, then the pathline `Y` of the other flow, from a start nearby, is at time `t` within `(‖p' - p‖ + ν t) exp (L t)` of `X`. -/
theorem C112_pathline (la : LinAlg) (hla : la.Correct) (m m' : Aquifer ℝ) (hm : m.Physical) (obs : List Obs) (xo yo : ℝ) (ev : Fin 6 → ℝ)
    (cov : Matrix (Fin 6) (Fin 6) ℝ) (hu : m.Usable obs) (h : m.fitRegionalFlow la obs xo yo = (m', .ok (ev, cov))) (η : ℝ) (hη : 0 ≤ η) (c : Fin 6 → ℝ)
    (hc : misfit m obs ({ m with xo := xo, yo := yo, coef := c } : Aquifer ℝ).potential ≤ misfit m obs m'.potential + η ^ 2) (confined : Bool) (f g : ℝ × ℝ → ℝ × ℝ) (hf : m'.Upstream confined f)
    (hg : ({ m with xo := xo, yo := yo, coef := c } : Aquifer ℝ).Upstream confined g) (X Y : ℝ → ℝ × ℝ) (p p' : ℝ × ℝ) (D L ν ρ : ℝ) (hX : Pathline f p D X) (hY : Pathline g p' D Y) (hD : 0 ≤ D)
    (hL : 0 < L) (hν : 0 ≤ ν) (hlip : ∀ a ∈ Tube X D ρ, ∀ b ∈ Tube X D ρ, ‖f a - f b‖ ≤ L * ‖a - b‖)
    (hflow : ∀ q ∈ Tube X D ρ, m.OffWells q.1 q.2 ∧ ∃ b ε, m'.Saturated confined q.1 q.2 b ∧ 0 ≤ ε ∧ ε ≤ 1/2 ∧ (confined = false → η * spread cov (q.1 - xo) (q.2 - yo) ≤ ε * m'.potential q.1 q.2) ∧
      (η * gradientSpread cov (q.1 - xo) (q.2 - yo) + ε * ‖m'.discharge q.1 q.2‖) / ((1 - ε) * (m.porosity * b)) ≤ ν) (hρ : (‖p' - p‖ + ν * D) * Real.exp (L * D) < ρ) :
    ∀ t, 0 ≤ t → t ≤ D → ‖Y t - X t‖ ≤ (‖p' - p‖ + ν * t) * Real.exp (L * t) := by
  refine pathlines_near hX hY hL hν hD hlip (fun q hq => ?_) hρ
  obtain ⟨hoff, b, ε, hs, hε0, hε, hp, hle⟩ := hflow q hq
  exact ((C112_velocity la hla m m' hm obs xo yo ev cov hu h η hη c hc confined f g hf hg q.1 q.2 b ε hoff hs hε0 hε hp).2).trans hle

section
variable [LibM] [LibObs]

/-- C112: the discharge of the flow that is fitted in floating-point arithmetic differs from that of the exact fit everywhere, in every direction, by at most as many standard deviations as C111 allows for the potential. -/
theorem C112_rounded (hlog : LogAccurate) (hl : LibObs.Accurate) (la : FlLinAlg) (η : List ((Fin 6 → Fl) × Fl) → ℝ) (hη : ∀ rows, 0 ≤ η rows) (hla : la.Within η) (la₀ : LinAlg) (hla₀ : la₀.Correct)
    (m : Aquifer Fl) (hK : 0 < m.conductivity.val) (hT : 0 < m.thickness.val) (hn : m.wells.length ≤ 2 ^ 40) (obs : List FlObs) (xo yo : Fl) (hu : m.exact.Usable (obs.map FlObs.exact))
    (hc : ∀ o ∈ obs, m.exact.LevelClear o.exact) (κ : ℝ) (hκ0 : 0 ≤ κ) (hκ : m.exact.Determined (obs.map FlObs.exact) xo.val yo.val κ) (hκ1 : κ ≤ 2 ^ 46)
    (rows : List ((Fin 6 → Fl) × Fl)) (hrows : m.flConstructFit xo yo obs = .ok rows) (m' : Aquifer Fl) (c' : Fin 6 → Fl) (V' : Matrix (Fin 6) (Fin 6) Fl)
    (hf : m.flFitRegionalFlow la obs xo yo = (m', .ok (c', V'))) (m₀ : Aquifer ℝ) (c : Fin 6 → ℝ) (V : Matrix (Fin 6) (Fin 6) ℝ)
    (hf₀ : m.exact.fitRegionalFlow la₀ (obs.map FlObs.exact) xo.val yo.val = (m₀, .ok (c, V))) (x y a b : ℝ) :
    |(a * (m'.exact.discharge x y).1 + b * (m'.exact.discharge x y).2) - (a * (m₀.discharge x y).1 + b * (m₀.discharge x y).2)| ≤
      (8/7 * η rows + 2 ^ (-53 : ℤ) * (48 * κ * √(misfit m.exact (obs.map FlObs.exact) m₀.potential) + (132 + 9 * m.wells.length) * m.exact.residualTerms (obs.map FlObs.exact) xo.val yo.val c)) *
        slopeSpread V (x - xo.val) (y - yo.val) a b := by
  obtain ⟨rfl, rfl, hg, hB, hq⟩ := flFit_quad hlog hl hη hla hla₀ hK hT hn hu hc hκ0 hκ hκ1 hrows hf hf₀
  have hd : ({ m with xo := xo, yo := yo, coef := c' } : Aquifer Fl).exact = { m.exact with xo := xo.val, yo := yo.val, coef := fun i => (c' i).val } := rfl
  rw [hd, discharge_diff, abs_neg, slopeSpread_eq]
  exact within_spread hg hB hq

/-- C112: from the observations to the trace, everything computed with rounding. `m'` is fitted in floating-point arithmetic, and a trace is computed through it in floating-point arithmetic; `m₀` is the exact fit and `X`
its exact pathline upstream from the start. If in a tube around `X` the errors of C93 (rounding of the velocity), and of the fit (`B` standard deviations), are together at most `ν`, then under the conditions of C91 the trace
returns, without warning, and the vertex at time `t` is within the bound of C91 of `X t`. -/
theorem C112_traces (hlog : LogAccurate) (hroot : RootAccurate) (hl : LibObs.Accurate) (la : FlLinAlg) (ζ : List ((Fin 6 → Fl) × Fl) → ℝ) (hζ : ∀ rows, 0 ≤ ζ rows) (hla : la.Within ζ) (la₀ : LinAlg)
    (hla₀ : la₀.Correct) (m : Aquifer Fl) (hphys : m.exact.Physical) (hn : m.wells.length ≤ 2 ^ 40) (obs : List FlObs) (xo yo : Fl) (hu : m.exact.Usable (obs.map FlObs.exact))
    (hc : ∀ o ∈ obs, m.exact.LevelClear o.exact) (κ : ℝ) (hκ0 : 0 ≤ κ) (hκ : m.exact.Determined (obs.map FlObs.exact) xo.val yo.val κ) (hκ1 : κ ≤ 2 ^ 46)
    (rows : List ((Fin 6 → Fl) × Fl)) (hrows : m.flConstructFit xo yo obs = .ok rows) (m' : Aquifer Fl) (c' : Fin 6 → Fl) (V' : Matrix (Fin 6) (Fin 6) Fl)
    (hfit : m.flFitRegionalFlow la obs xo yo = (m', .ok (c', V'))) (m₀ : Aquifer ℝ) (c : Fin 6 → ℝ) (V : Matrix (Fin 6) (Fin 6) ℝ)
    (hfit₀ : m.exact.fitRegionalFlow la₀ (obs.map FlObs.exact) xo.val yo.val = (m₀, .ok (c, V))) (B : ℝ)
    (hB : B = 8/7 * ζ rows + 2 ^ (-53 : ℤ) * (48 * κ * √(misfit m.exact (obs.map FlObs.exact) m₀.potential) + (132 + 9 * m.wells.length) * m.exact.residualTerms (obs.map FlObs.exact) xo.val yo.val c))
    (confined : Bool) (f : ℝ × ℝ → ℝ × ℝ) (hup : m₀.Upstream confined f)
    (X : ℝ → ℝ × ℝ) (xs ys D tol maxstep : Fl) (L M H ρ R ν η μ mm T : ℝ) (N : ℕ)
    (hη : η = 2 ^ (-53 : ℤ) * (R + 18 * ρ)) (hμ : μ = ν + L * η) (hm : mm = maxstep.val * (1 + 2 ^ (-51 : ℤ)) + η + 3 * (H * μ)) (hT : T = D.val * (1 + (N + 1) * 2 ^ (-52 : ℤ)))
    (hX : Pathline f (fv (xs, ys)) T X) (hR : ∀ t, 0 ≤ t → t ≤ T → ‖X t‖ ≤ R) (hf : Moderate f (Tube X T ρ) L M)
    (hflow : ∀ q ∈ Tube X T ρ, m.exact.OffWells q.1 q.2 ∧ (100 + 7 * m.wells.length) * 2 ^ (-53 : ℤ) * m'.exact.condition confined q.1 q.2 ≤ 1/100 ∧
      ∃ b ε, m₀.Saturated confined q.1 q.2 b ∧ 0 ≤ ε ∧ ε ≤ 1/2 ∧ (confined = false → B * spread V (q.1 - xo.val) (q.2 - yo.val) ≤ ε * m₀.potential q.1 q.2) ∧
        ((100 + 7 * m.wells.length) * 2 ^ (-53 : ℤ) * m'.exact.condition confined q.1 q.2 * m'.exact.dischargeTerms q.1 q.2 +
          B * gradientSpread V (q.1 - xo.val) (q.2 - yo.val) + ε * ‖m₀.discharge q.1 q.2‖) / ((1 - ε) * (m.porosity.val * b)) ≤ ν)
    (hD : 0 < D.val) (hD40 : D.val ≤ 2 ^ 40) (htol : 2 ^ (-50 : ℤ) ≤ tol.val) (hmax : 2 ^ (-50 : ℤ) ≤ maxstep.val) (h1 : (M + ν) * D.val ≤ 2 ^ 37 * tol.val)
    (h2 : (M + ν) * D.val ≤ 2 ^ 37 * maxstep.val) (hs : ‖fv (xs, ys)‖ ≤ 2 ^ 47 * maxstep.val)
    (hL : 0 < L) (hM : 0 ≤ M) (hH : 11/100 ≤ H) (hν : 0 ≤ ν) (hρ0 : 0 ≤ ρ) (hLH : L * H ≤ 1/100)
    (hρ : 22 * mm * (Real.exp (L * T) - 1) + (N * η + 2 * (T * μ)) * Real.exp (L * T) + 25 * (H * (M + μ)) + η ≤ ρ)
    (hfast : ∀ q ∈ Tube X T ρ, 6/5 * maxstep.val ≤ H * ‖f q‖) (hfine : 3 * (H * μ) + 10 * η ≤ maxstep.val / 100)
    (hN : 9 + 40 * D.val + 16 * ((M + ν) * D.val / tol.val) + 288 * ((M + ν) * D.val / maxstep.val) ≤ N) :
    ∃ r, computeBacktrace xs ys D tol maxstep (fun _ => m'.reverseVelocity confined) = some r ∧ r.warning = none ∧
      ∃ path : List (ℝ × (Fl × Fl)), r.vertices = (xs, ys) :: path.map Prod.snd ∧ ((0, (xs, ys)) :: path).IsChain (StrideFl H (maxstep.val * (1 + 2 ^ (-51 : ℤ)))) ∧
        (∀ v ∈ path, v.1 ≤ T ∧ ‖fv v.2 - X v.1‖ ≤ 22 * mm * (Real.exp (L * v.1) - 1) + (N * η + 2 * (v.1 * μ)) * Real.exp (L * v.1)) ∧
        ∃ t, (0 :: path.map Prod.fst).getLast? = some t ∧ |t - D.val| ≤ (N + 1) * (2 ^ (-52 : ℤ) * D.val) := by
  have vel := fitted_velocity hlog hl hζ hla hla₀ hphys hn hu hc hκ0 hκ hκ1 hrows hfit hfit₀ hB hup hflow
  refine C91_follows hroot _ f X xs ys D tol maxstep L M H ρ R ν η μ mm T N hη hμ hm hT hX hR hf (fun n q v hq hv => ?_) (fun n q hq => ?_) hD hD40 htol hmax h1 h2 hs hL hM hH hν hρ0 hLH hρ hfast
    hfine hN
  · obtain ⟨v', hv', h⟩ := vel q hq
    rw [hv'] at hv
    exact Except.ok.inj hv ▸ h
  · obtain ⟨v, hv, -⟩ := vel q hq
    exact ⟨v, hv⟩

end
end Oneka
