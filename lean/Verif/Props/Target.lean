import Verif.Lemmas.TargetCall
import Verif.Props.Upstream

/-!
# C138: what the target does

Vocabulary: Spec/Target.lean. Examples: Props/TargetExamples.lean.
-/

namespace Oneka

open Aquifer

/-- **C138.** Two fits of the same aquifer and wells to the same observations, about two origins: they expect the same potential everywhere, with the same covariance between any two places. -/
theorem C138_fit (la la' : LinAlg) (hla : la.Correct) (hla' : la'.Correct) (m m' : Aquifer ℝ) (hs : m.SameAquifer m') (hK : 0 < m.conductivity) (hT : 0 < m.thickness) (obs : List Obs) (hu : m.Usable obs)
    (x₁ y₁ x₂ y₂ : ℝ) (ev₁ ev₂ : Fin 6 → ℝ) (cov₁ cov₂ : Matrix (Fin 6) (Fin 6) ℝ) (h₁ : (m.fitRegionalFlow la obs x₁ y₁).2 = .ok (ev₁, cov₁)) (h₂ : (m'.fitRegionalFlow la' obs x₂ y₂).2 = .ok (ev₂, cov₂)) :
    ∀ p, m'.surface x₂ y₂ ev₂ p = m.surface x₁ y₁ ev₁ p ∧ ∀ q, surfaceCov x₂ y₂ cov₂ p q = surfaceCov x₁ y₁ cov₁ p q := by
  obtain ⟨h, h'⟩ := fits_origin hla hla' hs hK hT hu h₁ h₂
  refine fun p => ⟨?_, fun q => (h' p q).symm⟩
  unfold surface
  rw [terms_conic, terms_conic, h]
  congr 1
  unfold potentialWells
  rw [hs.wells]

/-- **C138.** Two returning calls that differ in the target only, with the same random numbers for the parameters: as many realizations, each with the same aquifer and the same wells. Only the origin of the regional flow is another: it is
at the target. -/
theorem C138_call (a a' : PyArgs) (n : Inputs) (k' : ℤ) (env env' : CallEnv) (v v' : PyVal) (hd : a.Denotes n) (hd' : a'.Denotes (n.withTarget k')) (hr : (oneka a env).ending = .returns v)
    (hr' : (oneka a' env').ending = .returns v') (hu : env'.run.u = env.run.u) :
    ∃ (k j : ℕ) (t t' : SWell), n.run.target = k ∧ n.run.wells[k]? = some t ∧ k' = j ∧ n.run.wells[j]? = some t' ∧
      (realizations (oneka a' env').events).length = (realizations (oneka a env).events).length ∧
      ∀ (i : ℕ) (L L' : RealizationLog), (realizations (oneka a env).events)[i]? = some L → (realizations (oneka a' env').events)[i]? = some L' →
        L.model.SameAquifer L'.model ∧ (L.model.xo = t.xw ∧ L.model.yo = t.yw) ∧ L'.model.xo = t'.xw ∧ L'.model.yo = t'.yw := by
  obtain ⟨k, j, t, t', obs, q, coefs, coefs', h1, h2, h3, h4, -, h6, -, -, R, R'⟩ := target_realized hd hd' hr hr' hu
  exact ⟨k, j, t, t', h1, h2, h3, h4, h6, fun i L L' hL hL' => ⟨realized_sameAquifer (R i L hL) (R' i L' hL') rfl rfl rfl rfl rfl, (R i L hL).origin, (R' i L' hL').origin⟩⟩

/-- **C138.** For two such calls with regular arguments: every realization of one expects the same potential everywhere as that of the other, with the same covariance between any two places. If only one realization is asked for, so that
the expected flow is the one that is traced: potential, discharge, head and both velocities are the same everywhere, and the same directions lead upstream. -/
theorem C138_flow (a a' : PyArgs) (n : Inputs) (k' : ℤ) (env env' : CallEnv) (v v' : PyVal) (hd : a.Denotes n) (hd' : a'.Denotes (n.withTarget k')) (hr : (oneka a env).ending = .returns v)
    (hr' : (oneka a' env').ending = .returns v') (hu : env'.run.u = env.run.u) (hreg : n.Regular) (hs : 1 < n.nrealizations → n.Spread ∧ ∀ i j, 0 ≤ env.run.u i j ∧ env.run.u i j < 1) (hla : env.run.la.Correct)
    (hla' : env'.run.la.Correct) (i : ℕ) (L L' : RealizationLog) (hL : (realizations (oneka a env).events)[i]? = some L) (hL' : (realizations (oneka a' env').events)[i]? = some L') :
    (∀ p, L'.model.surface L'.model.xo L'.model.yo L'.ev p = L.model.surface L.model.xo L.model.yo L.ev p ∧ ∀ p', surfaceCov L'.model.xo L'.model.yo L'.cov p p' = surfaceCov L.model.xo L.model.yo L.cov p p') ∧
    (n.nrealizations ≤ 1 →
      (∀ x y : ℝ, L'.model.toX.potential (.fin x) (.fin y) = L.model.toX.potential (.fin x) (.fin y) ∧ L'.model.toX.discharge (.fin x) (.fin y) = L.model.toX.discharge (.fin x) (.fin y) ∧
        L'.model.toX.head (.fin x) (.fin y) = L.model.toX.head (.fin x) (.fin y) ∧ L'.model.toX.velocity (.fin x) (.fin y) = L.model.toX.velocity (.fin x) (.fin y) ∧
        L'.model.toX.velocityConfined (.fin x) (.fin y) = L.model.toX.velocityConfined (.fin x) (.fin y)) ∧
      ∀ confined f, L'.model.Upstream confined f ↔ L.model.Upstream confined f) := by
  obtain ⟨k, j, t, t', obs, q, coefs, coefs', -, -, -, -, ho, -, hq, hq', R, R'⟩ := target_realized hd hd' hr hr' hu
  have R := R i L hL
  have R' := R' i L' hL'
  have S := realized_sameAquifer R R' rfl rfl rfl rfl rfl
  obtain ⟨-, -, ha, -⟩ := returned_course hr
  obtain ⟨-, -, -, -, -, hbuf, -⟩ := accepted_inputs ha hd
  have hm : ∃ m, drawModel { n.run with obs := obs } (q i) = .ok m ∧ m.base = n.run.base ∧ 0 < m.conductivity ∧ 0 < m.thickness := by
    by_cases hn : 1 < n.nrealizations
    · rw [hq hn]
      exact draw_stochastic ha hd hreg (hs hn).1 obs ((hs hn).2 i)
    · rw [(hq' (not_lt.mp hn)).1]
      exact draw_deterministic ha hd hreg obs
  obtain ⟨hK, hT, hus⟩ := realized_usable hla R hm hbuf ho hreg.2.2
  have hus : L.model.Usable obs := hus
  have f1 : (L.model.fitRegionalFlow env.run.la obs L.model.xo L.model.yo).2 = .ok (L.ev, L.cov) := by rw [R.origin.1, R.origin.2]; exact R.fit
  have f2 : (L'.model.fitRegionalFlow env'.run.la obs L'.model.xo L'.model.yo).2 = .ok (L'.ev, L'.cov) := by rw [R'.origin.1, R'.origin.2]; exact R'.fit
  refine ⟨C138_fit _ _ hla hla' L.model L'.model S hK hT obs hus _ _ _ _ _ _ _ _ f1 f2, fun hn => ?_⟩
  obtain ⟨-, e1, e2⟩ := hq' hn
  have c1 := R.coef
  have c2 := R'.coef
  rw [e1] at c1
  rw [e2] at c2
  have h := (fits_origin hla hla' S hK hT hus f1 f2).1
  rw [Except.ok.inj c1, Except.ok.inj c2] at h
  exact ⟨fun x y => ⟨same_potential S h x y, same_discharge S h x y, same_head S h x y, same_velocity S h x y, same_velocityConfined S h x y⟩, same_upstream S h⟩

/-- **C138.** Two deterministic calls about two wells: all traces of both lead upstream through one and the same flow. -/
theorem C138_traces (a a' : PyArgs) (n : Inputs) (k' : ℤ) (env env' : CallEnv) (v v' : PyVal) (hd : a.Denotes n) (hd' : a'.Denotes (n.withTarget k')) (hr : (oneka a env).ending = .returns v)
    (hr' : (oneka a' env').ending = .returns v') (hu : env'.run.u = env.run.u) (hreg : n.Regular) (hp : n.run.pDist.Pos) (hn : n.nrealizations ≤ 1) (hla : env.run.la.Correct)
    (hla' : env'.run.la.Correct) (duration tol maxstep : ℝ) (h1 : n.run.duration = .fin duration) (h2 : n.run.tol = .fin tol) (h3 : n.run.maxstep = .fin maxstep) :
    ∃ (k j : ℕ) (t t' : SWell) (L L' : RealizationLog), n.run.target = k ∧ n.run.wells[k]? = some t ∧ k' = j ∧ n.run.wells[j]? = some t' ∧ realizations (oneka a env).events = [L] ∧
      realizations (oneka a' env').events = [L'] ∧ ∀ f, L.model.Upstream n.run.confined f → ∀ (s : SWell) (trs : List (Trace XR)), (s = t ∧ trs = L.traces) ∨ (s = t' ∧ trs = L'.traces) →
        ∀ (j : ℕ) (tr : Trace XR), trs[j]? = some tr →
          ∃ start path, start = (s.xw + (s.rw + 1) * Real.cos (2 * Real.pi * j / n.run.npaths), s.yw + (s.rw + 1) * Real.sin (2 * Real.pi * j / n.run.npaths)) ∧
            tr.vertices = (start :: path.map Prod.snd).map floats ∧ DPPath f tol maxstep start path := by
  obtain ⟨-, -, -, k0, t0, L, -, -, -, -, i4, i5, i6, -⟩ := C68_deterministic a n env v hd hn hr fun _ => none
  obtain ⟨-, -, -, k1, t1, L', -, -, -, -, i4', i5', i6', -⟩ := C68_deterministic a' (n.withTarget k') env' v' hd' hn hr' fun _ => none
  obtain ⟨k, t, e1, e2, e3⟩ := C81_call a n env v hd hreg hp (fun h => absurd hn (by omega)) hr duration tol maxstep h1 h2 h3
  obtain ⟨j, t', e1', e2', e3'⟩ := C81_call a' (n.withTarget k') env' v' hd' hreg hp (fun h => absurd (show n.nrealizations ≤ 1 from hn) (by have : 1 < n.nrealizations := h; omega)) hr' duration tol maxstep h1 h2 h3
  obtain ⟨-, hf⟩ := C138_flow a a' n k' env env' v v' hd hd' hr hr' hu hreg (fun h => absurd hn (by omega)) hla hla' 0 L L' (by rw [i6]; rfl) (by rw [i6']; rfl)
  refine ⟨k, j, t, t', L, L', e1, e2, e1', e2', i6, i6', fun f hup s trs hst => ?_⟩
  rcases hst with ⟨rfl, rfl⟩ | ⟨rfl, rfl⟩
  · intro j tr hj
    obtain ⟨start, path, p1, p2, p3, -⟩ := e3 L (by rw [i6]; simp) f hup j tr hj
    exact ⟨start, path, p1, p2, p3⟩
  · intro j tr hj
    obtain ⟨start, path, p1, p2, p3, -⟩ := e3' L' (by rw [i6']; simp) f (((hf hn).2 _ f).mpr hup) j tr hj
    exact ⟨start, path, p1, p2, p3⟩

end Oneka
