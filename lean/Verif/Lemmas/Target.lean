import Verif.Spec.Target
import Verif.Lemmas.AquiferX
import Verif.Lemmas.Draw
import Verif.Props.Fit

/-!
# Lemmas for Props/Target.lean
-/

namespace Oneka

open Aquifer

theorem terms_conic (xo yo : ℝ) (c : Fin 6 → ℝ) (p : ℝ × ℝ) : ∑ i, c i * flowTerms xo yo p i = conic c (p.1 - xo) (p.2 - yo) := by
  simp [flowTerms, conic, Fin.sum_univ_six]
  ring

/-- the normal matrix as a bilinear form -/
theorem gram_form (obs : List Obs) (s : Obs → ℝ) (xo yo : ℝ) (N : Matrix (Fin 6) (Fin 6) ℝ)
    (hN : ∀ i j, N i j = (obs.map fun o => flowTerms xo yo (o.x, o.y) i * flowTerms xo yo (o.x, o.y) j / s o ^ 2).sum) (c z : Fin 6 → ℝ) :
    ∑ i, c i * (N.mulVec z) i = (obs.map fun o => conic c (o.x - xo) (o.y - yo) * conic z (o.x - xo) (o.y - yo) / s o ^ 2).sum := by
  have h : ∀ l : List Obs, ∑ i, c i * ∑ j, (l.map fun o => flowTerms xo yo (o.x, o.y) i * flowTerms xo yo (o.x, o.y) j / s o ^ 2).sum * z j =
      (l.map fun o => conic c (o.x - xo) (o.y - yo) * conic z (o.x - xo) (o.y - yo) / s o ^ 2).sum := by
    intro l
    induction l with
    | nil => simp
    | cons o l ih =>
      simp only [List.map_cons, List.sum_cons]
      rw [← ih, ← terms_conic xo yo c (o.x, o.y), ← terms_conic xo yo z (o.x, o.y), Finset.sum_mul_sum, Finset.sum_div, ← Finset.sum_add_distrib]
      refine Finset.sum_congr rfl fun i _ => ?_
      rw [Finset.sum_div, Finset.mul_sum, Finset.mul_sum, ← Finset.sum_add_distrib]
      refine Finset.sum_congr rfl fun j _ => ?_
      ring
  rw [← h]
  refine Finset.sum_congr rfl fun i _ => ?_
  simp only [Matrix.mulVec, dotProduct, hN]

/-- the covariance of two potentials does not depend on the origin -/
theorem surfaceCov_origin (obs : List Obs) (s : Obs → ℝ) {x₁ y₁ x₂ y₂ : ℝ} {N₁ N₂ c₁ c₂ : Matrix (Fin 6) (Fin 6) ℝ}
    (h₁ : ∀ i j, N₁ i j = (obs.map fun o => flowTerms x₁ y₁ (o.x, o.y) i * flowTerms x₁ y₁ (o.x, o.y) j / s o ^ 2).sum)
    (h₂ : ∀ i j, N₂ i j = (obs.map fun o => flowTerms x₂ y₂ (o.x, o.y) i * flowTerms x₂ y₂ (o.x, o.y) j / s o ^ 2).sum)
    (e₁ : N₁ * c₁ = 1) (e₂ : N₂ * c₂ = 1) (e₂' : c₂ * N₂ = 1) (p q : ℝ × ℝ) : surfaceCov x₁ y₁ c₁ p q = surfaceCov x₂ y₂ c₂ p q := by
  have form : ∀ (x y : ℝ) (c : Matrix (Fin 6) (Fin 6) ℝ), surfaceCov x y c p q = conic (c.mulVec (flowTerms x y q)) (p.1 - x) (p.2 - y) := by
    intro x y c
    rw [← terms_conic]
    unfold surfaceCov
    refine Finset.sum_congr rfl fun i _ => ?_
    simp only [Matrix.mulVec, dotProduct]
    rw [Finset.sum_mul]
    refine Finset.sum_congr rfl fun j _ => ?_
    ring
  rw [form, form]
  set z₁ := c₁.mulVec (flowTerms x₁ y₁ q)
  -- the same surface about the other origin
  set z := shift z₁ (x₂ - x₁) (y₂ - y₁)
  have hz : ∀ a b, conic z (a - x₂) (b - y₂) = conic z₁ (a - x₁) (b - y₁) := by
    intro a b
    rw [conic_shift]
    congr 1 <;> ring
  have hN : N₂.mulVec z = flowTerms x₂ y₂ q := by
    have key : ∀ c : Fin 6 → ℝ, ∑ i, c i * N₂.mulVec z i = ∑ i, c i * flowTerms x₂ y₂ q i := by
      intro c
      have hc : ∀ a b, conic (shift c (x₁ - x₂) (y₁ - y₂)) (a - x₁) (b - y₁) = conic c (a - x₂) (b - y₂) := by
        intro a b
        rw [conic_shift]
        congr 1 <;> ring
      rw [gram_form obs s x₂ y₂ N₂ h₂, terms_conic, ← hc, ← terms_conic]
      simp only [hz, ← hc]
      rw [← gram_form obs s x₁ y₁ N₁ h₁]
      simp only [z₁, Matrix.mulVec_mulVec, e₁, Matrix.one_mulVec]
    funext i
    have := key (Pi.single i 1)
    simpa [Pi.single_apply] using this
  have : z = c₂.mulVec (flowTerms x₂ y₂ q) := by
    rw [← hN, Matrix.mulVec_mulVec, e₂', Matrix.one_mulVec]
  rw [← this, hz]

/-- two fits about two origins -/
theorem fits_origin {la la' : LinAlg} (hla : la.Correct) (hla' : la'.Correct) {m m' : Aquifer ℝ} (hs : m.SameAquifer m') (hK : 0 < m.conductivity) (hT : 0 < m.thickness) {obs : List Obs} (hu : m.Usable obs)
    {x₁ y₁ x₂ y₂ : ℝ} {ev₁ ev₂ : Fin 6 → ℝ} {cov₁ cov₂ : Matrix (Fin 6) (Fin 6) ℝ} (h₁ : (m.fitRegionalFlow la obs x₁ y₁).2 = .ok (ev₁, cov₁)) (h₂ : (m'.fitRegionalFlow la' obs x₂ y₂).2 = .ok (ev₂, cov₂)) :
    (∀ x y, conic ev₁ (x - x₁) (y - y₁) = conic ev₂ (x - x₂) (y - y₂)) ∧ ∀ p q, surfaceCov x₁ y₁ cov₁ p q = surfaceCov x₂ y₂ cov₂ p q := by
  rw [fit_congr hs.base hs.conductivity hs.thickness hs.wells] at h₂
  have g₁ : m.fitRegionalFlow la obs x₁ y₁ = ((m.fitRegionalFlow la obs x₁ y₁).1, .ok (ev₁, cov₁)) := Prod.ext rfl h₁
  have g₂ : m.fitRegionalFlow la' obs x₂ y₂ = ((m.fitRegionalFlow la' obs x₂ y₂).1, .ok (ev₂, cov₂)) := Prod.ext rfl h₂
  constructor
  · have hn := fit_ok_nondegenerate hla hK hT hu g₁
    obtain ⟨-, a, -, -⟩ := fit_ok hla hK hT hu g₁
    obtain ⟨-, b, -, -⟩ := fit_ok hla' hK hT hu g₂
    obtain ⟨e₁, he₁⟩ := conic_average ev₁ ev₂ x₁ y₁ x₂ y₂
    obtain ⟨e₂, he₂⟩ := conic_average ev₂ ev₁ x₂ y₂ x₁ y₁
    have agree := misfit_unique m hK hT obs hu (fun x y => conic ev₁ (x - x₁) (y - y₁) + m.potentialWells x y)
      (fun x y => conic ev₂ (x - x₂) (y - y₂) + m.potentialWells x y)
      (by
        refine (a e₁).trans (le_of_eq ?_)
        congr 1
        funext x y
        rw [he₁]
        ring)
      (by
        refine (b e₂).trans (le_of_eq ?_)
        congr 1
        funext x y
        rw [he₂]
        ring)
    exact conic_eq_of_agree hn fun o ho => by simpa using agree o ho
  · obtain ⟨-, N₁, a1, a2, a3⟩ := C40_covariance la hla m _ hK hT obs x₁ y₁ ev₁ cov₁ hu g₁
    obtain ⟨-, N₂, b1, b2, b3⟩ := C40_covariance la' hla' m _ hK hT obs x₂ y₂ ev₂ cov₂ hu g₂
    exact surfaceCov_origin obs (fun o => potentialStd m.conductivity m.thickness (o.z - m.base) o.std) a3 b3 a2 b2 b1

/-! ## Models with the same surface -/

/-- equal surfaces have equal slopes -/
theorem conic_slopes {c d : Fin 6 → ℝ} {a b a' b' : ℝ} (h : ∀ x y, conic c (x - a) (y - b) = conic d (x - a') (y - b')) (x y : ℝ) :
    2 * c 0 * (x - a) + c 2 * (y - b) + c 3 = 2 * d 0 * (x - a') + d 2 * (y - b') + d 3 ∧ 2 * c 1 * (y - b) + c 2 * (x - a) + c 4 = 2 * d 1 * (y - b') + d 2 * (x - a') + d 4 := by
  have h1 := h (x + 1) y
  have h2 := h (x - 1) y
  have h3 := h x (y + 1)
  have h4 := h x (y - 1)
  simp only [conic] at h1 h2 h3 h4
  constructor
  · linarith
  · linarith

section

variable {m m' : Aquifer ℝ} (hs : m.SameAquifer m') (h : ∀ x y, conic m.coef (x - m.xo) (y - m.yo) = conic m'.coef (x - m'.xo) (y - m'.yo))

include hs h

theorem same_potential (x y : ℝ) : m'.toX.potential (.fin x) (.fin y) = m.toX.potential (.fin x) (.fin y) := by
  have e := h x y
  simp only [conic] at e
  unfold potential potentialWells toX
  rw [hs.wells]
  simp only [XR.fin_sub, XR.fin_mul, XR.fin_add]
  congr 2
  linarith

theorem same_discharge (x y : ℝ) : m'.toX.discharge (.fin x) (.fin y) = m.toX.discharge (.fin x) (.fin y) := by
  obtain ⟨e1, e2⟩ := conic_slopes h x y
  unfold discharge toX
  rw [hs.wells]
  simp only [XR.fin_sub, XR.fin_mul, XR.fin_add, XR.q_fin, XR.fin_neg]
  congr 3
  · push_cast
    linarith
  · push_cast
    linarith

theorem same_head (x y : ℝ) : m'.toX.head (.fin x) (.fin y) = m.toX.head (.fin x) (.fin y) := by
  have e1 : m'.toX.conductivity = m.toX.conductivity := congrArg XR.fin hs.conductivity
  have e2 : m'.toX.thickness = m.toX.thickness := congrArg XR.fin hs.thickness
  unfold head
  rw [same_potential hs h, e1, e2]

theorem same_velocity (x y : ℝ) : m'.toX.velocity (.fin x) (.fin y) = m.toX.velocity (.fin x) (.fin y) := by
  have e1 : m'.toX.porosity = m.toX.porosity := congrArg XR.fin hs.porosity
  have e2 : m'.toX.thickness = m.toX.thickness := congrArg XR.fin hs.thickness
  unfold velocity
  rw [same_head hs h, same_discharge hs h, e1, e2]

theorem same_velocityConfined (x y : ℝ) : m'.toX.velocityConfined (.fin x) (.fin y) = m.toX.velocityConfined (.fin x) (.fin y) := by
  have e1 : m'.toX.porosity = m.toX.porosity := congrArg XR.fin hs.porosity
  have e2 : m'.toX.thickness = m.toX.thickness := congrArg XR.fin hs.thickness
  unfold velocityConfined
  rw [same_discharge hs h, e1, e2]

theorem same_upstream (c : Bool) (f : ℝ × ℝ → ℝ × ℝ) : m'.Upstream c f ↔ m.Upstream c f := by
  have e : m'.potential = m.potential := by
    funext x y
    have e := h x y
    simp only [conic] at e
    unfold potential potentialWells
    rw [hs.wells]
    congr 1
    linarith
  unfold Upstream Saturated OffWells
  rw [e, hs.wells, hs.porosity, hs.thickness, hs.conductivity]

end

/-! ## Realizations about two targets -/

theorem realized_sameAquifer {a a' : RunArgs} {la la' : LinAlg} {t t' : SWell} {q : Dist → ℕ → Except PyErr ℝ} {coefs coefs' : (Fin 6 → ℝ) → Matrix (Fin 6) (Fin 6) ℝ → Except PyErr (Fin 6 → ℝ)}
    {interrupt interrupt' : ℕ → ℕ → Option PyErr} {L L' : RealizationLog} (R : Realized a la t q coefs interrupt L) (R' : Realized a' la' t' q coefs' interrupt' L') (hw : a'.wells = a.wells)
    (hb : a'.base = a.base) (hc : a'.cDist = a.cDist) (hp : a'.pDist = a.pDist) (ht : a'.tDist = a.tDist) : L.model.SameAquifer L'.model where
  base := by rw [R.base, R'.base, hb]
  conductivity := by
    have := R'.conductivity
    rw [hc, hw, R.conductivity] at this
    exact (Except.ok.inj this).symm
  porosity := by
    have := R'.porosity
    rw [hp, hw, R.porosity] at this
    exact (Except.ok.inj this).symm
  thickness := by
    have := R'.thickness
    rw [ht, hw, R.thickness] at this
    exact (Except.ok.inj this).symm
  wells := by
    refine List.ext_getElem? fun j => ?_
    by_cases hj : j < a.wells.length
    · obtain ⟨d, h1, h2⟩ := R.wells j _ (List.getElem?_eq_getElem hj)
      obtain ⟨d', h1', h2'⟩ := R'.wells j _ ((congrArg (fun l : List SWell => l[j]?) hw).trans (List.getElem?_eq_getElem hj))
      rw [h2] at h2'
      obtain rfl := Except.ok.inj h2'
      rw [h1, h1']
    · rw [List.getElem?_eq_none (by rw [R'.wells_length, hw]; omega), List.getElem?_eq_none (by rw [R.wells_length]; omega)]

/-- the retained observations are usable in every realization -/
theorem realized_usable {a : RunArgs} {la : LinAlg} (hla : la.Correct) {t : SWell} {q : Dist → ℕ → Except PyErr ℝ} {coefs : (Fin 6 → ℝ) → Matrix (Fin 6) (Fin 6) ℝ → Except PyErr (Fin 6 → ℝ)}
    {interrupt : ℕ → ℕ → Option PyErr} {L : RealizationLog} (R : Realized a la t q coefs interrupt L) (hm : ∃ m, drawModel a q = .ok m ∧ m.base = a.base ∧ 0 < m.conductivity ∧ 0 < m.thickness) {all : List Obs} {buffer : ℝ}
    (hb : 0 < buffer) (ho : filterObs all (a.wells.map fun w => (w.xw, w.yw)) buffer = .ok a.obs) (hs : ∀ o ∈ all, 0 < o.std) : 0 < L.model.conductivity ∧ 0 < L.model.thickness ∧ L.model.Usable a.obs := by
  obtain ⟨m, hm, mb, mK, mT⟩ := hm
  have D := drawModel_iff.mp hm
  have eK : L.model.conductivity = m.conductivity := by
    have := R.conductivity
    rw [D.conductivity] at this
    exact (Except.ok.inj this).symm
  have eT : L.model.thickness = m.thickness := by
    have := R.thickness
    rw [D.thickness] at this
    exact (Except.ok.inj this).symm
  have ew : L.model.wells = m.wells := by
    refine List.ext_getElem? fun j => ?_
    by_cases hj : j < a.wells.length
    · obtain ⟨d, h1, h2⟩ := R.wells j _ (List.getElem?_eq_getElem hj)
      obtain ⟨d', h1', h2'⟩ := D.wells j _ (List.getElem?_eq_getElem hj)
      rw [h2] at h2'
      obtain rfl := Except.ok.inj h2'
      rw [h1, h1']
    · rw [List.getElem?_eq_none (by rw [R.wells_length]; omega), List.getElem?_eq_none (by rw [D.wells_length]; omega)]
  have hK : 0 < L.model.conductivity := by rw [eK]; exact mK
  have hT : 0 < L.model.thickness := by rw [eT]; exact mT
  have hstd := retained_std ho hs
  refine ⟨hK, hT, fun o h => ⟨?_, hstd o h, ?_⟩⟩
  · by_contra hz
    have := (C38_range la hla L.model hT a.obs t.xw t.yw (.inr ⟨hK, hstd⟩)).mpr ⟨o, h, not_lt.mp hz⟩
    rw [R.fit] at this
    simp at this
  · have := retained_off hm hb ho o h
    unfold Aquifer.OffWells at this ⊢
    rw [ew]
    exact this

end Oneka
