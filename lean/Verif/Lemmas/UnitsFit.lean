import Verif.Lemmas.Units

/-!
# The fit in other units
-/

namespace Oneka

open Matrix

variable {ℓ τ : ℝ}

theorem coefUnits_pos (hℓ : 0 < ℓ) (hτ : 0 < τ) (i : Fin 6) : 0 < coefUnits ℓ τ i := by
  fin_cases i <;> simp [coefUnits] <;> positivity

theorem fosm_units (hℓ : 0 < ℓ) (hτ : 0 < τ) (m : Aquifer ℝ) (o : Obs) : (m.inUnits ℓ τ).fosm (o.inUnits ℓ) = (m.fosm o).map fun r => (ℓ ^ 3 / τ * r.1, ℓ ^ 3 / τ * r.2) := by
  have _ := hτ
  unfold Aquifer.fosm
  have e1 : (m.inUnits ℓ τ).thickness = ℓ * m.thickness := rfl
  have e2 : (o.inUnits ℓ).z - (m.inUnits ℓ τ).base = ℓ * (o.z - m.base) := (mul_sub _ _ _).symm
  have e3 : (m.inUnits ℓ τ).conductivity = ℓ / τ * m.conductivity := rfl
  have e4 : (o.inUnits ℓ).std = ℓ * o.std := rfl
  simp only [e1, e2, e3, e4, mul_le_mul_iff_right₀ hℓ, mul_pos_iff_of_pos_left hℓ]
  by_cases c1 : m.thickness ≤ o.z - m.base
  · simp only [if_pos c1, Except.map]; congr 2 <;> ring
  by_cases c2 : 0 < o.z - m.base
  · simp only [if_neg c1, if_pos c2, Except.map]; congr 2 <;> ring
  · simp only [if_neg c1, if_neg c2, Except.map]

theorem fitRow_units (hℓ : 0 < ℓ) (hτ : 0 < τ) (m : Aquifer ℝ) (xo yo : ℝ) (o : Obs) :
    match m.fosm o with
    | .error e => m.fitRow xo yo o = .error e ∧ (m.inUnits ℓ τ).fitRow (ℓ * xo) (ℓ * yo) (o.inUnits ℓ) = .error e
    | .ok (p, s) => if m.wells.isEmpty && decide (s = 0) then
        m.fitRow xo yo o = .error .zeroDivisionError ∧ (m.inUnits ℓ τ).fitRow (ℓ * xo) (ℓ * yo) (o.inUnits ℓ) = .error .zeroDivisionError
      else ∃ reg : Fin 6 → ℝ, reg 5 = 1 ∧ m.fitRow xo yo o = .ok (fun i => .fin (reg i) / .fin s, (.fin p - m.toX.potentialWells (.fin o.x) (.fin o.y)) / .fin s) ∧
        (m.inUnits ℓ τ).fitRow (ℓ * xo) (ℓ * yo) (o.inUnits ℓ) =
          .ok (fun i => .fin (coefUnits ℓ τ i)⁻¹ * (.fin (reg i) / .fin s), (.fin p - (m.toX.potentialWells (.fin o.x) (.fin o.y) + .fin (m.logShift ℓ))) / .fin s) := by
  have hκ : 0 < ℓ ^ 3 / τ := by positivity
  unfold Aquifer.fitRow
  rw [fosm_units hℓ hτ]
  cases m.fosm o with
  | error e => exact ⟨rfl, rfl⟩
  | ok r =>
    obtain ⟨p, s⟩ := r
    have e1 : (m.inUnits ℓ τ).wells.isEmpty = m.wells.isEmpty := by simp [Aquifer.inUnits]
    have e2 : decide (ℓ ^ 3 / τ * s = 0) = decide (s = 0) := by simp [hℓ.ne', hτ.ne']
    simp only [Except.map, e1, e2]
    split_ifs
    · exact ⟨rfl, rfl⟩
    · refine ⟨_, rfl, rfl, ?_⟩
      congr 2
      · funext i
        have hc := coefUnits_pos hℓ hτ i
        have ei : (![((o.inUnits ℓ).x - ℓ * xo) ^ 2, ((o.inUnits ℓ).y - ℓ * yo) ^ 2, ((o.inUnits ℓ).x - ℓ * xo) * ((o.inUnits ℓ).y - ℓ * yo), (o.inUnits ℓ).x - ℓ * xo, (o.inUnits ℓ).y - ℓ * yo, 1] : Fin 6 → ℝ) i =
            ℓ ^ 3 / τ * ((coefUnits ℓ τ i)⁻¹ * (![(o.x - xo) ^ 2, (o.y - yo) ^ 2, (o.x - xo) * (o.y - yo), o.x - xo, o.y - yo, 1] : Fin 6 → ℝ) i) := by
          fin_cases i <;> simp [coefUnits, Obs.inUnits] <;> field_simp
        rw [ei, ← XR.fin_mul, ← XR.fin_mul (ℓ ^ 3 / τ) s, XR.scale_cancel hκ, ← XR.fin_mul, XR.scale_div (inv_pos.mpr hc)]
      · have ex : XR.fin (o.inUnits ℓ).x = .fin ℓ * .fin o.x := (XR.fin_mul _ _).symm
        have ey : XR.fin (o.inUnits ℓ).y = .fin ℓ * .fin o.y := (XR.fin_mul _ _).symm
        rw [ex, ey, potentialWells_units hℓ hτ, ← XR.fin_mul, ← XR.scale_sub hκ, ← XR.fin_mul, XR.scale_cancel hκ]

theorem constructFit_err_units (hℓ : 0 < ℓ) (hτ : 0 < τ) (m : Aquifer ℝ) (xo yo : ℝ) (obs : List Obs) :
    ((m.inUnits ℓ τ).constructFit (ℓ * xo) (ℓ * yo) (obs.map (Obs.inUnits ℓ))).map (fun _ => ()) = (m.constructFit xo yo obs).map fun _ => () := by
  induction obs with
  | nil => rfl
  | cons o os ih =>
    have h := fitRow_units hℓ hτ m xo yo o
    simp only [List.map_cons, Aquifer.constructFit]
    cases hf : m.fosm o with
    | error e =>
      rw [hf] at h
      rw [h.1, h.2]
    | ok r =>
      rw [hf] at h
      obtain ⟨p, s⟩ := r
      simp only at h
      split_ifs at h
      · rw [h.1, h.2]
      · obtain ⟨reg, -, h1, h2⟩ := h
        rw [h1, h2]
        simp only
        cases h3 : m.constructFit xo yo os with
        | error e =>
          rw [h3] at ih
          cases h4 : (m.inUnits ℓ τ).constructFit (ℓ * xo) (ℓ * yo) (os.map (Obs.inUnits ℓ)) with
          | error e' => rw [h4] at ih; exact ih
          | ok rs => rw [h4] at ih; cases ih
        | ok rs =>
          rw [h3] at ih
          cases h4 : (m.inUnits ℓ τ).constructFit (ℓ * xo) (ℓ * yo) (os.map (Obs.inUnits ℓ)) with
          | error e' => rw [h4] at ih; cases ih
          | ok rs' => rfl

theorem finRow_units (hℓ : 0 < ℓ) (hτ : 0 < τ) (m : Aquifer ℝ) (xo yo : ℝ) (o : Obs) :
    ((m.inUnits ℓ τ).fitRow (ℓ * xo) (ℓ * yo) (o.inUnits ℓ)).toOption.bind Aquifer.finPart =
      ((m.fitRow xo yo o).toOption.bind Aquifer.finPart).map fun p => (fun i => (coefUnits ℓ τ i)⁻¹ * p.1 i, p.2 - m.logShift ℓ * p.1 5) := by
  have h := fitRow_units hℓ hτ m xo yo o
  cases hf : m.fosm o with
  | error e =>
    rw [hf] at h
    rw [h.1, h.2]
    rfl
  | ok r =>
    rw [hf] at h
    obtain ⟨p, s⟩ := r
    simp only at h
    split_ifs at h
    · rw [h.1, h.2]
      rfl
    · obtain ⟨reg, h5, h1, h2⟩ := h
      rw [h1, h2]
      simp only [Except.toOption, Option.bind_some]
      generalize m.toX.potentialWells (.fin o.x) (.fin o.y) = W
      by_cases hs : s = 0
      · subst hs
        have inf : XR.fin (1:ℝ) / .fin 0 = .pinf := by
          show (if (0:ℝ) = 0 then XR.infOf 1 else _) = _
          rw [if_pos rfl, XR.infOf_pos one_pos]
        have n1 : NonFinite (fun i => .fin (reg i) / .fin 0, (.fin p - W) / .fin 0) := by
          refine .inl ⟨5, ?_⟩
          show ¬ XR.IsFin (.fin (reg 5) / .fin 0)
          rw [h5, inf]
          simp [XR.IsFin]
        have n2 : NonFinite (fun i => .fin (coefUnits ℓ τ i)⁻¹ * (.fin (reg i) / .fin 0), (.fin p - (W + .fin (m.logShift ℓ))) / .fin 0) := by
          refine .inl ⟨5, ?_⟩
          show ¬ XR.IsFin (.fin (coefUnits ℓ τ 5)⁻¹ * (.fin (reg 5) / .fin 0))
          rw [h5, inf, XR.fin_mul_pinf (inv_pos.mpr (coefUnits_pos hℓ hτ 5))]
          simp [XR.IsFin]
        unfold Aquifer.finPart
        rw [if_pos n1, if_pos n2]
        rfl
      · have d : ∀ a : ℝ, XR.fin a / .fin s = .fin (a / s) := fun a => by
          show (if s = 0 then XR.infOf a else XR.fin (a / s)) = _
          rw [if_neg hs]
        simp only [d, XR.fin_mul]
        cases W with
        | fin w =>
          simp only [XR.fin_add, XR.fin_sub, d]
          have n : ∀ (f : Fin 6 → ℝ) (a : ℝ), ¬ NonFinite (fun i => XR.fin (f i), .fin a) := fun f a h => by
            rcases h with ⟨i, hi⟩ | hi
            · exact hi trivial
            · exact hi trivial
          unfold Aquifer.finPart
          rw [if_neg (n _ _), if_neg (n _ _)]
          simp only [Option.map_some, Option.some.injEq]
          refine Prod.ext rfl ?_
          show (p - (w + m.logShift ℓ)) / s = (p - w) / s - m.logShift ℓ * (reg 5 / s)
          rw [h5]
          ring
        | _ =>
          have n : ∀ (f : Fin 6 → ℝ) (x : XR), ¬ x.IsFin → NonFinite (fun i => XR.fin (f i), x) := fun f x h => .inr h
          have i1 : ¬ (XR.pinf / .fin s).IsFin := by
            show ¬ (XR.div .pinf (.fin s)).IsFin
            unfold XR.div
            simp only
            split_ifs <;> simp [XR.IsFin]
          have i2 : ¬ (XR.ninf / .fin s).IsFin := by
            show ¬ (XR.div .ninf (.fin s)).IsFin
            unfold XR.div
            simp only
            split_ifs <;> simp [XR.IsFin]
          have i3 : ¬ (XR.nan / .fin s).IsFin := by
            show ¬ XR.IsFin .nan
            simp [XR.IsFin]
          unfold Aquifer.finPart
          rw [if_pos, if_pos]
          · rfl
          · exact n _ _ (by first | exact i1 | exact i2 | exact i3)
          · exact n _ _ (by first | exact i1 | exact i2 | exact i3)

/-- the matrix of the normal equations in the other units -/
noncomputable def gramInUnits (ℓ τ : ℝ) (G : Matrix (Fin 6) (Fin 6) ℝ) : Matrix (Fin 6) (Fin 6) ℝ := fun i j => (coefUnits ℓ τ i)⁻¹ * (coefUnits ℓ τ j)⁻¹ * G i j

theorem fitSys_units (hℓ : 0 < ℓ) (hτ : 0 < τ) (m : Aquifer ℝ) (xo yo : ℝ) (obs : List Obs) :
    (m.inUnits ℓ τ).fitSys (ℓ * xo) (ℓ * yo) (obs.map (Obs.inUnits ℓ)) =
      (m.fitSys xo yo obs).map fun s => (gramInUnits ℓ τ s.1, fun i => (coefUnits ℓ τ i)⁻¹ * (s.2 i - m.logShift ℓ * s.1 i 5)) := by
  induction obs with
  | nil =>
    simp only [List.map_nil, Aquifer.fitSys, Option.map_some, Option.some.injEq]
    refine Prod.ext ?_ ?_
    · funext i j; simp [gramInUnits]
    · funext i; simp
  | cons o os ih =>
    simp only [List.map_cons, Aquifer.fitSys]
    rw [← Option.bind_assoc, ← Option.bind_assoc, finRow_units hℓ hτ, ih]
    cases (m.fitRow xo yo o).toOption.bind Aquifer.finPart with
    | none => rfl
    | some p =>
      simp only [Option.map_some, Option.bind_some]
      cases m.fitSys xo yo os with
      | none => rfl
      | some s =>
        simp only [Option.map_some, Option.bind_some, Option.some.injEq]
        refine Prod.ext ?_ ?_
        · funext i j
          simp only [gramInUnits]
          ring
        · funext i
          simp only
          ring

theorem fit_units_option (hℓ : 0 < ℓ) (hτ : 0 < τ) {la : LinAlg} (hla : la.Correct) (hc : la.Converges) (hs : la.Strict) (m : Aquifer ℝ) (obs : List Obs) (xo yo : ℝ) :
    ((m.inUnits ℓ τ).fitRegionalFlow la (obs.map (Obs.inUnits ℓ)) (ℓ * xo) (ℓ * yo)).2.toOption =
      (m.fitRegionalFlow la obs xo yo).2.toOption.map fun r => (coefInUnits ℓ τ (m.logShift ℓ) r.1, covInUnits ℓ τ r.2) := by
  rw [Aquifer.fit_determined hla hc hs, Aquifer.fit_determined hla hc hs, fitSys_units hℓ hτ]
  cases m.fitSys xo yo obs with
  | none => rfl
  | some s =>
    obtain ⟨G, b⟩ := s
    have hp := coefUnits_pos hℓ hτ
    set u := coefUnits ℓ τ with hu
    set D : Matrix (Fin 6) (Fin 6) ℝ := diagonal fun i => (u i)⁻¹ with hD
    set E : Matrix (Fin 6) (Fin 6) ℝ := diagonal u with hE
    have hG : gramInUnits ℓ τ G = D * G * D := by
      funext i j
      rw [hD, mul_diagonal, diagonal_mul, gramInUnits, ← hu]
      ring
    have hDE : D * E = 1 := by
      rw [hD, hE, diagonal_mul_diagonal]
      refine (congrArg diagonal (funext fun i => ?_)).trans diagonal_one
      exact inv_mul_cancel₀ (hp i).ne'
    have hED : E * D = 1 := by
      rw [hD, hE, diagonal_mul_diagonal]
      refine (congrArg diagonal (funext fun i => ?_)).trans diagonal_one
      exact mul_inv_cancel₀ (hp i).ne'
    have hdD : D.det ≠ 0 := by
      intro h0
      have := congrArg det hDE
      rw [det_mul, h0, zero_mul, det_one] at this
      exact zero_ne_one this
    have hd : (D * G * D).det = 0 ↔ G.det = 0 := by
      rw [det_mul, det_mul]
      simp [hdD]
    simp only [Option.map_some, Option.bind_some, hG]
    by_cases h0 : G.det = 0
    · rw [if_pos h0, if_pos (hd.mpr h0)]
      rfl
    · rw [if_neg h0, if_neg (fun h => h0 (hd.mp h))]
      have hGi : G * G⁻¹ = 1 := mul_nonsing_inv _ (isUnit_iff_ne_zero.mpr h0)
      have hiG : G⁻¹ * G = 1 := nonsing_inv_mul _ (isUnit_iff_ne_zero.mpr h0)
      have hi : (D * G * D)⁻¹ = E * G⁻¹ * E := by
        refine inv_eq_right_inv ?_
        calc D * G * D * (E * G⁻¹ * E) = D * (G * ((D * E) * G⁻¹)) * E := by simp only [Matrix.mul_assoc]
          _ = 1 := by rw [hDE, Matrix.one_mul, hGi, Matrix.mul_one, hDE]
      rw [hi]
      simp only [Option.map_some]
      refine congrArg some (Prod.ext ?_ ?_)
      · have hb : (fun i => (u i)⁻¹ * (b i - m.logShift ℓ * G i 5)) = D *ᵥ (b - G *ᵥ (m.logShift ℓ • Pi.single 5 1)) := by
          funext i
          rw [hD, mulVec_diagonal, mulVec_smul, mulVec_single_one]
          simp
        simp only [hb]
        have e1 : (E * G⁻¹ * E) *ᵥ (D *ᵥ (b - G *ᵥ (m.logShift ℓ • Pi.single 5 1))) = E *ᵥ (G⁻¹ *ᵥ b - m.logShift ℓ • Pi.single 5 1) := by
          rw [mulVec_mulVec, Matrix.mul_assoc, hED, Matrix.mul_one, ← mulVec_mulVec, mulVec_sub, mulVec_mulVec, hiG, one_mulVec]
        rw [e1]
        funext i
        rw [hE, mulVec_diagonal]
        unfold coefInUnits
        simp only [Pi.sub_apply, Pi.smul_apply, smul_eq_mul, Pi.single_apply]
        split_ifs <;> simp [hu]
      · funext i j
        show (E * G⁻¹ * E) i j = covInUnits ℓ τ G⁻¹ i j
        rw [hE, mul_diagonal, diagonal_mul]
        unfold covInUnits
        rw [← hu]
        ring

theorem fit_units (hℓ : 0 < ℓ) (hτ : 0 < τ) {la : LinAlg} (hla : la.Correct) (hc : la.Converges) (hs : la.Strict) (m : Aquifer ℝ) (obs : List Obs) (xo yo : ℝ) :
    (m.inUnits ℓ τ).fitRegionalFlow la (obs.map (Obs.inUnits ℓ)) (ℓ * xo) (ℓ * yo) =
      ((m.fitRegionalFlow la obs xo yo).1.inUnits ℓ τ, (m.fitRegionalFlow la obs xo yo).2.map fun r => (coefInUnits ℓ τ (m.logShift ℓ) r.1, covInUnits ℓ τ r.2)) := by
  have ho := fit_units_option hℓ hτ hla hc hs m obs xo yo
  have he := constructFit_err_units hℓ hτ m xo yo obs
  unfold Aquifer.fitRegionalFlow at ho ⊢
  revert ho he
  cases h3 : m.constructFit xo yo obs with
  | error e =>
    intro ho he
    cases h4 : (m.inUnits ℓ τ).constructFit (ℓ * xo) (ℓ * yo) (obs.map (Obs.inUnits ℓ)) with
    | error e' =>
      rw [h4] at he
      cases he
      rfl
    | ok rs => rw [h4] at he; cases he
  | ok rows =>
    intro ho he
    cases h4 : (m.inUnits ℓ τ).constructFit (ℓ * xo) (ℓ * yo) (obs.map (Obs.inUnits ℓ)) with
    | error e' => rw [h4] at he; cases he
    | ok rs =>
      rw [h4] at ho
      simp only at ho ⊢
      cases h1 : Aquifer.computeFit la rows with
      | error e =>
        rw [h1] at ho
        cases h2 : Aquifer.computeFit la rs with
        | error e' =>
          obtain rfl := computeFit_err hla h1
          obtain rfl := computeFit_err hla h2
          rfl
        | ok r =>
          rw [h2] at ho
          simp [Except.toOption] at ho
      | ok r =>
        rw [h1] at ho
        cases h2 : Aquifer.computeFit la rs with
        | error e' =>
          rw [h2] at ho
          simp [Except.toOption] at ho
        | ok r' =>
          rw [h2] at ho
          simp only [Except.toOption, Option.map_some] at ho
          obtain ⟨ev, cov⟩ := r'
          obtain ⟨rfl, rfl⟩ := Prod.mk.inj (Option.some.inj ho)
          rfl

end Oneka
