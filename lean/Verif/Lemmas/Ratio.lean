import Verif.Spec.Ratio
import Verif.Lemmas.FitDetermined

/-!
# A model with a multiple of conductivity, porosity and discharges
-/

namespace Oneka

variable {μ : ℝ}

/-! ## Arithmetic -/

namespace XR

theorem infOf_pos (h : 0 < μ) : infOf μ = pinf := if_pos h

theorem infOf_mul (h : 0 < μ) (a : ℝ) : infOf (μ * a) = infOf a := by
  have : μ * a < 0 ↔ a < 0 := by
    constructor
    · intro h2
      by_contra h3
      have := mul_nonneg h.le (not_lt.mp h3)
      linarith
    · exact fun h2 => mul_neg_of_pos_of_neg h h2
  unfold infOf
  simp only [mul_pos_iff_of_pos_left h, this]

theorem fin_mul_pinf (h : 0 < μ) : fin μ * pinf = pinf := infOf_pos h

theorem fin_mul_ninf (h : 0 < μ) : fin μ * ninf = ninf := by
  show infOf (-μ) = ninf
  unfold infOf
  rw [if_neg (by linarith), if_pos (by linarith)]

theorem scale_infOf (h : 0 < μ) (a : ℝ) : fin μ * infOf a = infOf a := by
  unfold infOf
  split_ifs
  · exact fin_mul_pinf h
  · exact fin_mul_ninf h
  · simp

theorem scale_add (h : 0 < μ) (x y : XR) : fin μ * (x + y) = fin μ * x + fin μ * y := by
  cases x <;> cases y <;> simp only [fin_add, fin_mul, nan_add, add_nan, mul_nan, fin_mul_pinf h, fin_mul_ninf h, mul_add] <;>
    first | exact fin_mul_pinf h | exact fin_mul_ninf h | exact mul_nan _

theorem scale_neg (h : 0 < μ) (x : XR) : fin μ * -x = -(fin μ * x) := by
  cases x with
  | fin a => simp
  | pinf => rw [fin_mul_pinf h]; exact fin_mul_ninf h
  | ninf => rw [fin_mul_ninf h]; exact fin_mul_pinf h
  | nan => rfl

theorem scale_sub (h : 0 < μ) (x y : XR) : fin μ * (x - y) = fin μ * x - fin μ * y := by
  show fin μ * (x + -y) = fin μ * x + -(fin μ * y)
  rw [scale_add h, scale_neg h]

theorem neg_infOf_neg (a : ℝ) : infOf (-(μ * a)) = infOf (μ * -a) := by rw [mul_neg]

theorem scale_mul (h : 0 < μ) (x y : XR) : fin μ * x * y = fin μ * (x * y) := by
  cases x with
  | fin a =>
    cases y with
    | fin b => simp [mul_assoc]
    | pinf => exact (infOf_mul h a).trans (scale_infOf h a).symm
    | ninf =>
      show infOf (-(μ * a)) = fin μ * infOf (-a)
      rw [← mul_neg, infOf_mul h, scale_infOf h]
    | nan => simp
  | pinf =>
    rw [fin_mul_pinf h]
    cases y with
    | fin b => exact (scale_infOf h b).symm
    | pinf => exact (fin_mul_pinf h).symm
    | ninf => exact (fin_mul_ninf h).symm
    | nan => simp
  | ninf =>
    rw [fin_mul_ninf h]
    cases y with
    | fin b => exact (scale_infOf h (-b)).symm
    | pinf => exact (fin_mul_ninf h).symm
    | ninf => exact (fin_mul_pinf h).symm
    | nan => simp
  | nan => simp

theorem scale_right (h : 0 < μ) (x : XR) (a : ℝ) : x * fin (μ * a) = fin μ * (x * fin a) := by
  cases x with
  | fin b => simp only [fin_mul]; congr 1; ring
  | pinf => exact (infOf_mul h a).trans (scale_infOf h a).symm
  | ninf =>
    show infOf (-(μ * a)) = fin μ * infOf (-a)
    rw [← mul_neg, infOf_mul h, scale_infOf h]
  | nan => simp

theorem scale_div (h : 0 < μ) (x y : XR) : fin μ * x / y = fin μ * (x / y) := by
  cases x with
  | fin a =>
    cases y with
    | fin b =>
      rw [fin_mul]
      by_cases hb : b = 0
      · subst hb
        have e : ∀ c : ℝ, fin c / fin 0 = infOf c := fun c => if_pos rfl
        rw [e, e, infOf_mul h, scale_infOf h]
      · rw [fin_div _ _ hb, fin_div _ _ hb, fin_mul, mul_div_assoc]
    | pinf => exact congrArg fin (mul_zero μ).symm
    | ninf => exact congrArg fin (mul_zero μ).symm
    | nan => simp
  | pinf =>
    rw [fin_mul_pinf h]
    cases y with
    | fin b =>
      show (if b < 0 then ninf else pinf) = fin μ * (if b < 0 then ninf else pinf)
      split_ifs
      · exact (fin_mul_ninf h).symm
      · exact (fin_mul_pinf h).symm
    | pinf => rfl
    | ninf => rfl
    | nan => rfl
  | ninf =>
    rw [fin_mul_ninf h]
    cases y with
    | fin b =>
      show (if b < 0 then pinf else ninf) = fin μ * (if b < 0 then pinf else ninf)
      split_ifs
      · exact (fin_mul_pinf h).symm
      · exact (fin_mul_ninf h).symm
    | pinf => rfl
    | ninf => rfl
    | nan => rfl
  | nan => simp

theorem scale_cancel (h : 0 < μ) (x y : XR) : fin μ * x / (fin μ * y) = x / y := by
  cases y with
  | fin b =>
    rw [fin_mul]
    cases x with
    | fin a =>
      rw [fin_mul]
      by_cases hb : b = 0
      · subst hb
        have e : ∀ c : ℝ, fin c / fin 0 = infOf c := fun c => if_pos rfl
        rw [mul_zero, e, e, infOf_mul h]
      · rw [fin_div _ _ hb, fin_div _ _ (mul_ne_zero h.ne' hb), mul_div_mul_left _ _ h.ne']
    | pinf =>
      rw [fin_mul_pinf h]
      show (if μ * b < 0 then ninf else pinf) = if b < 0 then ninf else pinf
      simp only [mul_neg_iff_of_pos h]
    | ninf =>
      rw [fin_mul_ninf h]
      show (if μ * b < 0 then pinf else ninf) = if b < 0 then pinf else ninf
      simp only [mul_neg_iff_of_pos h]
    | nan => simp
  | pinf =>
    rw [fin_mul_pinf h]
    cases x <;> simp only [fin_mul, fin_mul_pinf h, fin_mul_ninf h, mul_nan] <;> rfl
  | ninf =>
    rw [fin_mul_ninf h]
    cases x <;> simp only [fin_mul, fin_mul_pinf h, fin_mul_ninf h, mul_nan] <;> rfl
  | nan => simp
where
  mul_neg_iff_of_pos {μ b : ℝ} (h : 0 < μ) : (μ * b < 0) = (b < 0) := propext ⟨fun h1 => by
    by_contra h2
    have := mul_nonneg h.le (not_lt.mp h2)
    linarith, fun h1 => mul_neg_of_pos_of_neg h h1⟩

theorem scale_le_zero (h : 0 < μ) (x : XR) : fin μ * x ≤ fin 0 ↔ x ≤ fin 0 := by
  cases x with
  | fin a => simp only [fin_mul, fin_le]; exact ⟨fun h1 => by by_contra h2; have := mul_pos h (not_le.mp h2); linarith, fun h1 => mul_nonpos_of_nonneg_of_nonpos h.le h1⟩
  | pinf => rw [fin_mul_pinf h]
  | ninf => rw [fin_mul_ninf h]
  | nan => simp

theorem scale_lt (h : 0 < μ) (x : XR) (a : ℝ) : fin μ * x < fin (μ * a) ↔ x < fin a := by
  cases x with
  | fin b => simp only [fin_mul, fin_lt]; exact mul_lt_mul_iff_right₀ h
  | pinf => rw [fin_mul_pinf h]; rfl
  | ninf => rw [fin_mul_ninf h]; rfl
  | nan => simp

end XR

/-! ## Model -/

theorem foldl_scale {α β : Type} {f : β → α → β} {f' : β → α → β} {t : α → α} {s : β → β} (l : List α) (b : β) (h : ∀ b a, f' (s b) (t a) = s (f b a)) :
    (l.map t).foldl f' (s b) = s (l.foldl f b) := by
  induction l generalizing b with
  | nil => rfl
  | cons a l ih => simp only [List.map_cons, List.foldl_cons, h, ih]

theorem potentialWells_times (h : 0 < μ) (m : Aquifer ℝ) (x y : XR) : (m.times μ).toX.potentialWells x y = .fin μ * m.toX.potentialWells x y := by
  unfold Aquifer.potentialWells
  simp only [Aquifer.toX, Aquifer.times, List.map_map]
  have e0 : (PyMath.q 0 : XR) = .fin μ * PyMath.q 0 := by
    show XR.fin _ = .fin μ * .fin _
    simp
  conv_lhs => rw [e0]
  rw [List.foldl_map, List.foldl_map]
  have := foldl_scale (f := fun (p : XR) (w : Well ℝ) => p + .fin w.qw * PyMath.log ((x - .fin w.xw) * (x - .fin w.xw) + (y - .fin w.yw) * (y - .fin w.yw)) * PyMath.q Aquifer.fourPiInv)
    (f' := fun (p : XR) (w : Well ℝ) => p + .fin w.qw * PyMath.log ((x - .fin w.xw) * (x - .fin w.xw) + (y - .fin w.yw) * (y - .fin w.yw)) * PyMath.q Aquifer.fourPiInv)
    (t := Well.times μ) (s := fun p => XR.fin μ * p) m.wells (PyMath.q 0) (fun b a => by
      simp only [Well.times]
      rw [← XR.fin_mul, XR.scale_mul h, XR.scale_mul h, XR.scale_add h])
  rw [List.foldl_map] at this
  exact this

theorem potential_times (h : 0 < μ) (m : Aquifer ℝ) (x y : XR) : (m.times μ).toX.potential x y = .fin μ * m.toX.potential x y := by
  unfold Aquifer.potential
  rw [potentialWells_times h]
  simp only [Aquifer.toX, Aquifer.times, ← XR.fin_mul, XR.scale_mul h, ← XR.scale_add h]

theorem discharge_times (h : 0 < μ) (m : Aquifer ℝ) (x y : XR) : (m.times μ).toX.discharge x y = (.fin μ * (m.toX.discharge x y).1, .fin μ * (m.toX.discharge x y).2) := by
  unfold Aquifer.discharge
  simp only [Aquifer.toX, Aquifer.times, List.map_map]
  rw [List.foldl_map, List.foldl_map]
  have := foldl_scale (f := fun (Q : XR × XR) (w : Well ℝ) =>
      (Q.1 + (-XR.fin w.qw) * (x - .fin w.xw) / ((x - .fin w.xw) * (x - .fin w.xw) + (y - .fin w.yw) * (y - .fin w.yw)) * PyMath.q Aquifer.twoPiInv,
        Q.2 + (-XR.fin w.qw) * (y - .fin w.yw) / ((x - .fin w.xw) * (x - .fin w.xw) + (y - .fin w.yw) * (y - .fin w.yw)) * PyMath.q Aquifer.twoPiInv))
    (f' := fun (Q : XR × XR) (w : Well ℝ) =>
      (Q.1 + (-XR.fin w.qw) * (x - .fin w.xw) / ((x - .fin w.xw) * (x - .fin w.xw) + (y - .fin w.yw) * (y - .fin w.yw)) * PyMath.q Aquifer.twoPiInv,
        Q.2 + (-XR.fin w.qw) * (y - .fin w.yw) / ((x - .fin w.xw) * (x - .fin w.xw) + (y - .fin w.yw) * (y - .fin w.yw)) * PyMath.q Aquifer.twoPiInv))
    (t := Well.times μ) (s := fun p : XR × XR => (XR.fin μ * p.1, XR.fin μ * p.2)) m.wells
    (-(PyMath.q 2 * .fin (m.coef 0) * (x - .fin m.xo) + .fin (m.coef 2) * (y - .fin m.yo) + .fin (m.coef 3)),
      -(PyMath.q 2 * .fin (m.coef 1) * (y - .fin m.yo) + .fin (m.coef 2) * (x - .fin m.xo) + .fin (m.coef 4))) (fun b a => by
      simp only [Well.times]
      have e : -XR.fin (μ * a.qw) = .fin μ * -XR.fin a.qw := by simp
      rw [e, XR.scale_mul h, XR.scale_div h, XR.scale_mul h, XR.scale_mul h, XR.scale_div h, XR.scale_mul h, XR.scale_add h, XR.scale_add h])
  rw [List.foldl_map] at this
  refine Eq.trans ?_ this
  refine congrArg (List.foldl _ · m.wells) ?_
  have e2 : ∀ c : ℝ, (PyMath.q 2 : XR) * .fin (μ * c) = .fin μ * (PyMath.q 2 * .fin c) := fun c => XR.scale_right h _ _
  rw [XR.scale_neg h, XR.scale_neg h, XR.scale_add h, XR.scale_add h, XR.scale_add h, XR.scale_add h, e2, e2]
  simp only [← XR.fin_mul, XR.scale_mul h]

theorem head_times (h : 0 < μ) (m : Aquifer ℝ) (x y : XR) : (m.times μ).toX.head x y = m.toX.head x y := by
  unfold Aquifer.head
  rw [potential_times h]
  have q0 : (PyMath.q 0 : XR) = .fin 0 := by show XR.fin _ = _; simp
  have c1 : (m.times μ).toX.conductivity = .fin (μ * m.conductivity) := rfl
  have c2 : (m.times μ).toX.thickness = .fin m.thickness := rfl
  have c3 : m.toX.conductivity = .fin m.conductivity := rfl
  have c4 : m.toX.thickness = .fin m.thickness := rfl
  simp only [c1, c2, c3, c4]
  generalize m.toX.potential x y = Φ
  have e1 : (PyMath.q (1/2) : XR) * .fin (μ * m.conductivity) * (.fin m.thickness * .fin m.thickness) = .fin μ * (PyMath.q (1/2) * .fin m.conductivity * (.fin m.thickness * .fin m.thickness)) := by
    rw [XR.scale_right h, XR.scale_mul h]
  obtain ⟨t, ht⟩ : ∃ t, (PyMath.q (1/2) : XR) * .fin m.conductivity * (.fin m.thickness * .fin m.thickness) = .fin t := ⟨_, rfl⟩
  have e2 : (PyMath.q 2 : XR) * (.fin μ * Φ) / .fin (μ * m.conductivity) = PyMath.q 2 * Φ / .fin m.conductivity := by
    rw [show (PyMath.q 2 : XR) * (.fin μ * Φ) = .fin μ * (PyMath.q 2 * Φ) by
      show XR.fin _ * _ = .fin μ * (.fin _ * Φ)
      have h2 : (0:ℝ) < ((2:ℚ):ℝ) := by norm_num
      rw [← XR.scale_mul h2, ← XR.scale_mul h, XR.fin_mul, XR.fin_mul, mul_comm], ← XR.fin_mul, XR.scale_cancel h]
  have e3 : XR.fin (μ * m.conductivity) * .fin m.thickness = .fin μ * (.fin m.conductivity * .fin m.thickness) := by rw [← XR.fin_mul, XR.scale_mul h]
  simp only [q0, e1, e2, e3, ht, ← XR.scale_add h, XR.scale_cancel h]
  simp only [XR.scale_le_zero h, XR.fin_mul, XR.scale_lt h]

theorem velocity_times (h : 0 < μ) (m : Aquifer ℝ) (x y : XR) : (m.times μ).toX.velocity x y = m.toX.velocity x y := by
  unfold Aquifer.velocity
  rw [head_times h, discharge_times h]
  cases m.toX.head x y with
  | error e => rfl
  | ok hd =>
    have e : ∀ z : XR, z * (m.times μ).toX.porosity = .fin μ * (z * m.toX.porosity) := fun z => XR.scale_right h _ _
    simp only [e, XR.scale_cancel h]
    rfl

theorem velocityConfined_times (h : 0 < μ) (m : Aquifer ℝ) (x y : XR) : (m.times μ).toX.velocityConfined x y = m.toX.velocityConfined x y := by
  unfold Aquifer.velocityConfined
  rw [discharge_times h]
  have e : ∀ z : XR, z * (m.times μ).toX.porosity = .fin μ * (z * m.toX.porosity) := fun z => XR.scale_right h _ _
  simp only [e, XR.scale_cancel h]
  rfl

theorem runVelocity_times (h : 0 < μ) (m : Aquifer ℝ) (c : Bool) (int : ℕ → ℕ → Option PyErr) : runVelocity (m.times μ) c int = runVelocity m c int := by
  funext k n p
  unfold runVelocity Aquifer.backVelocity
  rw [velocity_times h, velocityConfined_times h]

/-! ## Fit -/

theorem fosm_times (m : Aquifer ℝ) (o : Obs) : (m.times μ).fosm o = (m.fosm o).map fun r => (μ * r.1, μ * r.2) := by
  unfold Aquifer.fosm
  have e1 : (m.times μ).thickness = m.thickness := rfl
  have e2 : (m.times μ).base = m.base := rfl
  have e3 : (m.times μ).conductivity = μ * m.conductivity := rfl
  simp only [e1, e2, e3]
  by_cases c1 : m.thickness ≤ o.z - m.base
  · simp only [if_pos c1, Except.map]; congr 2 <;> ring
  by_cases c2 : 0 < o.z - m.base
  · simp only [if_neg c1, if_pos c2, Except.map]; congr 2 <;> ring
  · simp only [if_neg c1, if_neg c2, Except.map]

theorem fitRow_times (h : 0 < μ) (m : Aquifer ℝ) (xo yo : ℝ) (o : Obs) : (m.times μ).fitRow xo yo o = (m.fitRow xo yo o).map fun r => (fun i => .fin μ⁻¹ * r.1 i, r.2) := by
  unfold Aquifer.fitRow
  rw [fosm_times]
  cases m.fosm o with
  | error e => rfl
  | ok r =>
    obtain ⟨p, s⟩ := r
    have h' : 0 < μ⁻¹ := inv_pos.mpr h
    have e1 : (m.times μ).wells.isEmpty = m.wells.isEmpty := by simp [Aquifer.times]
    have e2 : decide (μ * s = 0) = decide (s = 0) := by simp [h.ne']
    simp only [Except.map, e1, e2, potentialWells_times h]
    split_ifs
    · rfl
    · simp only []
      congr 2
      · funext i
        rw [← XR.scale_div h', ← XR.scale_cancel h (_ * _), ← XR.scale_mul h]
        congr 1
        simp [h.ne']
      · rw [← XR.fin_mul, ← XR.scale_sub h, ← XR.fin_mul, XR.scale_cancel h]

theorem constructFit_times (h : 0 < μ) (m : Aquifer ℝ) (xo yo : ℝ) (obs : List Obs) :
    (m.times μ).constructFit xo yo obs = (m.constructFit xo yo obs).map (List.map fun r => (fun i => .fin μ⁻¹ * r.1 i, r.2)) := by
  induction obs with
  | nil => rfl
  | cons o os ih =>
    simp only [Aquifer.constructFit, fitRow_times h, ih]
    cases m.fitRow xo yo o with
    | error e => rfl
    | ok r =>
      simp only [Except.map]
      cases m.constructFit xo yo os <;> rfl

theorem scale_isFin (h : 0 < μ) (x : XR) : (XR.fin μ * x).IsFin ↔ x.IsFin := by
  cases x with
  | fin a => simp [XR.IsFin]
  | pinf => rw [XR.fin_mul_pinf h]
  | ninf => rw [XR.fin_mul_ninf h]
  | nan => simp

theorem finPart_times (h : 0 < μ) (r : (Fin 6 → XR) × XR) : Aquifer.finPart (fun i => .fin μ * r.1 i, r.2) = (Aquifer.finPart r).map fun p => (fun i => μ * p.1 i, p.2) := by
  have e : NonFinite (fun i => .fin μ * r.1 i, r.2) ↔ NonFinite r := by
    unfold NonFinite
    simp only [scale_isFin h]
  unfold Aquifer.finPart
  by_cases hn : NonFinite r
  · rw [if_pos hn, if_pos (e.mpr hn)]
    rfl
  · rw [if_neg hn, if_neg (fun h => hn (e.mp h))]
    simp only [Option.map_some, Option.some.injEq, Prod.mk.injEq, and_true]
    funext i
    unfold NonFinite at hn
    push Not at hn
    rw [← Aquifer.isFin_val (hn.1 i)]
    rfl

theorem fitSys_times (h : 0 < μ) (m : Aquifer ℝ) (xo yo : ℝ) (obs : List Obs) :
    (m.times μ).fitSys xo yo obs = (m.fitSys xo yo obs).map fun s => ((μ⁻¹ ^ 2) • s.1, μ⁻¹ • s.2) := by
  induction obs with
  | nil => simp [Aquifer.fitSys]
  | cons o os ih =>
    simp only [Aquifer.fitSys, fitRow_times h, ih]
    cases m.fitRow xo yo o with
    | error e => rfl
    | ok r =>
      simp only [Except.map, Except.toOption, Option.bind_some, finPart_times (inv_pos.mpr h)]
      cases Aquifer.finPart r with
      | none => rfl
      | some p =>
        simp only [Option.map_some, Option.bind_some]
        cases m.fitSys xo yo os with
        | none => rfl
        | some s =>
          simp only [Option.map_some, Option.bind_some, Option.some.injEq]
          refine Prod.ext ?_ ?_
          · funext i j
            simp only [Matrix.smul_apply, smul_eq_mul]
            show _ = μ⁻¹ ^ 2 * (_ + _)
            ring
          · funext i
            show _ = μ⁻¹ * (_ + _)
            simp only [Pi.smul_apply, smul_eq_mul]
            ring

theorem computeFit_err {la : LinAlg} (hla : la.Correct) {rows : List ((Fin 6 → XR) × XR)} {e : PyErr} (he : Aquifer.computeFit la rows = .error e) : e = .linAlgError := by
  unfold Aquifer.computeFit at he
  cases h1 : la.lstsq rows with
  | error e' =>
    rw [h1] at he
    cases he
    exact hla.lstsq_err _ _ h1
  | ok c =>
    rw [h1] at he
    simp only at he
    cases h2 : la.inv (normalMatrix (rows.map Prod.fst)) with
    | error e' =>
      rw [h2] at he
      cases he
      exact hla.inv_err _ _ h2
    | ok B =>
      rw [h2] at he
      cases he

theorem fit_times_option (h : 0 < μ) {la : LinAlg} (hla : la.Correct) (hc : la.Converges) (hs : la.Strict) (m : Aquifer ℝ) (obs : List Obs) (xo yo : ℝ) :
    ((m.times μ).fitRegionalFlow la obs xo yo).2.toOption = (m.fitRegionalFlow la obs xo yo).2.toOption.map fun r => (fun k => μ * r.1 k, fun k l => μ ^ 2 * r.2 k l) := by
  rw [Aquifer.fit_determined hla hc hs, Aquifer.fit_determined hla hc hs, fitSys_times h]
  cases m.fitSys xo yo obs with
  | none => rfl
  | some s =>
    obtain ⟨G, b⟩ := s
    have hm : μ⁻¹ ^ 2 ≠ 0 := pow_ne_zero _ (inv_ne_zero h.ne')
    have hd : ((μ⁻¹ ^ 2) • G).det = 0 ↔ G.det = 0 := by
      rw [Matrix.det_smul]
      simp [h.ne']
    simp only [Option.map_some, Option.bind_some]
    by_cases h0 : G.det = 0
    · rw [if_pos h0, if_pos (hd.mpr h0)]
      rfl
    · rw [if_neg h0, if_neg (fun h => h0 (hd.mp h))]
      have hi : ((μ⁻¹ ^ 2) • G)⁻¹ = (μ ^ 2) • G⁻¹ := by
        refine Matrix.inv_eq_right_inv ?_
        rw [Matrix.smul_mul, Matrix.mul_smul, smul_smul, Matrix.mul_nonsing_inv _ (isUnit_iff_ne_zero.mpr h0)]
        have : μ⁻¹ ^ 2 * μ ^ 2 = 1 := by
          field_simp
        rw [this, one_smul]
      rw [hi]
      simp only [Option.map_some]
      refine congrArg some (Prod.ext ?_ rfl)
      funext k
      rw [Matrix.smul_mulVec, Matrix.mulVec_smul, smul_smul]
      have : μ ^ 2 * μ⁻¹ = μ := by field_simp
      rw [this]
      rfl

theorem fit_times (h : 0 < μ) {la : LinAlg} (hla : la.Correct) (hc : la.Converges) (hs : la.Strict) (m : Aquifer ℝ) (obs : List Obs) (xo yo : ℝ) :
    (m.times μ).fitRegionalFlow la obs xo yo = ((m.fitRegionalFlow la obs xo yo).1.times μ, (m.fitRegionalFlow la obs xo yo).2.map fun r => (fun k => μ * r.1 k, fun k l => μ ^ 2 * r.2 k l)) := by
  have ho := fit_times_option h hla hc hs m obs xo yo
  unfold Aquifer.fitRegionalFlow at ho ⊢
  rw [constructFit_times h] at ho ⊢
  revert ho
  cases m.constructFit xo yo obs with
  | error e => exact fun _ => rfl
  | ok rows =>
    intro ho
    simp only [Except.map] at ho ⊢
    cases h1 : Aquifer.computeFit la rows with
    | error e =>
      rw [h1] at ho
      cases h2 : Aquifer.computeFit la (rows.map fun r => (fun i => .fin μ⁻¹ * r.1 i, r.2)) with
      | error e' =>
        obtain rfl := computeFit_err hla h1
        obtain rfl := computeFit_err hla h2
        rfl
      | ok r =>
        rw [h2] at ho
        simp [Except.toOption] at ho
    | ok r =>
      rw [h1] at ho
      cases h2 : Aquifer.computeFit la (rows.map fun r => (fun i => .fin μ⁻¹ * r.1 i, r.2)) with
      | error e' =>
        rw [h2] at ho
        simp [Except.toOption] at ho
      | ok r' =>
        rw [h2] at ho
        simp only [Except.toOption, Option.map_some] at ho
        obtain ⟨ev, cov⟩ := r'
        obtain ⟨rfl, rfl⟩ := Prod.mk.inj (Option.some.inj ho)
        rfl

/-! ## Draws -/

theorem sample_times (h : 0 < μ) (d : Dist) (u : ℝ) : (d.times μ).sample u = (d.sample u).map (μ * ·) := by
  have hs : ∀ a : ℝ, (PyMath.sqrt (XR.fin (μ ^ 2 * a)) : XR) = .fin μ * PyMath.sqrt (XR.fin a) := by
    intro a
    show (if μ ^ 2 * a < 0 then XR.nan else .fin (Real.sqrt (μ ^ 2 * a))) = .fin μ * (if a < 0 then XR.nan else .fin (Real.sqrt a))
    by_cases ha : a < 0
    · rw [if_pos ha, if_pos (mul_neg_of_pos_of_neg (by positivity) ha)]
      rfl
    · rw [if_neg ha, if_neg (not_lt.mpr (mul_nonneg (by positivity) (not_lt.mp ha))), Real.sqrt_mul (by positivity), Real.sqrt_sq h.le]
      rfl
  match d with
  | .const c => rfl
  | .tuple [] => rfl
  | .tuple [a] => rfl
  | .tuple [a, b] =>
    simp only [Dist.sample, Dist.times, Dist.toPy, List.map_cons, List.map_nil, generateRandomVariate, npUniform, PyVal.num, XR.fin_sub, XR.fin_mul, XR.fin_add, PyVal.asReal, Except.map]
    congr 1
    ring
  | .tuple [l, m, r] =>
    simp only [Dist.sample, Dist.times, Dist.toPy, List.map_cons, List.map_nil, generateRandomVariate, npTriangular, PyVal.num, XR.fin_lt, XR.fin_le, mul_lt_mul_iff_right₀ h, mul_le_mul_iff_right₀ h]
    by_cases h1 : m < l
    · simp only [if_pos h1]; rfl
    by_cases h2 : r < m
    · simp only [if_neg h1, if_pos h2]; rfl
    by_cases h3 : l ≤ r ∧ r ≤ l
    · simp only [if_neg h1, if_neg h2, if_pos h3]; rfl
    simp only [if_neg h1, if_neg h2, if_neg h3]
    have e1 : (XR.fin (μ * m) - .fin (μ * l)) / (.fin (μ * r) - .fin (μ * l)) = (XR.fin m - .fin l) / (.fin r - .fin l) := by
      rw [← XR.scale_cancel h (.fin m - .fin l), XR.scale_sub h, XR.scale_sub h]
      rfl
    have e2 : XR.fin u * ((.fin (μ * m) - .fin (μ * l)) * (.fin (μ * r) - .fin (μ * l))) = .fin (μ ^ 2 * (u * ((m - l) * (r - l)))) := by
      simp only [XR.fin_sub, XR.fin_mul]; congr 1; ring
    have e3 : (XR.fin 1 - .fin u) * ((.fin (μ * r) - .fin (μ * m)) * (.fin (μ * r) - .fin (μ * l))) = .fin (μ ^ 2 * ((1 - u) * ((r - m) * (r - l)))) := by
      simp only [XR.fin_sub, XR.fin_mul]; congr 1; ring
    simp only [e1, e2, e3, hs]
    have hf : ∀ x : XR, PyVal.asReal (.ok (.float (.fin μ * x))) = (PyVal.asReal (.ok (.float x))).map (μ * ·) := by
      intro x
      cases x with
      | fin a => rfl
      | pinf => rw [XR.fin_mul_pinf h]; rfl
      | ninf => rw [XR.fin_mul_ninf h]; rfl
      | nan => rfl
    by_cases h4 : XR.fin u ≤ (.fin m - .fin l) / (.fin r - .fin l)
    · rw [if_pos h4, if_pos h4, ← hf, XR.scale_add h]
      rfl
    · rw [if_neg h4, if_neg h4, ← hf, XR.scale_sub h]
      rfl
  | .tuple (a :: b :: c :: d :: l) => rfl

theorem mean_times (d : Dist) : (d.times μ).mean = d.mean.map (μ * ·) := by
  have h2 : (2:ℝ) ≠ 0 := two_ne_zero
  have h3 : (3:ℝ) ≠ 0 := three_ne_zero
  match d with
  | .const c => rfl
  | .tuple [] => rfl
  | .tuple [a] => rfl
  | .tuple [a, b] =>
    simp only [Dist.mean, Dist.times, Dist.toPy, List.map_cons, List.map_nil, computeVariateMean, PyVal.num, XR.fin_add, XR.fin_div _ _ h2, PyVal.asReal, Except.map]
    congr 1
    ring
  | .tuple [a, b, c] =>
    simp only [Dist.mean, Dist.times, Dist.toPy, List.map_cons, List.map_nil, computeVariateMean, PyVal.num, XR.fin_add, XR.fin_div _ _ h3, PyVal.asReal, Except.map]
    congr 1
    ring
  | .tuple (a :: b :: c :: d :: l) => rfl

end Oneka
