import Verif.Spec.Units
import Verif.Lemmas.Ratio
import Verif.Lemmas.Turn

/-!
# Numbers, traces and models in other units
-/

namespace Oneka

variable {μ ℓ τ : ℝ}

namespace XR

theorem units_right (h : 0 < μ) (x y : XR) : x * (fin μ * y) = fin μ * (x * y) := by
  rw [turn_mul_comm, scale_mul h, turn_mul_comm y x]

theorem units_units {a b : ℝ} (ha : 0 < a) (x : XR) : fin a * (fin b * x) = fin (a * b) * x := by
  rw [← scale_mul ha, fin_mul]

theorem units_one (x : XR) : fin 1 * x = x := by
  cases x with
  | fin a => simp
  | pinf => exact fin_mul_pinf one_pos
  | ninf => exact fin_mul_ninf one_pos
  | nan => rfl

theorem units_back (h : 0 < μ) (x : XR) : fin μ⁻¹ * (fin μ * x) = x := by
  rw [units_units (inv_pos.mpr h), inv_mul_cancel₀ h.ne', units_one]

theorem units_forth (h : 0 < μ) (x : XR) : fin μ * (fin μ⁻¹ * x) = x := by
  rw [units_units h, mul_inv_cancel₀ h.ne', units_one]

theorem units_div (h : 0 < μ) (x y : XR) : x / (fin μ * y) = fin μ⁻¹ * (x / y) := by
  conv_lhs => rw [← units_forth h x]
  rw [scale_cancel h, scale_div (inv_pos.mpr h)]

theorem units_lt (h : 0 < μ) (x y : XR) : fin μ * x < fin μ * y ↔ x < y := by
  cases x <;> cases y <;> simp only [fin_mul, fin_mul_pinf h, fin_mul_ninf h, mul_nan, fin_lt, mul_lt_mul_iff_right₀ h] <;> rfl

theorem units_le (h : 0 < μ) (x y : XR) : fin μ * x ≤ fin μ * y ↔ x ≤ y := by
  cases x <;> cases y <;> simp only [fin_mul, fin_mul_pinf h, fin_mul_ninf h, mul_nan, fin_le, mul_le_mul_iff_right₀ h] <;> rfl

theorem units_abs (h : 0 < μ) (x : XR) : (PyMath.abs (fin μ * x) : XR) = fin μ * PyMath.abs x := by
  cases x with
  | fin a =>
    show fin |μ * a| = fin (μ * |a|)
    rw [abs_mul, abs_of_pos h]
  | pinf => rw [fin_mul_pinf h]; exact (fin_mul_pinf h).symm
  | ninf => rw [fin_mul_ninf h]; exact (fin_mul_pinf h).symm
  | nan => rfl

theorem units_sign (h : 0 < μ) (x : XR) : (PyMath.sign (fin μ * x) : XR) = PyMath.sign x := by
  cases x with
  | fin a =>
    show fin (Real.sign (μ * a)) = fin (Real.sign a)
    rcases lt_trichotomy a 0 with ha | rfl | ha
    · rw [Real.sign_of_neg ha, Real.sign_of_neg (mul_neg_of_pos_of_neg h ha)]
    · rw [mul_zero]
    · rw [Real.sign_of_pos ha, Real.sign_of_pos (mul_pos h ha)]
  | pinf => rw [fin_mul_pinf h]
  | ninf => rw [fin_mul_ninf h]
  | nan => rfl

theorem units_fmax (h : 0 < μ) (x y : XR) : (PyMath.fmax (fin μ * x) (fin μ * y) : XR) = fin μ * PyMath.fmax x y := by
  cases x <;> cases y <;> simp only [fin_mul, fin_mul_pinf h, fin_mul_ninf h, mul_nan] <;>
    first
    | exact (fin_mul_pinf h).symm
    | exact (fin_mul_ninf h).symm
    | rfl
    | (rename_i a b; show fin (max (μ * a) (μ * b)) = fin (μ * max a b); rw [mul_max_of_nonneg _ _ h.le])

theorem units_sqrt (h : 0 < μ) (x : XR) : (PyMath.sqrt (fin (μ ^ 2) * x) : XR) = fin μ * PyMath.sqrt x := by
  have h2 : 0 < μ ^ 2 := by positivity
  cases x with
  | fin a =>
    show (if μ ^ 2 * a < 0 then nan else fin (Real.sqrt (μ ^ 2 * a))) = fin μ * (if a < 0 then nan else fin (Real.sqrt a))
    by_cases ha : a < 0
    · rw [if_pos ha, if_pos (mul_neg_of_pos_of_neg h2 ha)]
      rfl
    · rw [if_neg ha, if_neg (not_lt.mpr (mul_nonneg h2.le (not_lt.mp ha))), Real.sqrt_mul h2.le, Real.sqrt_sq h.le]
      rfl
  | pinf => rw [fin_mul_pinf h2]; exact (fin_mul_pinf h).symm
  | ninf => rw [fin_mul_ninf h2]; rfl
  | nan => rfl

theorem units_log (h : 0 < μ) (x : XR) : (PyMath.log (fin μ * x) : XR) = PyMath.log x + fin (Real.log μ) := by
  cases x with
  | fin a =>
    show (if μ * a < 0 then nan else if μ * a = 0 then ninf else fin (Real.log (μ * a))) = (if a < 0 then nan else if a = 0 then ninf else fin (Real.log a)) + fin (Real.log μ)
    by_cases ha : a < 0
    · rw [if_pos ha, if_pos (mul_neg_of_pos_of_neg h ha)]
      rfl
    · rw [if_neg ha, if_neg (not_lt.mpr (mul_nonneg h.le (not_lt.mp ha)))]
      by_cases h0 : a = 0
      · rw [if_pos h0, if_pos (by rw [h0, mul_zero])]
        rfl
      · rw [if_neg h0, if_neg (mul_ne_zero h.ne' h0), Real.log_mul h.ne' h0, add_comm]
        rfl
  | pinf => rw [fin_mul_pinf h]; rfl
  | ninf => rw [fin_mul_ninf h]; rfl
  | nan => rfl

theorem fin_mul_add_fin (q : ℝ) (x : XR) (s : ℝ) : fin q * (x + fin s) = fin q * x + fin (q * s) := by
  cases x with
  | fin a => simp [mul_add]
  | pinf => show infOf q = infOf q + fin (q * s); unfold infOf; split_ifs <;> rfl
  | ninf => show infOf (-q) = infOf (-q) + fin (q * s); unfold infOf; split_ifs <;> rfl
  | nan => rfl

theorem add_fin_mul (x : XR) (s q : ℝ) : (x + fin s) * fin q = x * fin q + fin (s * q) := by
  rw [turn_mul_comm, fin_mul_add_fin, turn_mul_comm x, mul_comm q s]

theorem shift_cancel (x y : XR) (s : ℝ) : (x + fin (-s)) + (y + fin s) = x + y := by
  cases x <;> cases y <;> first | rfl | (simp only [fin_add, fin.injEq]; ring)

end XR

/-! ## Traces -/

theorem place_add (h : 0 < μ) (p q : XR × XR) : placeInUnits μ p + placeInUnits μ q = placeInUnits μ (p + q) :=
  Prod.ext (XR.scale_add h _ _).symm (XR.scale_add h _ _).symm

theorem place_sub (h : 0 < μ) (p q : XR × XR) : placeInUnits μ p - placeInUnits μ q = placeInUnits μ (p - q) :=
  Prod.ext (XR.scale_sub h _ _).symm (XR.scale_sub h _ _).symm

theorem place_scq (h : 0 < μ) (c : ℚ) (p : XR × XR) : scq c (placeInUnits μ p) = placeInUnits μ (scq c p) :=
  Prod.ext (XR.units_right h _ _) (XR.units_right h _ _)

theorem place_sc (hℓ : 0 < ℓ) (hτ : 0 < τ) (dt : XR) (p : XR × XR) : sc (.fin τ * dt) (placeInUnits (ℓ / τ) p) = placeInUnits ℓ (sc dt p) := by
  have h : 0 < ℓ / τ := div_pos hℓ hτ
  have e : τ * (ℓ / τ) = ℓ := by field_simp
  unfold sc placeInUnits
  simp only [XR.scale_mul hτ, XR.units_right h, XR.units_units h, mul_comm (ℓ / τ) τ, e]

theorem place_normInf (h : 0 < μ) (p : XR × XR) : normInf (placeInUnits μ p) = .fin μ * normInf p := by
  unfold normInf placeInUnits
  simp only [XR.units_abs h, XR.units_fmax h]

theorem place_norm2 (h : 0 < μ) (p : XR × XR) : norm2 (placeInUnits μ p) = .fin μ * norm2 p := by
  unfold norm2 placeInUnits
  have h2 : 0 < μ ^ 2 := by positivity
  simp only [XR.scale_mul h, XR.units_right h, XR.units_units h, ← pow_two]
  rw [← XR.scale_add h2, XR.units_sqrt h]

/-- the velocity `g` in the other units is the velocity `f` -/
def Converts (ℓ τ : ℝ) (f g : ℕ → XR × XR → Except PyErr (XR × XR)) : Prop := ∀ n p, g n (placeInUnits ℓ p) = (f n p).map (placeInUnits (ℓ / τ))

theorem trial_units (hℓ : 0 < ℓ) (hτ : 0 < τ) {f g : ℕ → XR × XR → Except PyErr (XR × XR)} (h : Converts ℓ τ f g) (n : ℕ) (xy k1 : XR × XR) (dt : XR) :
    trial g n (placeInUnits ℓ xy) (placeInUnits (ℓ / τ) k1) (.fin τ * dt) =
      (trial f n xy k1 dt).map fun r => (placeInUnits ℓ r.1, placeInUnits (ℓ / τ) r.2.1, .fin ℓ * r.2.2.1, .fin ℓ * r.2.2.2) := by
  have h2 : 0 < ℓ / τ := div_pos hℓ hτ
  unfold trial
  simp only [place_scq h2, place_sc hℓ hτ, place_add hℓ, h _ _]
  simp only [bind, Except.bind]
  cases f n (xy + sc dt (scq (1/5) k1)) with
  | error e => rfl
  | ok k2 =>
  simp only [Except.map, place_scq h2, place_add h2, place_sc hℓ hτ, place_add hℓ, h _ _]
  cases f (n+1) (xy + sc dt (scq (3/40) k1 + scq (9/40) k2)) with
  | error e => rfl
  | ok k3 =>
  simp only [Except.map, place_scq h2, place_add h2, place_sc hℓ hτ, place_add hℓ, h _ _]
  cases f (n+2) (xy + sc dt (scq (44/45) k1 + scq (-56/15) k2 + scq (32/9) k3)) with
  | error e => rfl
  | ok k4 =>
  simp only [Except.map, place_scq h2, place_add h2, place_sc hℓ hτ, place_add hℓ, h _ _]
  cases f (n+3) (xy + sc dt (scq (19372/6561) k1 + scq (-25360/2187) k2 + scq (64448/6561) k3 + scq (-212/729) k4)) with
  | error e => rfl
  | ok k5 =>
  simp only [Except.map, place_scq h2, place_add h2, place_sc hℓ hτ, place_add hℓ, h _ _]
  cases f (n+4) (xy + sc dt (scq (9017/3168) k1 + scq (-355/33) k2 + scq (46732/5247) k3 + scq (49/176) k4 + scq (-5103/18656) k5)) with
  | error e => rfl
  | ok k6 =>
  simp only [Except.map, place_scq h2, place_add h2, place_sc hℓ hτ, place_add hℓ, h _ _]
  cases f (n+5) (xy + sc dt (scq (35/384) k1 + scq (500/1113) k3 + scq (125/192) k4 + scq (-2187/6784) k5 + scq (11/84) k6)) with
  | error e => rfl
  | ok k7 =>
  simp only [Except.map, place_scq h2, place_add h2, place_sc hℓ hτ, place_sub hℓ, place_normInf hℓ, place_norm2 hℓ]
  rfl

theorem clip_units (hτ : 0 < τ) (D t dt : XR) : clipDt (.fin τ * D) (.fin τ * t) (.fin τ * dt) = .fin τ * clipDt D t dt := by
  unfold clipDt
  simp only [← XR.scale_add hτ, XR.units_abs hτ, XR.units_lt hτ, ← XR.scale_sub hτ]
  split_ifs <;> rfl

theorem nextDt_units (hℓ : 0 < ℓ) (hτ : 0 < τ) (tol M est ds dt : XR) : nextDt (.fin ℓ * tol) (.fin ℓ * M) (.fin ℓ * est) (.fin ℓ * ds) (.fin τ * dt) =
    .fin τ * (PyMath.q (9/10) * pyMin3 (PyMath.root5 (tol / (est + .fin (1 / 4503599627370496 / ℓ)))) (M / (ds + .fin (1 / 4503599627370496 / ℓ))) (PyMath.q 10) * dt) := by
  have e : (EPS : XR) = .fin ℓ * .fin (1 / 4503599627370496 / ℓ) := by
    show XR.fin _ = _
    rw [XR.fin_mul]
    congr 1
    push_cast
    field_simp
  unfold nextDt
  rw [e, ← XR.scale_add hℓ, ← XR.scale_add hℓ, XR.scale_cancel hℓ, XR.scale_cancel hℓ, XR.units_right hτ]

theorem loop_units (hℓ : 0 < ℓ) (hτ : 0 < τ) {f g : ℕ → XR × XR → Except PyErr (XR × XR)} (h : Converts ℓ τ f g) (D tol M : XR) (t dt : XR) (xy k1 : XR × XR) (n : ℕ) (vs : List (XR × XR))
    (ss : List (Accepted XR)) (r : Trace XR) (hr : tracerLoop (1 / 4503599627370496 / ℓ) D tol M f t dt xy k1 n vs ss = some r) :
    traceLoop (.fin τ * D) (.fin ℓ * tol) (.fin ℓ * M) g (.fin τ * t) (.fin τ * dt) (placeInUnits ℓ xy) (placeInUnits (ℓ / τ) k1) n (vs.map (placeInUnits ℓ))
      (ss.map fun a => ⟨.fin τ * a.t, .fin τ * a.dt, .fin ℓ * a.est, placeInUnits ℓ a.vertex⟩) = some (r.inUnits ℓ τ) := by
  refine tracerLoop.partial_correctness (1 / 4503599627370496 / ℓ) D tol M f
    (fun t dt xy k1 n vs ss r => traceLoop (.fin τ * D) (.fin ℓ * tol) (.fin ℓ * M) g (.fin τ * t) (.fin τ * dt) (placeInUnits ℓ xy) (placeInUnits (ℓ / τ) k1) n (vs.map (placeInUnits ℓ))
      (ss.map fun a => ⟨.fin τ * a.t, .fin τ * a.dt, .fin ℓ * a.est, placeInUnits ℓ a.vertex⟩) = some (r.inUnits ℓ τ)) ?_ t dt xy k1 n vs ss r hr
  intro loop ih t dt xy k1 n vs ss r hr
  rw [traceLoop, clip_units hτ, trial_units hℓ hτ h]
  simp only [XR.units_abs hτ, XR.units_lt hτ]
  split_ifs at hr ⊢ with c
  · cases e : trial f n xy k1 (clipDt D t dt) with
    | error x =>
      rw [e] at hr
      cases hr
      rfl
    | ok o =>
      obtain ⟨xyt, k2, est, ds⟩ := o
      rw [e] at hr
      simp only [Except.map, XR.units_lt hℓ, nextDt_units hℓ hτ, ← XR.scale_add hτ] at hr ⊢
      split_ifs at hr ⊢ with c2
      · have := ih _ _ _ _ _ _ _ _ hr
        simpa only [List.map_append, List.map_cons, List.map_nil] using this
      · exact ih _ _ _ _ _ _ _ _ hr
  · cases hr
    rfl

/-! ## The model -/

theorem XR.units_quot {a b : ℝ} (ha : 0 < a) (hb : 0 < b) (x y : XR) : .fin a * x / (.fin b * y) = .fin (a / b) * (x / y) := by
  rw [scale_div ha, units_div hb, units_units ha, div_eq_mul_inv]

theorem XR.units_prod {a b : ℝ} (ha : 0 < a) (hb : 0 < b) (x y : XR) : .fin a * x * (.fin b * y) = .fin (a * b) * (x * y) := by
  rw [scale_mul ha, units_right hb, units_units ha]

theorem XR.units_sum_shift (x y : XR) (s t : ℝ) : (x + .fin s) + (y + .fin t) = (x + y) + .fin (s + t) := by
  cases x <;> cases y <;> first | rfl | (simp only [fin_add, fin.injEq]; ring)

theorem potentialWells_units (hℓ : 0 < ℓ) (hτ : 0 < τ) (m : Aquifer ℝ) (x y : XR) :
    (m.inUnits ℓ τ).toX.potentialWells (.fin ℓ * x) (.fin ℓ * y) = .fin (ℓ ^ 3 / τ) * (m.toX.potentialWells x y + .fin (m.logShift ℓ)) := by
  have hκ : 0 < ℓ ^ 3 / τ := by positivity
  have h2 : 0 < ℓ ^ 2 := by positivity
  unfold Aquifer.potentialWells Aquifer.inUnits Aquifer.toX Aquifer.logShift
  simp only [List.foldl_map, List.map_map]
  have step : ∀ (ws : List (Well ℝ)) (a : XR) (s : ℝ),
      ws.foldl (fun potential well => potential + .fin (well.inUnits ℓ τ).qw *
        PyMath.log ((.fin ℓ * x - .fin (well.inUnits ℓ τ).xw) * (.fin ℓ * x - .fin (well.inUnits ℓ τ).xw) + (.fin ℓ * y - .fin (well.inUnits ℓ τ).yw) * (.fin ℓ * y - .fin (well.inUnits ℓ τ).yw)) * PyMath.q Aquifer.fourPiInv)
        (.fin (ℓ ^ 3 / τ) * (a + .fin s)) =
      .fin (ℓ ^ 3 / τ) * (ws.foldl (fun potential well => potential + .fin well.qw *
        PyMath.log ((x - .fin well.xw) * (x - .fin well.xw) + (y - .fin well.yw) * (y - .fin well.yw)) * PyMath.q Aquifer.fourPiInv) a +
        .fin (s + (ws.map fun w => w.qw * Real.log (ℓ ^ 2) * Aquifer.fourPiInv).sum)) := by
    intro ws
    induction ws with
    | nil => intro a s; simp
    | cons w ws ih =>
      intro a s
      have term : .fin (w.inUnits ℓ τ).qw *
          PyMath.log ((.fin ℓ * x - .fin (w.inUnits ℓ τ).xw) * (.fin ℓ * x - .fin (w.inUnits ℓ τ).xw) + (.fin ℓ * y - .fin (w.inUnits ℓ τ).yw) * (.fin ℓ * y - .fin (w.inUnits ℓ τ).yw)) * PyMath.q Aquifer.fourPiInv =
          XR.fin (ℓ ^ 3 / τ) * (.fin w.qw * PyMath.log ((x - .fin w.xw) * (x - .fin w.xw) + (y - .fin w.yw) * (y - .fin w.yw)) * PyMath.q Aquifer.fourPiInv + .fin (w.qw * Real.log (ℓ ^ 2) * Aquifer.fourPiInv)) := by
        have ex : XR.fin (w.inUnits ℓ τ).xw = .fin ℓ * .fin w.xw := (XR.fin_mul _ _).symm
        have ey : XR.fin (w.inUnits ℓ τ).yw = .fin ℓ * .fin w.yw := (XR.fin_mul _ _).symm
        have eq : XR.fin (w.inUnits ℓ τ).qw = .fin (ℓ ^ 3 / τ) * .fin w.qw := (XR.fin_mul _ _).symm
        have ec : (PyMath.q Aquifer.fourPiInv : XR) = .fin ((Aquifer.fourPiInv : ℚ) : ℝ) := rfl
        rw [ex, ey, eq, ec]
        simp only [← XR.scale_sub hℓ, XR.units_prod hℓ hℓ, ← pow_two]
        rw [← XR.scale_add h2, XR.units_log h2, XR.scale_mul hκ, XR.scale_mul hκ, XR.fin_mul_add_fin, XR.add_fin_mul]
      rw [List.foldl_cons, List.foldl_cons, term, ← XR.scale_add hκ, XR.units_sum_shift, ih, List.map_cons, List.sum_cons, add_assoc]
  have := step m.wells (PyMath.q 0) 0
  rw [zero_add] at this
  have e0 : (PyMath.q 0 : XR) = .fin (ℓ ^ 3 / τ) * (PyMath.q 0 + .fin 0) := by
    show XR.fin _ = .fin _ * (.fin _ + .fin _)
    simp
  refine Eq.trans ?_ this
  exact congrArg (fun a => List.foldl _ a m.wells) e0

theorem potential_units (hℓ : 0 < ℓ) (hτ : 0 < τ) (m : Aquifer ℝ) (x y : XR) : (m.inUnits ℓ τ).toX.potential (.fin ℓ * x) (.fin ℓ * y) = .fin (ℓ ^ 3 / τ) * m.toX.potential x y := by
  have hκ : 0 < ℓ ^ 3 / τ := by positivity
  have h1 : 0 < ℓ / τ := by positivity
  have h2 : 0 < ℓ ^ 2 / τ := by positivity
  have hll : 0 < ℓ * ℓ := by positivity
  have h12 : 0 < ℓ / τ * ℓ := by positivity
  unfold Aquifer.potential
  rw [potentialWells_units hℓ hτ]
  have ex : (m.inUnits ℓ τ).toX.xo = .fin ℓ * m.toX.xo := (XR.fin_mul _ _).symm
  have ey : (m.inUnits ℓ τ).toX.yo = .fin ℓ * m.toX.yo := (XR.fin_mul _ _).symm
  have c0 : (m.inUnits ℓ τ).toX.coef 0 = .fin (ℓ / τ) * m.toX.coef 0 := by
    show XR.fin (ℓ / τ * (m.coef 0 - 0)) = _
    rw [sub_zero]; exact (XR.fin_mul _ _).symm
  have c1 : (m.inUnits ℓ τ).toX.coef 1 = .fin (ℓ / τ) * m.toX.coef 1 := by
    show XR.fin (ℓ / τ * (m.coef 1 - 0)) = _
    rw [sub_zero]; exact (XR.fin_mul _ _).symm
  have c2 : (m.inUnits ℓ τ).toX.coef 2 = .fin (ℓ / τ) * m.toX.coef 2 := by
    show XR.fin (ℓ / τ * (m.coef 2 - 0)) = _
    rw [sub_zero]; exact (XR.fin_mul _ _).symm
  have c3 : (m.inUnits ℓ τ).toX.coef 3 = .fin (ℓ ^ 2 / τ) * m.toX.coef 3 := by
    show XR.fin (ℓ ^ 2 / τ * (m.coef 3 - 0)) = _
    rw [sub_zero]; exact (XR.fin_mul _ _).symm
  have c4 : (m.inUnits ℓ τ).toX.coef 4 = .fin (ℓ ^ 2 / τ) * m.toX.coef 4 := by
    show XR.fin (ℓ ^ 2 / τ * (m.coef 4 - 0)) = _
    rw [sub_zero]; exact (XR.fin_mul _ _).symm
  have c5 : (m.inUnits ℓ τ).toX.coef 5 = .fin (ℓ ^ 3 / τ) * (m.toX.coef 5 + .fin (-(m.logShift ℓ))) := by
    show XR.fin (ℓ ^ 3 / τ * (m.coef 5 - m.logShift ℓ)) = .fin _ * (.fin _ + .fin _)
    rw [XR.fin_add, XR.fin_mul, sub_eq_add_neg]
  have k1 : ℓ / τ * (ℓ * ℓ) = ℓ ^ 3 / τ := by ring
  have k2 : ℓ / τ * ℓ * ℓ = ℓ ^ 3 / τ := by ring
  have k3 : ℓ ^ 2 / τ * ℓ = ℓ ^ 3 / τ := by ring
  have assoc : ∀ a b : XR, ∀ s : ℝ, a + (b + .fin s) = (a + b) + .fin s := by
    intro a b s
    cases a <;> cases b <;> first | rfl | (simp only [XR.fin_add, XR.fin.injEq]; ring)
  rw [ex, ey, c0, c1, c2, c3, c4, c5]
  simp only [← XR.scale_sub hℓ, XR.units_prod hℓ hℓ, XR.units_prod h1 hll, XR.units_prod h1 hℓ, XR.units_prod h12 hℓ, XR.units_prod h2 hℓ, k1, k2, k3, ← XR.scale_add hκ]
  rw [assoc _ (m.toX.coef 5), XR.shift_cancel]

theorem discharge_units (hℓ : 0 < ℓ) (hτ : 0 < τ) (m : Aquifer ℝ) (x y : XR) :
    (m.inUnits ℓ τ).toX.discharge (.fin ℓ * x) (.fin ℓ * y) = placeInUnits (ℓ ^ 2 / τ) (m.toX.discharge x y) := by
  have hκ : 0 < ℓ ^ 3 / τ := by positivity
  have h1 : 0 < ℓ / τ := by positivity
  have h2 : 0 < ℓ ^ 2 / τ := by positivity
  have hll : 0 < ℓ * ℓ := by positivity
  have h3 : 0 < ℓ ^ 3 / τ * ℓ := by positivity
  have h12 : 0 < ℓ / τ * ℓ := by positivity
  unfold Aquifer.discharge
  have ex : (m.inUnits ℓ τ).toX.xo = .fin ℓ * m.toX.xo := (XR.fin_mul _ _).symm
  have ey : (m.inUnits ℓ τ).toX.yo = .fin ℓ * m.toX.yo := (XR.fin_mul _ _).symm
  have c0 : (m.inUnits ℓ τ).toX.coef 0 = .fin (ℓ / τ) * m.toX.coef 0 := by
    show XR.fin (ℓ / τ * (m.coef 0 - 0)) = _
    rw [sub_zero]; exact (XR.fin_mul _ _).symm
  have c1 : (m.inUnits ℓ τ).toX.coef 1 = .fin (ℓ / τ) * m.toX.coef 1 := by
    show XR.fin (ℓ / τ * (m.coef 1 - 0)) = _
    rw [sub_zero]; exact (XR.fin_mul _ _).symm
  have c2 : (m.inUnits ℓ τ).toX.coef 2 = .fin (ℓ / τ) * m.toX.coef 2 := by
    show XR.fin (ℓ / τ * (m.coef 2 - 0)) = _
    rw [sub_zero]; exact (XR.fin_mul _ _).symm
  have c3 : (m.inUnits ℓ τ).toX.coef 3 = .fin (ℓ ^ 2 / τ) * m.toX.coef 3 := by
    show XR.fin (ℓ ^ 2 / τ * (m.coef 3 - 0)) = _
    rw [sub_zero]; exact (XR.fin_mul _ _).symm
  have c4 : (m.inUnits ℓ τ).toX.coef 4 = .fin (ℓ ^ 2 / τ) * m.toX.coef 4 := by
    show XR.fin (ℓ ^ 2 / τ * (m.coef 4 - 0)) = _
    rw [sub_zero]; exact (XR.fin_mul _ _).symm
  have k1 : ℓ / τ * ℓ = ℓ ^ 2 / τ := by ring
  have k2 : ℓ ^ 3 / τ * ℓ / (ℓ * ℓ) = ℓ ^ 2 / τ := by field_simp
  have hw : (m.inUnits ℓ τ).toX.wells = m.toX.wells.map fun w => ⟨.fin ℓ * w.xw, .fin ℓ * w.yw, .fin ℓ * w.rw, .fin (ℓ ^ 3 / τ) * w.qw⟩ := by
    unfold Aquifer.inUnits Aquifer.toX Well.inUnits
    simp only [List.map_map]
    rfl
  rw [ex, ey, c0, c1, c2, c3, c4, hw]
  simp only [← XR.scale_sub hℓ, XR.units_right h1, XR.units_prod h1 hℓ, k1, ← XR.scale_add h2, ← XR.scale_neg h2]
  refine Eq.trans ?_ (foldl_scale (s := placeInUnits (ℓ ^ 2 / τ)) (t := fun w : Well XR => ⟨.fin ℓ * w.xw, .fin ℓ * w.yw, .fin ℓ * w.rw, .fin (ℓ ^ 3 / τ) * w.qw⟩)
    (f' := fun Q well => (Q.1 + -well.qw * (.fin ℓ * x - well.xw) / ((.fin ℓ * x - well.xw) * (.fin ℓ * x - well.xw) + (.fin ℓ * y - well.yw) * (.fin ℓ * y - well.yw)) * PyMath.q Aquifer.twoPiInv,
      Q.2 + -well.qw * (.fin ℓ * y - well.yw) / ((.fin ℓ * x - well.xw) * (.fin ℓ * x - well.xw) + (.fin ℓ * y - well.yw) * (.fin ℓ * y - well.yw)) * PyMath.q Aquifer.twoPiInv)) m.toX.wells _ ?_)
  · rfl
  · intro Q w
    unfold placeInUnits
    simp only [← XR.scale_sub hℓ, ← XR.scale_neg hκ, XR.units_prod hκ hℓ, XR.units_prod hℓ hℓ, ← XR.scale_add hll, XR.units_quot h3 hll, k2, XR.scale_mul h2, ← XR.scale_add h2]

theorem head_units (hℓ : 0 < ℓ) (hτ : 0 < τ) (m : Aquifer ℝ) (x y : XR) : (m.inUnits ℓ τ).toX.head (.fin ℓ * x) (.fin ℓ * y) = (m.toX.head x y).map (.fin ℓ * ·) := by
  have hκ : 0 < ℓ ^ 3 / τ := by positivity
  have h1 : 0 < ℓ / τ := by positivity
  have hll : 0 < ℓ * ℓ := by positivity
  have h12 : 0 < ℓ / τ * ℓ := by positivity
  have eH : (m.inUnits ℓ τ).toX.thickness = .fin ℓ * m.toX.thickness := (XR.fin_mul _ _).symm
  have eK : (m.inUnits ℓ τ).toX.conductivity = .fin (ℓ / τ) * m.toX.conductivity := (XR.fin_mul _ _).symm
  have k1 : ℓ / τ * (ℓ * ℓ) = ℓ ^ 3 / τ := by ring
  have k2 : ℓ ^ 3 / τ / (ℓ / τ) = ℓ ^ 2 := by field_simp
  have k3 : ℓ ^ 3 / τ / (ℓ / τ * ℓ) = ℓ := by field_simp
  have z : (PyMath.q 0 : XR) = .fin 0 := by show XR.fin _ = _; simp
  unfold Aquifer.head
  rw [potential_units hℓ hτ, eH, eK, z]
  simp only [XR.units_right h1, XR.units_prod hℓ hℓ, XR.units_prod h1 hll, k1, XR.scale_le_zero hκ, XR.units_lt hκ, XR.units_right hκ, XR.units_quot hκ h1, k2, XR.units_sqrt hℓ, ← XR.scale_add hκ, XR.units_prod h1 hℓ, XR.units_quot hκ h12, k3]
  split_ifs <;> rfl

theorem velocityConfined_units (hℓ : 0 < ℓ) (hτ : 0 < τ) (m : Aquifer ℝ) (x y : XR) :
    (m.inUnits ℓ τ).toX.velocityConfined (.fin ℓ * x) (.fin ℓ * y) = placeInUnits (ℓ / τ) (m.toX.velocityConfined x y) := by
  have h2 : 0 < ℓ ^ 2 / τ := by positivity
  have eH : (m.inUnits ℓ τ).toX.thickness = .fin ℓ * m.toX.thickness := (XR.fin_mul _ _).symm
  have en : (m.inUnits ℓ τ).toX.porosity = m.toX.porosity := rfl
  have k : ℓ ^ 2 / τ / ℓ = ℓ / τ := by field_simp
  unfold Aquifer.velocityConfined
  rw [discharge_units hℓ hτ, eH, en]
  unfold placeInUnits
  simp only [XR.scale_mul hℓ, XR.units_quot h2 hℓ, k]

theorem velocity_units (hℓ : 0 < ℓ) (hτ : 0 < τ) (m : Aquifer ℝ) (x y : XR) :
    (m.inUnits ℓ τ).toX.velocity (.fin ℓ * x) (.fin ℓ * y) = (m.toX.velocity x y).map (placeInUnits (ℓ / τ)) := by
  have h2 : 0 < ℓ ^ 2 / τ := by positivity
  have eH : (m.inUnits ℓ τ).toX.thickness = .fin ℓ * m.toX.thickness := (XR.fin_mul _ _).symm
  have en : (m.inUnits ℓ τ).toX.porosity = m.toX.porosity := rfl
  have k : ℓ ^ 2 / τ / ℓ = ℓ / τ := by field_simp
  have z : (PyMath.q 0 : XR) = .fin 0 := by show XR.fin _ = _; simp
  unfold Aquifer.velocity
  rw [discharge_units hℓ hτ, head_units hℓ hτ, eH, en, z]
  cases m.toX.head x y with
  | error e => rfl
  | ok h =>
    unfold placeInUnits
    simp only [Except.map, XR.scale_le_zero hℓ, XR.units_lt hℓ, XR.scale_mul hℓ, XR.units_quot h2 hℓ, k]
    split_ifs <;> rfl

end Oneka
