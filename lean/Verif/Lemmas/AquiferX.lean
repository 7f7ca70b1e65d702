import Verif.Lemmas.Aquifer
import Verif.Lemmas.Head
import Verif.Lemmas.Embed
import Verif.Model.Stochastic
import Verif.Spec.Aquifer

/-! The aquifer model over the extended numbers: agreement off the wells, special values at the wells and at NaN positions. -/

namespace Oneka

/-- the same well -/
def Well.toX (w : Well ℝ) : Well XR := ⟨.fin w.xw, .fin w.yw, .fin w.rw, .fin w.qw⟩

namespace XR

@[simp] theorem q_fin (r : ℚ) : (PyMath.q r : XR) = .fin (r : ℝ) := rfl

theorem log_pos {a : ℝ} (h : 0 < a) : PyMath.log (XR.fin a) = .fin (Real.log a) := by
  show (if a < 0 then XR.nan else if a = 0 then XR.ninf else .fin (Real.log a)) = _
  rw [if_neg h.le.not_gt, if_neg h.ne']

theorem log_zero : PyMath.log (XR.fin 0) = .ninf := by
  show (if (0:ℝ) < 0 then XR.nan else if (0:ℝ) = 0 then XR.ninf else .fin (Real.log 0)) = _
  rw [if_neg (lt_irrefl _), if_pos rfl]

theorem sqrt_nonneg {a : ℝ} (h : 0 ≤ a) : PyMath.sqrt (XR.fin a) = .fin (Real.sqrt a) := by
  show (if a < 0 then XR.nan else .fin (Real.sqrt a)) = _
  rw [if_neg h.not_gt]

theorem zero_div_zero : XR.fin 0 / XR.fin 0 = .nan := by
  show XR.div (.fin 0) (.fin 0) = .nan
  simp [XR.div, XR.infOf]

end XR

namespace Aquifer
variable (m : Aquifer ℝ)

theorem offWells_cons {w : Well ℝ} {ws : List (Well ℝ)} {x y : ℝ}
    (h : ∀ w' ∈ w :: ws, (x, y) ≠ (w'.xw, w'.yw)) :
    0 < (x - w.xw) * (x - w.xw) + (y - w.yw) * (y - w.yw) := by
  have := h w (by simp)
  by_contra hn
  have h1 := mul_self_nonneg (x - w.xw)
  have h2 := mul_self_nonneg (y - w.yw)
  have e1 : (x - w.xw) * (x - w.xw) = 0 := by linarith
  have e2 : (y - w.yw) * (y - w.yw) = 0 := by linarith
  exact this (by
    rw [Prod.mk.injEq]
    exact ⟨by linarith [mul_self_eq_zero.mp e1], by linarith [mul_self_eq_zero.mp e2]⟩)

theorem potentialWells_toX {x y : ℝ} (h : m.OffWells x y) :
    m.toX.potentialWells (.fin x) (.fin y) = .fin (m.potentialWells x y) := by
  unfold potentialWells toX
  simp only [List.foldl_map]
  have key : ∀ (ws : List (Well ℝ)) (a : ℝ), (∀ w' ∈ ws, (x, y) ≠ (w'.xw, w'.yw)) →
      ws.foldl (fun p (w : Well ℝ) => p + w.toX.qw *
        PyMath.log ((XR.fin x - w.toX.xw) * (XR.fin x - w.toX.xw) + (XR.fin y - w.toX.yw) * (XR.fin y - w.toX.yw))
          * PyMath.q fourPiInv) (.fin a) =
      .fin (ws.foldl (fun p (w : Well ℝ) => p + w.qw *
        PyMath.log ((x - w.xw) * (x - w.xw) + (y - w.yw) * (y - w.yw)) * PyMath.q fourPiInv) a) := by
    intro ws
    induction ws with
    | nil => intro a _; rfl
    | cons w ws ih =>
      intro a hw
      rw [List.foldl_cons, List.foldl_cons, ← ih _ (fun w' hw' => hw w' (List.mem_cons_of_mem _ hw'))]
      congr 1
      simp only [Well.toX, XR.fin_sub, XR.fin_mul, XR.fin_add, XR.log_pos (offWells_cons hw), XR.q_fin, PyMath.log_real,
        PyMath.q_real]
  have := key m.wells ((0:ℚ):ℝ) h
  exact this

theorem potential_toX {x y : ℝ} (h : m.OffWells x y) :
    m.toX.potential (.fin x) (.fin y) = .fin (m.potential x y) := by
  unfold potential
  rw [potentialWells_toX m h]
  rfl

theorem discharge_toX {x y : ℝ} (h : m.OffWells x y) :
    m.toX.discharge (.fin x) (.fin y) = emb (m.discharge x y) := by
  unfold discharge toX
  simp only [List.foldl_map]
  have key : ∀ (ws : List (Well ℝ)) (a b : ℝ), (∀ w' ∈ ws, (x, y) ≠ (w'.xw, w'.yw)) →
      ws.foldl (fun (Q : XR × XR) (w : Well ℝ) =>
        (Q.1 + (-w.toX.qw) * (XR.fin x - w.toX.xw) /
          ((XR.fin x - w.toX.xw) * (XR.fin x - w.toX.xw) + (XR.fin y - w.toX.yw) * (XR.fin y - w.toX.yw))
          * PyMath.q twoPiInv,
         Q.2 + (-w.toX.qw) * (XR.fin y - w.toX.yw) /
          ((XR.fin x - w.toX.xw) * (XR.fin x - w.toX.xw) + (XR.fin y - w.toX.yw) * (XR.fin y - w.toX.yw))
          * PyMath.q twoPiInv)) (.fin a, .fin b) =
      emb (ws.foldl (fun (Q : ℝ × ℝ) (w : Well ℝ) =>
        (Q.1 + (-w.qw) * (x - w.xw) / ((x - w.xw) * (x - w.xw) + (y - w.yw) * (y - w.yw)) * PyMath.q twoPiInv,
         Q.2 + (-w.qw) * (y - w.yw) / ((x - w.xw) * (x - w.xw) + (y - w.yw) * (y - w.yw)) * PyMath.q twoPiInv)) (a, b)) := by
    intro ws
    induction ws with
    | nil => intro a b _; rfl
    | cons w ws ih =>
      intro a b hw
      rw [List.foldl_cons, List.foldl_cons, ← ih _ _ (fun w' hw' => hw w' (List.mem_cons_of_mem _ hw'))]
      congr 1
      have := offWells_cons hw
      simp only [Well.toX, XR.fin_sub, XR.fin_mul, XR.fin_add, XR.fin_neg, XR.fin_div _ _ this.ne', XR.q_fin, PyMath.q_real]
  exact key m.wells _ _ h

/-- at a well the discharge is NaN -/
theorem discharge_at_well {x y : ℝ} (h : ¬ m.OffWells x y) :
    m.toX.discharge (.fin x) (.fin y) = (.nan, .nan) := by
  unfold discharge toX
  simp only [List.foldl_map]
  generalize ((-(PyMath.q 2 * XR.fin (m.coef 0) * (XR.fin x - XR.fin m.xo) + XR.fin (m.coef 2) * (XR.fin y - XR.fin m.yo) + XR.fin (m.coef 3)) : XR)) = a
  generalize ((-(PyMath.q 2 * XR.fin (m.coef 1) * (XR.fin y - XR.fin m.yo) + XR.fin (m.coef 2) * (XR.fin x - XR.fin m.xo) + XR.fin (m.coef 4)) : XR)) = b
  have nanfix : ∀ (ws : List (Well ℝ)), ws.foldl (fun (Q : XR × XR) (w : Well ℝ) =>
        (Q.1 + (-w.toX.qw) * (XR.fin x - w.toX.xw) /
          ((XR.fin x - w.toX.xw) * (XR.fin x - w.toX.xw) + (XR.fin y - w.toX.yw) * (XR.fin y - w.toX.yw))
          * PyMath.q twoPiInv,
         Q.2 + (-w.toX.qw) * (XR.fin y - w.toX.yw) /
          ((XR.fin x - w.toX.xw) * (XR.fin x - w.toX.xw) + (XR.fin y - w.toX.yw) * (XR.fin y - w.toX.yw))
          * PyMath.q twoPiInv)) (.nan, .nan) = (.nan, .nan) := by
    intro ws
    induction ws with
    | nil => rfl
    | cons w ws ih => rw [List.foldl_cons]; simp only [XR.nan_add]; exact ih
  have h' : ∃ w ∈ m.wells, (x, y) = (w.xw, w.yw) := by
    unfold OffWells at h; push Not at h; exact h
  revert h' a b
  generalize m.wells = ws
  induction ws with
  | nil => rintro a b ⟨w, hw, -⟩; simp at hw
  | cons w ws ih =>
    intro a b hw
    rw [List.foldl_cons]
    by_cases hxy : (x, y) = (w.xw, w.yw)
    · obtain ⟨rfl, rfl⟩ := Prod.mk.inj hxy
      simp only [Well.toX, XR.fin_sub, XR.fin_mul, XR.fin_add, XR.fin_neg, sub_self, mul_zero, add_zero, XR.zero_div_zero,
        XR.nan_mul, XR.add_nan]
      exact nanfix ws
    · refine ih _ _ ?_
      obtain ⟨w', hw', e⟩ := hw
      rcases List.mem_cons.mp hw' with rfl | hw'
      · exact absurd e hxy
      · exact ⟨w', hw', e⟩

theorem head_toX (hp : m.Physical) {x y : ℝ} (h : m.OffWells x y) :
    m.toX.head (.fin x) (.fin y) = (m.head x y).map XR.fin := by
  have hK := hp.conductivity
  have hT := hp.thickness
  unfold head
  simp only [potential_toX m h]
  simp only [toX, XR.q_fin, XR.fin_le, XR.fin_mul, XR.fin_lt, PyMath.q_real]
  split
  · rfl
  · rename_i h0
    push_cast at h0
    split
    · simp only [Except.map]
      rw [XR.fin_div _ _ hK.ne', XR.sqrt_nonneg]
      · rfl
      · push_cast
        have : 0 < m.potential x y := not_le.mp h0
        positivity
    · simp only [Except.map, XR.fin_add]
      rw [XR.fin_div _ _ (mul_pos hK hT).ne']

theorem velocity_toX (hp : m.Physical) {x y : ℝ} (h : m.OffWells x y) :
    m.toX.velocity (.fin x) (.fin y) = (m.velocity x y).map emb := by
  have hn := hp.porosity
  have hT := hp.thickness
  unfold velocity
  simp only [head_toX m hp h, discharge_toX m h]
  cases hh : m.head x y with
  | error e => rfl
  | ok hd =>
    simp only [Except.map, XR.q_fin, XR.fin_le, PyMath.q_real]
    split
    · rfl
    · rename_i h0
      push_cast at h0
      simp only [toX, XR.fin_lt, XR.fin_mul, emb]
      split
      · simp only [XR.fin_div _ _ (mul_pos hT hn).ne']
      · simp only [XR.fin_div _ _ (mul_pos (not_le.mp h0) hn).ne']

theorem velocityConfined_toX (hp : m.Physical) {x y : ℝ} (h : m.OffWells x y) :
    m.toX.velocityConfined (.fin x) (.fin y) = emb (m.velocityConfined x y) := by
  have hn := hp.porosity
  have hT := hp.thickness
  unfold velocityConfined
  simp only [discharge_toX m h]
  simp only [toX, XR.fin_mul, emb, XR.fin_div _ _ (mul_pos hT hn).ne']

omit m in
theorem reverseVelocity_eq {F : Type} [Add F] [Sub F] [Mul F] [Div F] [Neg F] [LT F] [DecidableLT F] [LE F] [DecidableLE F] [PyMath F] (m : Aquifer F) (c : Bool) : m.reverseVelocity c = m.backVelocity c := by
  funext p
  unfold reverseVelocity backVelocity
  cases c with
  | true => rfl
  | false =>
    simp only [Bool.false_eq_true, if_false]
    cases m.velocity p.1 p.2 <;> rfl

theorem backVelocity_toX (hp : m.Physical) (c : Bool) {x y : ℝ} (h : m.OffWells x y) :
    m.toX.backVelocity c (.fin x, .fin y) = (m.backVelocity c (x, y)).map emb := by
  unfold backVelocity
  cases c with
  | true => simp [velocityConfined_toX m hp h, Except.map, emb]
  | false =>
    simp only [velocity_toX m hp h]
    cases m.velocity x y <;> simp [Except.map, emb]

/-- at a NaN position nothing raises -/
theorem potential_nan (m : Aquifer XR) {x y : XR} (h : x = .nan ∨ y = .nan) : m.potential x y = .nan := by
  unfold potential
  rcases h with rfl | rfl <;> simp

theorem head_nan (m : Aquifer XR) {x y : XR} (h : m.potential x y = .nan) : m.head x y = .ok .nan := by
  unfold head
  simp [h]

theorem velocity_of_head_nan (m : Aquifer XR) {x y : XR} (h : m.potential x y = .nan) :
    m.velocity x y = .ok (.nan, .nan) := by
  unfold velocity
  simp [head_nan m h]

theorem backVelocity_quiet (m : Aquifer XR) (c : Bool) {p : XR × XR} (h : p.1 = .nan ∨ p.2 = .nan) :
    ∃ v, m.backVelocity c p = .ok v := by
  unfold backVelocity
  cases c with
  | true => exact ⟨_, rfl⟩
  | false => simp [velocity_of_head_nan m (potential_nan m h)]

end Aquifer
end Oneka
