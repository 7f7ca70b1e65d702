import Verif.Spec.Idle
import Verif.Lemmas.Confined
import Verif.Lemmas.AquiferX
import Verif.Props.Utilities

/-!
# Lemmas for Props/Idle.lean
-/

namespace Oneka

namespace Aquifer

theorem xr_add_zero (a : XR) : a + .fin 0 = a := by
  cases a with
  | fin r => simp
  | _ => rfl

theorem idle_potentialWells (m : Aquifer ℝ) {x y r X Y : ℝ} (h : (X, Y) ≠ (x, y)) : (m.withIdle x y r).toX.potentialWells (.fin X) (.fin Y) = m.toX.potentialWells (.fin X) (.fin Y) := by
  have h0 : 0 < (X - x) * (X - x) + (Y - y) * (Y - y) := by
    rcases ne_or_eq X x with h1 | h1
    · have : 0 < (X - x) * (X - x) := mul_self_pos.mpr (sub_ne_zero.mpr h1)
      nlinarith [mul_self_nonneg (Y - y)]
    · have h2 : Y ≠ y := fun e => h (by rw [h1, e])
      have : 0 < (Y - y) * (Y - y) := mul_self_pos.mpr (sub_ne_zero.mpr h2)
      nlinarith [mul_self_nonneg (X - x)]
  unfold potentialWells withIdle toX
  simp only [List.map_append, List.foldl_append, List.map_cons, List.map_nil, List.foldl_cons, List.foldl_nil, XR.fin_sub, XR.fin_mul, XR.fin_add]
  rw [show PyMath.log (XR.fin ((X - x) * (X - x) + (Y - y) * (Y - y))) = XR.fin (Real.log ((X - x) * (X - x) + (Y - y) * (Y - y))) by
    show (if _ then _ else if _ then _ else _) = _
    rw [if_neg (by linarith), if_neg (by linarith)]]
  rw [XR.fin_mul, zero_mul, XR.q_fin, XR.fin_mul, zero_mul, xr_add_zero]

theorem idle_discharge (m : Aquifer ℝ) {x y r X Y : ℝ} (h : (X, Y) ≠ (x, y)) : (m.withIdle x y r).toX.discharge (.fin X) (.fin Y) = m.toX.discharge (.fin X) (.fin Y) := by
  have h0 : (X - x) * (X - x) + (Y - y) * (Y - y) ≠ 0 := by
    intro e
    have h1 : (X - x) * (X - x) = 0 := by nlinarith [mul_self_nonneg (X - x), mul_self_nonneg (Y - y)]
    have h2 : (Y - y) * (Y - y) = 0 := by nlinarith [mul_self_nonneg (X - x), mul_self_nonneg (Y - y)]
    exact h (Prod.ext (sub_eq_zero.mp (mul_self_eq_zero.mp h1)) (sub_eq_zero.mp (mul_self_eq_zero.mp h2)))
  unfold discharge withIdle toX
  simp only [List.map_append, List.foldl_append, List.map_cons, List.map_nil, List.foldl_cons, List.foldl_nil, XR.fin_sub, XR.fin_mul, XR.fin_add, XR.fin_neg, neg_zero, zero_mul, XR.fin_div _ _ h0, zero_div,
    XR.q_fin, xr_add_zero, PyMath.q_real]

theorem idle_potential (m : Aquifer ℝ) {x y r X Y : ℝ} (h : (X, Y) ≠ (x, y)) : (m.withIdle x y r).toX.potential (.fin X) (.fin Y) = m.toX.potential (.fin X) (.fin Y) := by
  unfold potential
  rw [idle_potentialWells m h]
  rfl

theorem idle_head (m : Aquifer ℝ) {x y r X Y : ℝ} (h : (X, Y) ≠ (x, y)) : (m.withIdle x y r).toX.head (.fin X) (.fin Y) = m.toX.head (.fin X) (.fin Y) := by
  unfold head
  rw [idle_potential m h]
  rfl

theorem idle_velocity (m : Aquifer ℝ) {x y r X Y : ℝ} (h : (X, Y) ≠ (x, y)) : (m.withIdle x y r).toX.velocity (.fin X) (.fin Y) = m.toX.velocity (.fin X) (.fin Y) := by
  unfold velocity
  rw [idle_head m h, idle_discharge m h]
  rfl

theorem idle_velocityConfined (m : Aquifer ℝ) {x y r X Y : ℝ} (h : (X, Y) ≠ (x, y)) : (m.withIdle x y r).toX.velocityConfined (.fin X) (.fin Y) = m.toX.velocityConfined (.fin X) (.fin Y) := by
  unfold velocityConfined
  rw [idle_discharge m h]
  rfl

theorem idle_reverse (m : Aquifer ℝ) {x y r : ℝ} {p : XR × XR} (h : Elsewhere x y p) (c : Bool) : (m.withIdle x y r).toX.reverseVelocity c p = m.toX.reverseVelocity c p := by
  obtain ⟨q, rfl, hq⟩ := h
  unfold reverseVelocity
  rw [idle_velocity m hq, idle_velocityConfined m hq]

theorem elsewhere_raises (m : Aquifer ℝ) (c : Bool) (x y : ℝ) (interrupt : ℕ → Option PyErr) : MayRaise (m.elsewhereOnly c x y interrupt) fun n p => match interrupt n with
    | some e => .error e
    | none => m.toX.reverseVelocity c p := by
  intro n p
  unfold elsewhereOnly
  by_cases h : Elsewhere x y p
  · rw [if_pos h]
    exact .inl rfl
  · rw [if_neg h]
    exact .inr ⟨_, rfl⟩

theorem elsewhere_raises_idle (m : Aquifer ℝ) (c : Bool) (x y r : ℝ) (interrupt : ℕ → Option PyErr) : MayRaise (m.elsewhereOnly c x y interrupt) fun n p => match interrupt n with
    | some e => .error e
    | none => (m.withIdle x y r).toX.reverseVelocity c p := by
  intro n p
  unfold elsewhereOnly
  by_cases h : Elsewhere x y p
  · rw [if_pos h]
    left
    beta_reduce
    cases interrupt n with
    | some e => rfl
    | none => exact (idle_reverse m h c).symm
  · rw [if_neg h]
    exact .inr ⟨_, rfl⟩

theorem idle_rows (m : Aquifer ℝ) (hw : m.wells ≠ []) {x y r xo yo : ℝ} {obs : List Obs} (h : ∀ o ∈ obs, (o.x, o.y) ≠ (x, y)) : (m.withIdle x y r).constructFit xo yo obs = m.constructFit xo yo obs := by
  have row : ∀ o : Obs, (o.x, o.y) ≠ (x, y) → (m.withIdle x y r).fitRow xo yo o = m.fitRow xo yo o := by
    intro o ho
    unfold fitRow
    rw [idle_potentialWells m ho, show (m.withIdle x y r).fosm o = m.fosm o from rfl, show (m.withIdle x y r).wells.isEmpty = m.wells.isEmpty by
      cases hm : m.wells with
      | nil => exact absurd hm hw
      | cons a l => simp [withIdle, hm]]
  induction obs with
  | nil => rfl
  | cons o os ih =>
    unfold constructFit
    rw [row o (h o (List.mem_cons_self ..)), ih fun o' ho' => h o' (List.mem_cons_of_mem _ ho')]

theorem idle_fit (m : Aquifer ℝ) (hw : m.wells ≠ []) {x y r xo yo : ℝ} {obs : List Obs} (h : ∀ o ∈ obs, (o.x, o.y) ≠ (x, y)) (la : LinAlg) :
    ((m.withIdle x y r).fitRegionalFlow la obs xo yo).2 = (m.fitRegionalFlow la obs xo yo).2 := by
  unfold fitRegionalFlow
  rw [idle_rows m hw h]
  cases m.constructFit xo yo obs with
  | error e => rfl
  | ok rows =>
    simp only
    cases computeFit la rows with
    | error e => rfl
    | ok p => rfl

end Aquifer

theorem idle_filter {obs : List Obs} {wells : List (ℝ × ℝ)} {buffer x y : ℝ} (h : ∀ o ∈ obs, buffer < o.dist x y) : filterObs obs (wells ++ [(x, y)]) buffer = filterObs obs wells buffer := by
  have away : ∀ o ∈ obs, awayFromWells buffer o (wells ++ [(x, y)]) = awayFromWells buffer o wells := by
    intro o ho
    induction wells with
    | nil =>
      have := h o ho
      simp only [List.nil_append, awayFromWells]
      rw [if_neg]
      unfold Obs.dist at this
      unfold hypot
      rw [not_le, ← pow_two, ← pow_two]
      exact this
    | cons w ws ih =>
      simp only [List.cons_append, awayFromWells, ih]
  unfold filterObs
  congr 1
  induction obs with
  | nil => rfl
  | cons o os ih =>
    simp only [removeNear]
    rw [away o (List.mem_cons_self ..), ih (fun o' ho' => h o' (List.mem_cons_of_mem _ ho')) fun o' ho' => away o' (List.mem_cons_of_mem _ ho')]

/-- the realizations of the call with one more well -/
theorem realized_idle {a : RunArgs} {la : LinAlg} {t : SWell} {q q' : Dist → ℕ → Except PyErr ℝ} {coefs : (Fin 6 → ℝ) → Matrix (Fin 6) (Fin 6) ℝ → Except PyErr (Fin 6 → ℝ)}
    {interrupt interrupt' : ℕ → ℕ → Option PyErr} {L L' : RealizationLog} {x y r : ℝ} (hne : a.wells ≠ []) (R : Realized a la t q coefs interrupt L)
    (R' : Realized { a with wells := a.wells ++ [⟨x, y, r, .const 0⟩] } la t q' coefs interrupt' L') (h0 : ∀ j z, q' (.const 0) j = .ok z → z = 0) (hq : ∀ d j, j < a.wells.length → q' d j = q d j)
    (hq' : ∀ d j, a.wells.length ≤ j → q' d (j + 1) = q d j) (ho : ∀ o ∈ a.obs, (o.x, o.y) ≠ (x, y)) : L'.model = L.model.withIdle x y r ∧ L'.ev = L.ev ∧ L'.cov = L.cov := by
  have hlen : L'.model.wells.length = a.wells.length + 1 := by simpa using R'.wells_length
  have hlast : L'.model.wells[a.wells.length]? = some ⟨x, y, r, 0⟩ := by
    obtain ⟨d, h1, h2⟩ := R'.wells a.wells.length ⟨x, y, r, .const 0⟩ (by simp)
    rw [h0 _ _ h2] at h1
    exact h1
  have hsplit : L'.model.wells = L'.model.wells.take a.wells.length ++ [⟨x, y, r, 0⟩] := by
    conv_lhs => rw [← List.take_append_drop a.wells.length L'.model.wells]
    congr 1
    rw [List.drop_eq_getElem_cons (by omega), List.drop_eq_nil_of_le (by omega)]
    rw [List.getElem?_eq_getElem (by omega)] at hlast
    rw [Option.some.inj hlast]
  let m0 : Aquifer ℝ := { L'.model with wells := L'.model.wells.take a.wells.length }
  have hm : L'.model = m0.withIdle x y r := by
    show L'.model = { L'.model with wells := L'.model.wells.take a.wells.length ++ [⟨x, y, r, 0⟩] }
    rw [← hsplit]
  have hne0 : m0.wells ≠ [] := by
    intro e
    have := congrArg List.length e
    simp only [m0, List.length_take, List.length_nil, hlen] at this
    have := List.length_pos_iff.mpr hne
    omega
  have S : Realized { a with npaths := 0 } la t q coefs interrupt { L with traces := [] } :=
    { R with traces_length := rfl, traces := fun k tr h => by simp at h }
  have S' : Realized { a with npaths := 0 } la t q coefs interrupt { L' with model := m0, traces := [] } :=
    { base := R'.base
      wells_length := by simp [m0, hlen]
      wells := fun j w h => by
        have hj : j < a.wells.length := by
          by_contra hj
          have h : a.wells[j]? = some w := h
          rw [List.getElem?_eq_none (not_lt.mp hj)] at h
          simp at h
        obtain ⟨d, h1, h2⟩ := R'.wells j w (by simp only; rw [List.getElem?_append_left hj]; exact h)
        refine ⟨d, ?_, by rw [← hq _ _ hj]; exact h2⟩
        simp only [m0]
        rw [List.getElem?_take, if_pos hj]
        exact h1
      conductivity := by
        have := R'.conductivity
        simp only [List.length_append, List.length_cons, List.length_nil] at this
        rw [zero_add, hq' _ _ le_rfl] at this
        exact this
      porosity := by
        have := R'.porosity
        simp only [List.length_append, List.length_cons, List.length_nil] at this
        rw [zero_add, hq' _ _ (by omega)] at this
        exact this
      thickness := by
        have := R'.thickness
        simp only [List.length_append, List.length_cons, List.length_nil] at this
        rw [zero_add, show a.wells.length + 1 + 2 = a.wells.length + 2 + 1 by omega, hq' _ _ (by omega)] at this
        exact this
      origin := R'.origin
      fit := by
        have := R'.fit
        rw [hm, Aquifer.idle_fit m0 hne0 ho] at this
        exact this
      coef := R'.coef
      traces_length := rfl
      traces := fun k tr h => by simp at h }
  obtain ⟨h1, h2, h3, -⟩ := realized_unique (fun _ _ _ => rfl) S S'
  refine ⟨?_, h2.symm, h3.symm⟩
  rw [hm]
  exact congrArg (fun m : Aquifer ℝ => m.withIdle x y r) h1.symm

end Oneka
