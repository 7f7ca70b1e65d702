import Verif.Spec.Turn
import Verif.Lemmas.Ratio
import Verif.Lemmas.ShiftCompute

/-!
# A model with other axes
-/

namespace Oneka

namespace XR

theorem neg_pinf : -pinf = ninf := rfl
theorem neg_ninf : -ninf = pinf := rfl

theorem neg_infOf (a : ℝ) : -infOf a = infOf (-a) := by
  unfold infOf
  rcases lt_trichotomy a 0 with h | h | h
  · rw [if_neg (by linarith), if_pos h, if_pos (by linarith)]; rfl
  · subst h; simp
  · rw [if_pos h, if_neg (by linarith), if_pos (by linarith)]; rfl

theorem turn_neg_neg (x : XR) : - -x = x := by cases x <;> first | rfl | (simp)

theorem turn_add_comm (x y : XR) : x + y = y + x := by
  cases x <;> cases y <;> first | rfl | (simp [add_comm])

theorem turn_add_assoc (x y z : XR) : x + y + z = x + (y + z) := by
  cases x <;> cases y <;> cases z <;> first | rfl | (simp [add_assoc])

theorem turn_neg_add (x y : XR) : -x + -y = -(x + y) := by
  cases x <;> cases y <;> first | rfl | (simp [add_comm])

theorem turn_mul_comm (x y : XR) : x * y = y * x := by
  cases x <;> cases y <;> first | rfl | (simp [mul_comm])

theorem turn_neg_mul (x y : XR) : -x * y = -(x * y) := by
  cases x with
  | fin a =>
    cases y with
    | fin b => simp
    | pinf => exact (neg_infOf a).symm
    | ninf => exact (neg_infOf (-a)).symm
    | nan => simp
  | pinf =>
    cases y with
    | fin b => exact (neg_infOf b).symm
    | _ => rfl
  | ninf =>
    cases y with
    | fin b =>
      refine Eq.trans ?_ (neg_infOf (-b)).symm
      rw [neg_neg]
      rfl
    | _ => rfl
  | nan => simp

theorem turn_mul_neg (x y : XR) : x * -y = -(x * y) := by rw [turn_mul_comm, turn_neg_mul, turn_mul_comm]

theorem turn_neg_div (x y : XR) : -x / y = -(x / y) := by
  cases x with
  | fin a =>
    cases y with
    | fin b =>
      by_cases hb : b = 0
      · subst hb
        have e : ∀ c : ℝ, fin c / fin 0 = infOf c := fun c => if_pos rfl
        rw [fin_neg, e, e, neg_infOf]
      · rw [fin_neg, fin_div _ _ hb, fin_div _ _ hb, fin_neg, neg_div]
    | pinf => exact congrArg fin neg_zero.symm
    | ninf => exact congrArg fin neg_zero.symm
    | nan => simp
  | pinf =>
    cases y with
    | fin b =>
      show (if b < 0 then pinf else ninf) = -(if b < 0 then ninf else pinf)
      split_ifs <;> rfl
    | _ => rfl
  | ninf =>
    cases y with
    | fin b =>
      show (if b < 0 then ninf else pinf) = -(if b < 0 then pinf else ninf)
      split_ifs <;> rfl
    | _ => rfl
  | nan => simp

theorem turn_sub_neg (x y : XR) : -x - -y = -(x - y) := turn_neg_add x (-y)

theorem turn_sub_fin (x : XR) (a : ℝ) : -x - fin (-a) = -(x - fin a) := turn_sub_neg x (fin a)

theorem turn_neg_sq (x : XR) : -x * -x = x * x := by rw [turn_neg_mul, turn_mul_neg, turn_neg_neg]

theorem infOf_mul_fin (a b : ℝ) : infOf a * fin b = infOf (a * b) := by
  unfold infOf
  rcases lt_trichotomy a 0 with h | h | h
  · rw [if_neg (by linarith), if_pos h]
    show infOf (-b) = _
    unfold infOf
    have h1 : 0 < a * b ↔ 0 < -b := ⟨fun h2 => by by_contra h3; nlinarith, fun h2 => by nlinarith⟩
    have h2 : a * b < 0 ↔ -b < 0 := ⟨fun h2 => by by_contra h3; nlinarith, fun h2 => by nlinarith⟩
    simp only [h1, h2]
  · subst h; simp
  · rw [if_pos h]
    show infOf b = _
    unfold infOf
    have h1 : 0 < a * b ↔ 0 < b := ⟨fun h2 => by by_contra h3; nlinarith, fun h2 => by nlinarith⟩
    have h2 : a * b < 0 ↔ b < 0 := ⟨fun h2 => by by_contra h3; nlinarith, fun h2 => by nlinarith⟩
    simp only [h1, h2]

theorem infOf_mul_pinf (a : ℝ) : infOf a * pinf = infOf a := by
  unfold infOf
  split_ifs <;> rfl

theorem infOf_mul_ninf (a : ℝ) : infOf a * ninf = infOf (-a) := by
  rw [show ninf = -pinf from rfl, turn_mul_neg, infOf_mul_pinf, neg_infOf]

theorem turn_mul_right_comm (c : ℝ) (x y : XR) : fin c * x * y = fin c * y * x := by
  cases x with
  | fin a =>
    cases y with
    | fin b => simp only [fin_mul]; congr 1; ring
    | pinf => exact (infOf_mul_fin c a).symm
    | ninf =>
      refine Eq.trans ?_ (infOf_mul_fin (-c) a).symm
      rw [neg_mul]
      rfl
    | nan => simp
  | pinf =>
    cases y with
    | fin b => exact infOf_mul_fin c b
    | pinf => rfl
    | ninf =>
      exact (infOf_mul_ninf c).trans (infOf_mul_pinf (-c)).symm
    | nan => simp
  | ninf =>
    cases y with
    | fin b =>
      refine (infOf_mul_fin (-c) b).trans ?_
      rw [neg_mul]
      rfl
    | pinf => exact (infOf_mul_pinf (-c)).trans (infOf_mul_ninf c).symm
    | ninf => rfl
    | nan => simp
  | nan => simp

theorem turn_abs_neg (x : XR) : (PyMath.abs (-x) : XR) = PyMath.abs x := by
  cases x with
  | fin a => exact congrArg fin (abs_neg a)
  | _ => rfl

theorem turn_fmax_comm (x y : XR) : (PyMath.fmax x y : XR) = PyMath.fmax y x := by
  cases x <;> cases y <;> first | rfl | exact congrArg fin (max_comm _ _)

end XR

open XR

variable {σ : Turn}

namespace Turn

theorem pt_back (p : XR × XR) : σ.pt (σ.pt p) = p := by
  cases σ <;> simp [pt, turn_neg_neg]

theorem ptR_back (p : ℝ × ℝ) : σ.pt (σ.pt p) = p := by
  cases σ <;> simp [pt]

theorem pt_fin (p : ℝ × ℝ) : σ.pt (XR.fin p.1, XR.fin p.2) = (.fin (σ.pt p).1, .fin (σ.pt p).2) := by
  cases σ <;> rfl

theorem pt_add (p q : XR × XR) : σ.pt p + σ.pt q = σ.pt (p + q) := by
  cases σ
  · exact Prod.ext rfl (turn_neg_add _ _)
  · rfl

theorem pt_sub (p q : XR × XR) : σ.pt p - σ.pt q = σ.pt (p - q) := by
  cases σ
  · exact Prod.ext rfl (turn_sub_neg _ _)
  · rfl

theorem pt_sc (c : XR) (p : XR × XR) : sc c (σ.pt p) = σ.pt (sc c p) := by
  cases σ
  · exact Prod.ext rfl (turn_mul_neg _ _)
  · rfl

theorem pt_scq (c : ℚ) (p : XR × XR) : scq c (σ.pt p) = σ.pt (scq c p) := pt_sc _ _

theorem pt_normInf (p : XR × XR) : normInf (σ.pt p) = normInf p := by
  cases σ
  · simp only [normInf, pt, turn_abs_neg]
  · exact turn_fmax_comm _ _

theorem pt_norm2 (p : XR × XR) : norm2 (σ.pt p) = norm2 p := by
  cases σ
  · simp only [norm2, pt, turn_neg_sq]
  · simp only [norm2, pt]
    rw [turn_add_comm]

theorem index_back (i : Fin 6) : σ.index (σ.index i) = i := by
  cases σ
  · rfl
  · fin_cases i <;> rfl

theorem sign_back (i : Fin 6) : σ.sign i * σ.sign (σ.index i) = 1 := by
  cases σ
  · fin_cases i <;> simp [sign, index]
  · simp [sign]

theorem coef_back (c : Fin 6 → ℝ) : σ.coef (σ.coef c) = c := by
  funext i
  simp only [coef]
  rw [← mul_assoc, sign_back, index_back, one_mul]

theorem cov_back (c : Matrix (Fin 6) (Fin 6) ℝ) : σ.cov (σ.cov c) = c := by
  funext i j
  simp only [cov, index_back]
  have h1 := sign_back (σ := σ) i
  have h2 := sign_back (σ := σ) j
  calc _ = (σ.sign i * σ.sign (σ.index i)) * (σ.sign j * σ.sign (σ.index j)) * c i j := by ring
    _ = _ := by rw [h1, h2]; ring

theorem start_back {n : ℕ} (hf : σ.Fits n) {k : ℕ} (hk : k < n) : σ.start n (σ.start n k) = k := by
  cases σ
  · simp only [start]
    rcases Nat.eq_zero_or_pos k with rfl | h
    · simp
    · rw [Nat.mod_eq_of_lt (by omega : n - k < n), Nat.mod_eq_of_lt (by omega)]; omega
  · obtain ⟨m, rfl⟩ : 4 ∣ n := Int.natCast_dvd_natCast.mp hf
    simp only [start]
    rw [show 4 * m / 4 = m by omega]
    by_cases h : k ≤ m
    · rw [show 4 * m + m - k = (m - k) + 4 * m by omega, Nat.add_mod_right, Nat.mod_eq_of_lt (by omega : m - k < 4 * m),
        show 4 * m + m - (m - k) = k + 4 * m by omega, Nat.add_mod_right, Nat.mod_eq_of_lt hk]
    · rw [Nat.mod_eq_of_lt (by omega : 4 * m + m - k < 4 * m), show 4 * m + m - (4 * m + m - k) = k by omega, Nat.mod_eq_of_lt hk]

theorem start_lt {n : ℕ} {k : ℕ} (hk : k < n) : σ.start n k < n := by
  cases σ <;> exact Nat.mod_lt _ (by omega)

/-- the starting points -/
theorem start_pt {n : ℕ} (hf : σ.Fits n) {k : ℕ} (hk : k < n) (x y r : ℝ) :
    σ.pt (x + r * Real.cos (2 * Real.pi * (σ.start n k : ℕ) / n), y + r * Real.sin (2 * Real.pi * (σ.start n k : ℕ) / n)) =
      ((σ.pt (x, y)).1 + r * Real.cos (2 * Real.pi * k / n), (σ.pt (x, y)).2 + r * Real.sin (2 * Real.pi * k / n)) := by
  have hn : (n : ℝ) ≠ 0 := by
    have : n ≠ 0 := by omega
    exact_mod_cast this
  cases σ
  · have key : ∃ z : ℤ, 2 * Real.pi * (Turn.mirror.start n k : ℕ) / n = -(2 * Real.pi * k / n) + z * (2 * Real.pi) := by
      simp only [start]
      rcases Nat.eq_zero_or_pos k with rfl | h
      · exact ⟨0, by simp⟩
      · refine ⟨1, ?_⟩
        rw [Nat.mod_eq_of_lt (by omega : n - k < n), Nat.cast_sub hk.le]
        field_simp
        push_cast
        ring
    obtain ⟨z, e⟩ := key
    simp only [pt, e, Real.cos_add_int_mul_two_pi, Real.sin_add_int_mul_two_pi, Real.cos_neg, Real.sin_neg]
    refine Prod.ext rfl ?_
    simp only
    ring
  · obtain ⟨m, rfl⟩ : 4 ∣ n := Int.natCast_dvd_natCast.mp hf
    have key : ∃ z : ℤ, 2 * Real.pi * (Turn.swap.start (4 * m) k : ℕ) / (4 * m : ℕ) = (Real.pi / 2 - 2 * Real.pi * k / (4 * m : ℕ)) + z * (2 * Real.pi) := by
      have hm : (m : ℝ) ≠ 0 := by
        push_cast at hn
        simpa using hn
      simp only [start]
      rw [show 4 * m / 4 = m by omega]
      by_cases h : k ≤ m
      · refine ⟨0, ?_⟩
        rw [show 4 * m + m - k = (m - k) + 4 * m by omega, Nat.add_mod_right, Nat.mod_eq_of_lt (by omega : m - k < 4 * m), Nat.cast_sub h]
        push_cast
        field_simp
        ring
      · refine ⟨1, ?_⟩
        rw [Nat.mod_eq_of_lt (by omega : 4 * m + m - k < 4 * m), Nat.cast_sub (by omega)]
        push_cast
        field_simp
        ring
    obtain ⟨z, e⟩ := key
    simp only [pt, e, Real.cos_add_int_mul_two_pi, Real.sin_add_int_mul_two_pi, Real.cos_pi_div_two_sub, Real.sin_pi_div_two_sub]

end Turn

/-! ## Model -/

theorem potentialWells_turn (m : Aquifer ℝ) (p : XR × XR) : (m.turn σ).toX.potentialWells (σ.pt p).1 (σ.pt p).2 = m.toX.potentialWells p.1 p.2 := by
  unfold Aquifer.potentialWells
  simp only [Aquifer.toX, Aquifer.turn, List.foldl_map]
  refine congrArg (fun f => List.foldl f (PyMath.q 0 : XR) m.wells) ?_
  funext a w
  cases σ
  · simp only [Well.turn, Turn.pt, turn_sub_fin, turn_neg_sq]
  · simp only [Well.turn, Turn.pt]
    rw [turn_add_comm ((p.2 - _) * _)]

theorem potential_turn (m : Aquifer ℝ) (p : XR × XR) : (m.turn σ).toX.potential (σ.pt p).1 (σ.pt p).2 = m.toX.potential p.1 p.2 := by
  unfold Aquifer.potential
  rw [potentialWells_turn]
  refine congrArg (· + m.toX.potentialWells p.1 p.2) ?_
  cases σ
  · simp only [Aquifer.toX, Aquifer.turn, Turn.pt, turn_sub_fin, turn_neg_sq, Turn.coef, Turn.sign, Turn.index, id]
    simp [← fin_neg, turn_mul_neg, turn_neg_mul, turn_neg_neg]
  · simp only [Aquifer.toX, Aquifer.turn, Turn.pt, Turn.coef, Turn.sign, Turn.index, one_mul]
    show XR.fin (m.coef 1) * ((p.2 - .fin m.yo) * (p.2 - .fin m.yo)) + .fin (m.coef 0) * ((p.1 - .fin m.xo) * (p.1 - .fin m.xo)) +
      .fin (m.coef 2) * (p.2 - .fin m.yo) * (p.1 - .fin m.xo) + .fin (m.coef 4) * (p.2 - .fin m.yo) + .fin (m.coef 3) * (p.1 - .fin m.xo) + .fin (m.coef 5) = _
    rw [turn_mul_right_comm, turn_add_comm (XR.fin (m.coef 1) * _), turn_add_assoc _ (XR.fin (m.coef 4) * _), turn_add_comm (XR.fin (m.coef 4) * _), ← turn_add_assoc]

theorem foldl_turn {α β : Type} {f f' : β → α → β} {s : β → β} (l : List α) (b b' : β) (hb : b' = s b) (h : ∀ b a, f' (s b) a = s (f b a)) : l.foldl f' b' = s (l.foldl f b) := by
  subst hb
  induction l generalizing b with
  | nil => rfl
  | cons a l ih => simp only [List.foldl_cons, h, ih]

theorem discharge_turn (m : Aquifer ℝ) (p : XR × XR) : (m.turn σ).toX.discharge (σ.pt p).1 (σ.pt p).2 = σ.pt (m.toX.discharge p.1 p.2) := by
  unfold Aquifer.discharge
  simp only [Aquifer.toX, Aquifer.turn, List.foldl_map]
  refine foldl_turn (s := σ.pt) m.wells _ _ ?_ fun b w => ?_
  · cases σ
    · simp only [Turn.pt, turn_sub_fin, Turn.coef, Turn.sign, Turn.index, id]
      simp [← fin_neg, turn_mul_neg, turn_neg_mul, turn_neg_neg, turn_neg_add]
    · simp only [Turn.pt, Turn.coef, Turn.sign, Turn.index, one_mul]
      rfl
  · cases σ
    · simp only [Well.turn, Turn.pt, turn_sub_fin, turn_mul_neg, turn_neg_div, turn_neg_mul, turn_neg_neg]
      rw [← turn_neg_add b.2, turn_neg_neg]
    · simp only [Well.turn, Turn.pt]
      rw [turn_add_comm ((p.2 - _) * _)]

theorem head_turn (m : Aquifer ℝ) (p : XR × XR) : (m.turn σ).toX.head (σ.pt p).1 (σ.pt p).2 = m.toX.head p.1 p.2 := by
  unfold Aquifer.head
  rw [potential_turn]
  rfl

theorem velocityConfined_turn (m : Aquifer ℝ) (p : XR × XR) : (m.turn σ).toX.velocityConfined (σ.pt p).1 (σ.pt p).2 = σ.pt (m.toX.velocityConfined p.1 p.2) := by
  unfold Aquifer.velocityConfined
  rw [discharge_turn]
  cases σ
  · exact Prod.ext rfl (turn_neg_div _ _)
  · rfl

theorem velocity_turn (m : Aquifer ℝ) (p : XR × XR) : (m.turn σ).toX.velocity (σ.pt p).1 (σ.pt p).2 = (m.toX.velocity p.1 p.2).map σ.pt := by
  unfold Aquifer.velocity
  rw [discharge_turn, head_turn]
  cases m.toX.head p.1 p.2 with
  | error e => rfl
  | ok hd =>
    simp only [show (m.turn σ).toX.thickness = m.toX.thickness from rfl, show (m.turn σ).toX.porosity = m.toX.porosity from rfl]
    split_ifs
    · rfl
    · cases σ
      · exact congrArg Except.ok (Prod.ext rfl (turn_neg_div _ _))
      · rfl
    · cases σ
      · exact congrArg Except.ok (Prod.ext rfl (turn_neg_div _ _))
      · rfl

theorem backVelocity_turn (m : Aquifer ℝ) (c : Bool) (p : XR × XR) : (m.turn σ).toX.backVelocity c (σ.pt p) = (m.toX.backVelocity c p).map σ.pt := by
  unfold Aquifer.backVelocity
  have hn : ∀ q : XR × XR, (-(σ.pt q).1, -(σ.pt q).2) = σ.pt (-q.1, -q.2) := by
    intro q
    cases σ <;> rfl
  split_ifs
  · simp only [velocityConfined_turn, hn, Except.map]
  · simp only [velocity_turn]
    cases m.toX.velocity p.1 p.2 with
    | error e => rfl
    | ok V => simp only [Except.map, hn]

/-! ## Traces -/

/-- the velocity function `g` is `f` with the other axes -/
def Veers (σ : Turn) (f g : ℕ → XR × XR → Except PyErr (XR × XR)) : Prop := ∀ n p, g n (σ.pt p) = (f n p).map σ.pt

theorem Veers.back {f g : ℕ → XR × XR → Except PyErr (XR × XR)} (h : Veers σ f g) : Veers σ g f := by
  intro n p
  have := h n (σ.pt p)
  rw [Turn.pt_back] at this
  rw [this]
  cases f n (σ.pt p) with
  | error e => rfl
  | ok v => simp only [Except.map, Turn.pt_back]

theorem trial_turn {f g : ℕ → XR × XR → Except PyErr (XR × XR)} (h : Veers σ f g) (n : ℕ) (xy k1 : XR × XR) (dt : XR) :
    trial g n (σ.pt xy) (σ.pt k1) dt = (trial f n xy k1 dt).map fun r => (σ.pt r.1, σ.pt r.2.1, r.2.2) := by
  unfold trial
  simp only [bind, Except.bind, Turn.pt_scq, Turn.pt_sc, Turn.pt_add, h _ _]
  cases f n (xy + sc dt (scq (1/5) k1)) with
  | error e => rfl
  | ok k2 =>
    simp only [Except.map, Turn.pt_scq, Turn.pt_sc, Turn.pt_add, h _ _]
    generalize f (n+1) _ = a3
    cases a3 with
    | error e => rfl
    | ok k3 =>
      simp only [Except.map, Turn.pt_scq, Turn.pt_sc, Turn.pt_add, h _ _]
      generalize f (n+2) _ = a4
      cases a4 with
      | error e => rfl
      | ok k4 =>
        simp only [Except.map, Turn.pt_scq, Turn.pt_sc, Turn.pt_add, h _ _]
        generalize f (n+3) _ = a5
        cases a5 with
        | error e => rfl
        | ok k5 =>
          simp only [Except.map, Turn.pt_scq, Turn.pt_sc, Turn.pt_add, h _ _]
          generalize f (n+4) _ = a6
          cases a6 with
          | error e => rfl
          | ok k6 =>
            simp only [Except.map, Turn.pt_scq, Turn.pt_sc, Turn.pt_add, h _ _]
            generalize f (n+5) _ = a7
            cases a7 with
            | error e => rfl
            | ok k7 =>
              simp only [Except.map, Turn.pt_scq, Turn.pt_sc, Turn.pt_add, Turn.pt_sub, Turn.pt_normInf, Turn.pt_norm2]
              rfl

theorem Trace.turn_back (r : Trace XR) : (r.turn σ).turn σ = r := by
  cases r
  simp only [Trace.turn, List.map_map, Function.comp_def, Turn.pt_back, List.map_id']

theorem traceLoop_turn_some {f g : ℕ → XR × XR → Except PyErr (XR × XR)} (h : Veers σ f g) (D tol M : XR) (t dt : XR) (xy k1 : XR × XR) (n : ℕ) (vs : List (XR × XR)) (ss : List (Accepted XR)) (r : Trace XR)
    (hr : traceLoop D tol M f t dt xy k1 n vs ss = some r) :
    traceLoop D tol M g t dt (σ.pt xy) (σ.pt k1) n (vs.map σ.pt) (ss.map fun a => { a with vertex := σ.pt a.vertex }) = some (r.turn σ) := by
  refine traceLoop.partial_correctness D tol M f
    (fun t dt xy k1 n vs ss r => traceLoop D tol M g t dt (σ.pt xy) (σ.pt k1) n (vs.map σ.pt) (ss.map fun a => { a with vertex := σ.pt a.vertex }) = some (r.turn σ)) ?_ t dt xy k1 n vs ss r hr
  intro loop ih t dt xy k1 n vs ss r hr
  rw [traceLoop]
  rw [trial_turn h]
  split_ifs at hr ⊢ with c
  · cases e : trial f n xy k1 (clipDt D t dt) with
    | error x =>
      rw [e] at hr
      cases hr
      rfl
    | ok o =>
      obtain ⟨xyt, k2, est, ds⟩ := o
      rw [e] at hr
      simp only [Except.map] at hr ⊢
      split_ifs at hr ⊢ with c2
      · have := ih _ _ _ _ _ _ _ _ hr
        simpa only [List.map_append, List.map_cons, List.map_nil] using this
      · exact ih _ _ _ _ _ _ _ _ hr
  · cases hr
    rfl

theorem backtrace_turn_some {f g : ℕ → XR × XR → Except PyErr (XR × XR)} (h : Veers σ f g) (D tol M : XR) (p : XR × XR) (r : Trace XR) (hr : computeBacktrace p.1 p.2 D tol M f = some r) :
    computeBacktrace (σ.pt p).1 (σ.pt p).2 D tol M g = some (r.turn σ) := by
  unfold computeBacktrace at hr ⊢
  rw [show g 0 ((σ.pt p).1, (σ.pt p).2) = (f 0 (p.1, p.2)).map σ.pt from h 0 p]
  cases e : f 0 (p.1, p.2) with
  | error x =>
    rw [e] at hr
    cases hr
    rfl
  | ok k1 =>
    rw [e] at hr
    exact traceLoop_turn_some h D tol M _ _ p k1 1 [p] [] r hr

theorem backtrace_turn {f g : ℕ → XR × XR → Except PyErr (XR × XR)} (h : Veers σ f g) (D tol M : XR) (p : XR × XR) :
    computeBacktrace (σ.pt p).1 (σ.pt p).2 D tol M g = (computeBacktrace p.1 p.2 D tol M f).map (Trace.turn σ) := by
  cases e : computeBacktrace p.1 p.2 D tol M f with
  | some r => exact backtrace_turn_some h D tol M p r e
  | none =>
    cases e' : computeBacktrace (σ.pt p).1 (σ.pt p).2 D tol M g with
    | none => rfl
    | some r =>
      have := backtrace_turn_some h.back D tol M _ r e'
      rw [Turn.pt_back, e] at this
      cases this

/-! ## Fit -/

theorem fitRow_turn (m : Aquifer ℝ) (xo yo : ℝ) (o : Obs) : (m.turn σ).fitRow (σ.pt (xo, yo)).1 (σ.pt (xo, yo)).2 (o.turn σ) =
    (m.fitRow xo yo o).map fun r => (fun i => .fin (σ.sign i) * r.1 (σ.index i), r.2) := by
  unfold Aquifer.fitRow
  rw [show (m.turn σ).fosm (o.turn σ) = m.fosm o from rfl]
  cases m.fosm o with
  | error e => rfl
  | ok r =>
    obtain ⟨p, s⟩ := r
    have e1 : (m.turn σ).wells.isEmpty = m.wells.isEmpty := by simp [Aquifer.turn]
    have e2 : (m.turn σ).toX.potentialWells (.fin (o.turn σ).x) (.fin (o.turn σ).y) = m.toX.potentialWells (.fin o.x) (.fin o.y) := by
      rw [← potentialWells_turn (σ := σ) m (.fin o.x, .fin o.y), Turn.pt_fin (o.x, o.y)]
      rfl
    simp only [e1, e2]
    split_ifs
    · rfl
    · simp only [Except.map]
      congr 2
      funext i
      have hx : ∀ x : XR, XR.fin 1 * x = x := by
        intro x
        have := XR.scale_cancel (μ := 1) one_pos
        cases x with
        | fin a => simp
        | pinf => exact fin_mul_pinf one_pos
        | ninf => exact fin_mul_ninf one_pos
        | nan => simp
      cases σ
      · have hm : ∀ x : XR, XR.fin (-1) * x = -x := by
          intro x
          rw [← fin_neg, turn_neg_mul, hx]
        fin_cases i <;> simp [Turn.sign, Turn.index, Turn.pt, Obs.turn, hx, hm, ← turn_neg_div] <;> congr 2 <;> ring
      · fin_cases i <;> simp [Turn.sign, Turn.index, Turn.pt, Obs.turn, hx, mul_comm]

theorem constructFit_turn (m : Aquifer ℝ) (xo yo : ℝ) (obs : List Obs) :
    (m.turn σ).constructFit (σ.pt (xo, yo)).1 (σ.pt (xo, yo)).2 (obs.map (Obs.turn σ)) =
      (m.constructFit xo yo obs).map (List.map fun r => (fun i => .fin (σ.sign i) * r.1 (σ.index i), r.2)) := by
  induction obs with
  | nil => rfl
  | cons o os ih =>
    simp only [List.map_cons, Aquifer.constructFit, fitRow_turn, ih]
    cases m.fitRow xo yo o with
    | error e => rfl
    | ok r =>
      simp only [Except.map]
      cases m.constructFit xo yo os <;> rfl

theorem sign_ne (i : Fin 6) : σ.sign i ≠ 0 := by
  intro h
  have := Turn.sign_back (σ := σ) i
  rw [h, zero_mul] at this
  exact zero_ne_one this

theorem isFin_turn {c : ℝ} (hc : c ≠ 0) (x : XR) : (XR.fin c * x).IsFin ↔ x.IsFin := by
  cases x with
  | fin a => simp [XR.IsFin]
  | pinf =>
    show (infOf c).IsFin ↔ _
    unfold infOf
    split_ifs <;> rfl
  | ninf =>
    show (infOf (-c)).IsFin ↔ _
    unfold infOf
    split_ifs <;> rfl
  | nan => simp

theorem finPart_turn (r : (Fin 6 → XR) × XR) : Aquifer.finPart (fun i => .fin (σ.sign i) * r.1 (σ.index i), r.2) =
    (Aquifer.finPart r).map fun p => (fun i => σ.sign i * p.1 (σ.index i), p.2) := by
  have e : NonFinite (fun i => .fin (σ.sign i) * r.1 (σ.index i), r.2) ↔ NonFinite r := by
    unfold NonFinite
    simp only [isFin_turn (sign_ne _)]
    refine or_congr ⟨?_, ?_⟩ Iff.rfl
    · rintro ⟨i, hi⟩; exact ⟨σ.index i, hi⟩
    · rintro ⟨i, hi⟩; exact ⟨σ.index i, by rw [Turn.index_back]; exact hi⟩
  unfold Aquifer.finPart
  by_cases hn : NonFinite r
  · rw [if_pos hn, if_pos (e.mpr hn)]
    rfl
  · rw [if_neg hn, if_neg (fun h => hn (e.mp h))]
    simp only [Option.map_some, Option.some.injEq, Prod.mk.injEq, and_true]
    funext i
    unfold NonFinite at hn
    push Not at hn
    rw [← Aquifer.isFin_val (hn.1 (σ.index i))]
    rfl

theorem fitSys_turn (m : Aquifer ℝ) (xo yo : ℝ) (obs : List Obs) :
    (m.turn σ).fitSys (σ.pt (xo, yo)).1 (σ.pt (xo, yo)).2 (obs.map (Obs.turn σ)) = (m.fitSys xo yo obs).map fun s => (σ.cov s.1, σ.coef s.2) := by
  induction obs with
  | nil =>
    simp only [List.map_nil, Aquifer.fitSys, Option.map_some, Option.some.injEq]
    refine Prod.ext ?_ ?_
    · funext i j; simp [Turn.cov]
    · funext i; simp [Turn.coef]
  | cons o os ih =>
    simp only [List.map_cons, Aquifer.fitSys, fitRow_turn, ih]
    cases m.fitRow xo yo o with
    | error e => rfl
    | ok r =>
      simp only [Except.map, Except.toOption, Option.bind_some, finPart_turn]
      cases Aquifer.finPart r with
      | none => rfl
      | some p =>
        simp only [Option.map_some, Option.bind_some]
        cases m.fitSys xo yo os with
        | none => rfl
        | some s =>
          simp only [Option.map_some, Option.bind_some, Option.some.injEq]
          refine Prod.ext ?_ ?_
          · funext i j
            simp only [Turn.cov]
            ring
          · funext i
            simp only [Turn.coef]
            ring

theorem index_bij : Function.Bijective σ.index := Function.Involutive.bijective fun i => Turn.index_back i

theorem cov_mulVec (G : Matrix (Fin 6) (Fin 6) ℝ) (b : Fin 6 → ℝ) : (σ.cov G).mulVec (σ.coef b) = σ.coef (G.mulVec b) := by
  funext i
  simp only [Matrix.mulVec, dotProduct, Turn.cov, Turn.coef, Finset.mul_sum]
  rw [← Function.Bijective.sum_comp (index_bij (σ := σ)) (fun j => σ.sign i * (G (σ.index i) j * b j))]
  refine Finset.sum_congr rfl fun j _ => ?_
  have h : σ.sign j * σ.sign j = 1 := by
    cases σ
    · fin_cases j <;> simp [Turn.sign]
    · simp [Turn.sign]
  calc _ = (σ.sign j * σ.sign j) * (σ.sign i * (G (σ.index i) (σ.index j) * b (σ.index j))) := by ring
    _ = _ := by rw [h, one_mul]

theorem cov_mul (G H : Matrix (Fin 6) (Fin 6) ℝ) : σ.cov G * σ.cov H = σ.cov (G * H) := by
  funext i k
  simp only [Matrix.mul_apply, Turn.cov, Finset.mul_sum]
  rw [← Function.Bijective.sum_comp (index_bij (σ := σ)) (fun j => σ.sign i * σ.sign k * (G (σ.index i) j * H j (σ.index k)))]
  refine Finset.sum_congr rfl fun j _ => ?_
  have h : σ.sign j * σ.sign j = 1 := by
    cases σ
    · fin_cases j <;> simp [Turn.sign]
    · simp [Turn.sign]
  calc _ = (σ.sign j * σ.sign j) * (σ.sign i * σ.sign k * (G (σ.index i) (σ.index j) * H (σ.index j) (σ.index k))) := by ring
    _ = _ := by rw [h, one_mul]

theorem cov_one : σ.cov (1 : Matrix (Fin 6) (Fin 6) ℝ) = 1 := by
  funext i j
  simp only [Turn.cov, Matrix.one_apply]
  by_cases h : i = j
  · subst h
    rw [if_pos rfl, if_pos rfl, mul_one]
    cases σ
    · fin_cases i <;> simp [Turn.sign]
    · simp [Turn.sign]
  · rw [if_neg h, if_neg fun e => h (index_bij.1 e), mul_zero]

theorem cov_det (G : Matrix (Fin 6) (Fin 6) ℝ) : (σ.cov G).det = 0 ↔ G.det = 0 := by
  have key : ∀ G : Matrix (Fin 6) (Fin 6) ℝ, G.det ≠ 0 → (σ.cov G).det ≠ 0 := by
    intro G hG h0
    have h1 : σ.cov G * σ.cov G⁻¹ = 1 := by rw [cov_mul, Matrix.mul_nonsing_inv _ (isUnit_iff_ne_zero.mpr hG), cov_one]
    have h2 := congrArg Matrix.det h1
    rw [Matrix.det_mul, h0, zero_mul, Matrix.det_one] at h2
    exact zero_ne_one h2
  constructor
  · intro h
    by_contra hG
    exact key G hG h
  · intro h
    by_contra hG
    have := key _ hG
    rw [Turn.cov_back] at this
    exact this h

theorem fit_turn_option {la : LinAlg} (hla : la.Correct) (hc : la.Converges) (hs : la.Strict) (m : Aquifer ℝ) (obs : List Obs) (xo yo : ℝ) :
    ((m.turn σ).fitRegionalFlow la (obs.map (Obs.turn σ)) (σ.pt (xo, yo)).1 (σ.pt (xo, yo)).2).2.toOption =
      (m.fitRegionalFlow la obs xo yo).2.toOption.map fun r => (σ.coef r.1, σ.cov r.2) := by
  rw [Aquifer.fit_determined hla hc hs, Aquifer.fit_determined hla hc hs, fitSys_turn]
  cases m.fitSys xo yo obs with
  | none => rfl
  | some s =>
    obtain ⟨G, b⟩ := s
    simp only [Option.map_some, Option.bind_some]
    by_cases h0 : G.det = 0
    · rw [if_pos h0, if_pos (cov_det G |>.mpr h0)]
      rfl
    · rw [if_neg h0, if_neg (fun h => h0 ((cov_det G).mp h))]
      have hi : (σ.cov G)⁻¹ = σ.cov G⁻¹ := by
        refine Matrix.inv_eq_right_inv ?_
        rw [cov_mul, Matrix.mul_nonsing_inv _ (isUnit_iff_ne_zero.mpr h0), cov_one]
      rw [hi, cov_mulVec]
      rfl

theorem fit_turn {la : LinAlg} (hla : la.Correct) (hc : la.Converges) (hs : la.Strict) (m : Aquifer ℝ) (obs : List Obs) (xo yo : ℝ) :
    (m.turn σ).fitRegionalFlow la (obs.map (Obs.turn σ)) (σ.pt (xo, yo)).1 (σ.pt (xo, yo)).2 =
      ((m.fitRegionalFlow la obs xo yo).1.turn σ, (m.fitRegionalFlow la obs xo yo).2.map fun r => (σ.coef r.1, σ.cov r.2)) := by
  have ho := fit_turn_option (σ := σ) hla hc hs m obs xo yo
  unfold Aquifer.fitRegionalFlow at ho ⊢
  rw [constructFit_turn] at ho ⊢
  revert ho
  cases m.constructFit xo yo obs with
  | error e => exact fun _ => rfl
  | ok rows =>
    intro ho
    simp only [Except.map] at ho ⊢
    cases h1 : Aquifer.computeFit la rows with
    | error e =>
      rw [h1] at ho
      cases h2 : Aquifer.computeFit la (rows.map fun r => (fun i => .fin (σ.sign i) * r.1 (σ.index i), r.2)) with
      | error e' =>
        obtain rfl := computeFit_err hla h1
        obtain rfl := computeFit_err hla h2
        rfl
      | ok r =>
        rw [h2] at ho
        simp [Except.toOption] at ho
    | ok r =>
      rw [h1] at ho
      cases h2 : Aquifer.computeFit la (rows.map fun r => (fun i => .fin (σ.sign i) * r.1 (σ.index i), r.2)) with
      | error e' =>
        rw [h2] at ho
        simp [Except.toOption] at ho
      | ok r' =>
        rw [h2] at ho
        simp only [Except.toOption, Option.map_some] at ho
        obtain ⟨ev, cov⟩ := r'
        obtain ⟨rfl, rfl⟩ := Prod.mk.inj (Option.some.inj ho)
        rfl

/-! ## Filter -/

theorem hypot_turn (p q : ℝ × ℝ) : hypot ((σ.pt p).1 - (σ.pt q).1) ((σ.pt p).2 - (σ.pt q).2) = hypot (p.1 - q.1) (p.2 - q.2) := by
  unfold hypot
  cases σ <;> simp only [Turn.pt] <;> congr 1 <;> ring

theorem awayFromWells_turn (b : ℝ) (o : Obs) (ws : List (ℝ × ℝ)) : awayFromWells b (o.turn σ) (ws.map σ.pt) = awayFromWells b o ws := by
  induction ws with
  | nil => rfl
  | cons w ws ih =>
    simp only [List.map_cons, awayFromWells, ih]
    rw [show hypot ((o.turn σ).x - (σ.pt w).1) ((o.turn σ).y - (σ.pt w).2) = hypot (o.x - w.1) (o.y - w.2) from hypot_turn (o.x, o.y) w]

theorem removeNear_turn (b : ℝ) (ws : List (ℝ × ℝ)) (l : List Obs) : removeNear b (ws.map σ.pt) (l.map (Obs.turn σ)) = (removeNear b ws l).map (Obs.turn σ) := by
  induction l with
  | nil => rfl
  | cons o l ih =>
    simp only [List.map_cons, removeNear, ih, awayFromWells_turn]
    split_ifs <;> rfl

theorem accumulate_turn (l : List Obs) (a b : ℝ) : accumulate (l.map (Obs.turn σ)) a b = accumulate l a b := by
  induction l generalizing a b with
  | nil => rfl
  | cons o l ih => simp only [List.map_cons, accumulate, ih, show (o.turn σ).std = o.std from rfl, show (o.turn σ).z = o.z from rfl]

theorem mergeGroup_turn (o : Obs) (l : List Obs) : mergeGroup (o.turn σ) (l.map (Obs.turn σ)) = (mergeGroup o l).map (Obs.turn σ) := by
  unfold mergeGroup
  rw [← List.map_cons, accumulate_turn]
  by_cases h : l = []
  · subst h
    simp [Except.map]
  · have h' : l.map (Obs.turn σ) ≠ [] := by simpa using h
    rw [if_neg h, if_neg h']
    cases accumulate (o :: l) 0 0 <;> rfl

theorem close_turn (o : Obs) : (fun p : Obs => decide (hypot ((o.turn σ).x - p.x) ((o.turn σ).y - p.y) < 1)) ∘ Obs.turn σ = fun p => decide (hypot (o.x - p.x) (o.y - p.y) < 1) := by
  funext p
  simp only [Function.comp_apply]
  rw [show hypot ((o.turn σ).x - (p.turn σ).x) ((o.turn σ).y - (p.turn σ).y) = hypot (o.x - p.x) (o.y - p.y) from hypot_turn (o.x, o.y) (p.x, p.y)]

theorem mergeRuns_turn : ∀ (n : ℕ) (l : List Obs), l.length ≤ n → mergeRuns (l.map (Obs.turn σ)) = (mergeRuns l).map (List.map (Obs.turn σ))
  | _, [], _ => by simp [mergeRuns, Except.map]
  | 0, _ :: _, h => by simp at h
  | n + 1, o :: l, h => by
    rw [List.map_cons, mergeRuns, mergeRuns, List.takeWhile_map, List.dropWhile_map, close_turn, mergeGroup_turn]
    have hl : (l.dropWhile fun p => decide (hypot (o.x - p.x) (o.y - p.y) < 1)).length ≤ n :=
      ((List.dropWhile_suffix _).length_le).trans (Nat.le_of_succ_le_succ h)
    rw [mergeRuns_turn n _ hl]
    cases mergeGroup o (l.takeWhile fun p => decide (hypot (o.x - p.x) (o.y - p.y) < 1)) with
    | error e => rfl
    | ok r =>
      simp only [Except.map]
      cases mergeRuns (l.dropWhile fun p => decide (hypot (o.x - p.x) (o.y - p.y) < 1)) <;> rfl

theorem filterObs_turn (l : List Obs) (ws : List (ℝ × ℝ)) (b : ℝ) : filterObs (l.map (Obs.turn σ)) (ws.map σ.pt) b = (filterObs l ws b).map (List.map (Obs.turn σ)) := by
  unfold filterObs
  rw [removeNear_turn, mergeRuns_turn _ _ le_rfl]

end Oneka
