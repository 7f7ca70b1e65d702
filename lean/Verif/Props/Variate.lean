import Verif.Lemmas.PropsVariate

/-!
# C41–C43: distributions

A number object `v` has the value `v.num`. A call of `generate_random_variate` sees one draw `u` with `0 ≤ u < 1`.
-/

namespace Oneka

namespace Variate

end Variate

open Variate

/-! ## C41 -/

/-- C41: every draw from a distribution on `[lo, hi]` returns a number in `[lo, hi]`; a scalar is returned unchanged. -/
theorem C41_in_range {arg : PyVal} {lo hi : ℝ} (h : IsDist arg lo hi) {u : ℝ} (hu : 0 ≤ u) (hu1 : u < 1) :
    ∃ v x, generateRandomVariate arg u = .ok v ∧ v.num = some (.fin x) ∧ lo ≤ x ∧ x ≤ hi ∧
      ((∀ l, arg ≠ .tuple l) → v = arg) := by
  cases h with
  | scalar v c h => exact ⟨arg, lo, gen_scalar h u, h, le_rfl, le_rfl, fun _ => rfl⟩
  | pair a b x y ha hb hxy =>
    refine ⟨_, _, gen_pair ha hb u, rfl, ?_, ?_, fun h => absurd rfl (h _)⟩ <;> nlinarith
  | triple a m b x c y ha hm hb h1 h2 h3 =>
    obtain ⟨t1, t2⟩ := tri_mem h1 h2 h3 u
    exact ⟨_, _, gen_triple ha hm hb h1 h2 h3 hu hu1, rfl, t1, t2, fun h => absurd rfl (h _)⟩

/-- C41: … hence within the bounds given to `isdistribution`. -/
theorem C41_bounds {arg : PyVal} {lo hi : ℝ} (h : IsDist arg lo hi) {lb ub : XR} (ha : isdistribution arg lb ub = .ok true)
    {u : ℝ} (hu : 0 ≤ u) (hu1 : u < 1) :
    ∃ v x, generateRandomVariate arg u = .ok v ∧ v.num = some (.fin x) ∧ lb ≤ .fin x ∧ .fin x ≤ ub := by
  obtain ⟨v, x, h1, h2, h3, h4, -⟩ := C41_in_range h hu hu1
  refine ⟨v, x, h1, h2, ?_⟩
  have trans1 : ∀ {a : XR} {b c : ℝ}, a ≤ .fin b → b ≤ c → a ≤ .fin c := by
    intro a b c hab hbc
    cases a with
    | fin a => exact le_trans (show a ≤ b from hab) hbc
    | ninf => trivial
    | pinf => exact hab.elim
    | nan => exact hab.elim
  have trans2 : ∀ {a : XR} {b c : ℝ}, .fin b ≤ a → c ≤ b → .fin c ≤ a := by
    intro a b c hab hbc
    cases a with
    | fin a => exact le_trans hbc (show b ≤ a from hab)
    | pinf => trivial
    | ninf => exact hab.elim
    | nan => exact hab.elim
  suffices lb ≤ .fin lo ∧ .fin hi ≤ ub from ⟨trans1 this.1 h3, trans2 this.2 h4⟩
  cases h with
  | scalar v c hc =>
    have : arg.isInt || arg.isFloat := by cases arg <;> first | rfl | simp [PyVal.num] at hc
    unfold isdistribution at ha
    rw [if_pos this, chainLe_num (show PyVal.num (.float lb) = _ from rfl) hc,
      chainLe_num hc (show PyVal.num (.float ub) = _ from rfl)] at ha
    exact ⟨ha.1, ha.2.1⟩
  | pair a b x y hx hy _ =>
    have e : isdistribution (.tuple [a, b]) lb ub = PyVal.chainLe [.float lb, a, b, .float ub] := rfl
    rw [e, chainLe_num (show PyVal.num (.float lb) = _ from rfl) hx, chainLe_num hx hy,
      chainLe_num hy (show PyVal.num (.float ub) = _ from rfl)] at ha
    exact ⟨ha.1, ha.2.2.1⟩
  | triple a m b x c y hx hm hy _ _ _ =>
    have e : isdistribution (.tuple [a, m, b]) lb ub = PyVal.chainLe [.float lb, a, m, b, .float ub] := rfl
    rw [e, chainLe_num (show PyVal.num (.float lb) = _ from rfl) hx, chainLe_num hx hm, chainLe_num hm hy,
      chainLe_num hy (show PyVal.num (.float ub) = _ from rfl)] at ha
    exact ⟨ha.1, ha.2.2.2.1⟩

/-- a triangular porosity with integer and float entries -/
example : IsDist (.tuple [.float (.fin 0.1), .float (.fin 0.2), .int 1]) 0.1 1 ∧
    isdistribution (.tuple [.float (.fin 0.1), .float (.fin 0.2), .int 1]) (.fin 0) (.fin 1) = .ok true := by
  constructor
  · exact .triple _ _ _ 0.1 0.2 1 rfl rfl (by simp [PyVal.num]) (by norm_num) (by norm_num) (by norm_num)
  · have e : isdistribution (.tuple [.float (.fin 0.1), .float (.fin 0.2), .int 1]) (.fin 0) (.fin 1) =
      PyVal.chainLe [.float (.fin 0), .float (.fin 0.1), .float (.fin 0.2), .int 1, .float (.fin 1)] := rfl
    rw [e]
    have one : PyVal.num (.int 1) = some (.fin 1) := by simp [PyVal.num]
    rw [chainLe_num (x := .fin 0) (y := .fin 0.1) rfl rfl, chainLe_num (x := .fin 0.1) (y := .fin 0.2) rfl rfl,
      chainLe_num (x := .fin 0.2) (y := .fin 1) rfl one, chainLe_num (x := .fin 1) (y := .fin 1) one rfl]
    refine ⟨?_, ?_, ?_, ?_, rfl⟩ <;> rw [XR.fin_le] <;> norm_num

/-! ## C42 -/

/-- C42: `compute_variate_mean` is the expected value of `generate_random_variate` (for `u` uniform on `[0,1)`) and lies between the bounds. Example: the distribution after C41. -/
theorem C42_mean {arg : PyVal} {lo hi : ℝ} (h : IsDist arg lo hi) :
    ∃ v μ, computeVariateMean arg = .ok v ∧ v.num = some (.fin μ) ∧ lo ≤ μ ∧ μ ≤ hi ∧
    ∃ g : ℝ → ℝ, (∀ u, 0 ≤ u → u < 1 → ∃ w, generateRandomVariate arg u = .ok w ∧ w.num = some (.fin (g u))) ∧
      IntervalIntegrable g MeasureTheory.volume 0 1 ∧ ∫ u in (0:ℝ)..1, g u = μ := by
  cases h with
  | scalar v c h =>
    refine ⟨arg, lo, ?_, h, le_rfl, le_rfl, fun _ => lo, fun u _ _ => ⟨arg, gen_scalar h u, h⟩, by simp, by simp⟩
    cases arg <;> first | rfl | simp [PyVal.num] at h
  | pair a b x y ha hb hxy =>
    refine ⟨.float (.fin ((lo + hi) / 2)), (lo + hi) / 2, ?_, rfl, by linarith, by linarith, fun u => lo + (hi - lo) * u,
      fun u _ _ => ⟨_, gen_pair ha hb u, rfl⟩, (by fun_prop : Continuous fun u : ℝ => lo + (hi - lo) * u).intervalIntegrable _ _, ?_⟩
    · simp only [computeVariateMean, ha, hb, XR.fin_add, XR.fin_div _ _ (two_ne_zero' ℝ)]
    · rw [intervalIntegral.integral_add (by simp)
        ((by fun_prop : Continuous fun u : ℝ => (hi - lo) * u).intervalIntegrable _ _), intervalIntegral.integral_const_mul]
      simp
      ring
  | triple a m b x c y ha hm hb h1 h2 h3 =>
    obtain ⟨i1, i2⟩ := integral_tri h1 h2 h3
    refine ⟨.float (.fin ((lo + c + hi) / 3)), (lo + c + hi) / 3, ?_, rfl, by linarith, by linarith, tri lo c hi,
      fun u hu hu1 => ⟨_, gen_triple ha hm hb h1 h2 h3 hu hu1, rfl⟩, i1, i2⟩
    simp only [computeVariateMean, ha, hm, hb, XR.fin_add, XR.fin_div _ _ (three_ne_zero : (3:ℝ) ≠ 0)]

/-! ## C43 -/

/-- C43, the part that holds: an accepted distribution that is not a list, has only finite entries and is not a triple of three equal numbers, can be sampled with every draw and has a mean; all of these
are numbers in its range, and its range is within the bounds. Missing: lists, infinite entries and constant triples, for which the claim is false (next theorems). -/
theorem C43_accepted_partial {arg : PyVal} {lb ub : XR} (h : isdistribution arg lb ub = .ok true) (hl : ∀ l, arg ≠ .list l)
    (hf : AllFinite arg) (hd : ∀ a m b x, arg = .tuple [a, m, b] → ¬ (a.num = some x ∧ b.num = some x)) :
    ∃ lo hi, IsDist arg lo hi ∧ lb ≤ .fin lo ∧ .fin hi ≤ ub ∧
      (∀ u, 0 ≤ u → u < 1 → ∃ v x, generateRandomVariate arg u = .ok v ∧ v.num = some (.fin x) ∧ lo ≤ x ∧ x ≤ hi) ∧
      ∃ v μ, computeVariateMean arg = .ok v ∧ v.num = some (.fin μ) ∧ lo ≤ μ ∧ μ ≤ hi := by
  obtain ⟨lo, hi, hD, h1, h2⟩ := accepted_isDist h hl hf hd
  refine ⟨lo, hi, hD, h1, h2, fun u hu hu1 => ?_, ?_⟩
  · obtain ⟨v, x, g1, g2, g3, g4, -⟩ := C41_in_range hD hu hu1
    exact ⟨v, x, g1, g2, g3, g4⟩
  · obtain ⟨v, μ, g1, g2, g3, g4, -⟩ := C42_mean hD
    exact ⟨v, μ, g1, g2, g3, g4⟩

/-- C43 fails for lists: `[a, b]` with `lb ≤ a ≤ b ≤ ub` is accepted, but sampling and the mean return the list itself, which is no number. -/
theorem C43_fails_for_lists (a b lb ub : ℝ) (h1 : lb ≤ a) (h2 : a ≤ b) (h3 : b ≤ ub) :
    let arg := PyVal.list [.float (.fin a), .float (.fin b)]
    isdistribution arg (.fin lb) (.fin ub) = .ok true ∧ (∀ u, generateRandomVariate arg u = .ok arg) ∧
      computeVariateMean arg = .ok arg ∧ arg.num = none := by
  refine ⟨?_, fun u => rfl, rfl, rfl⟩
  show PyVal.chainLe [.float (.fin lb), .float (.fin a), .float (.fin b), .float (.fin ub)] = .ok true
  rw [chainLe_num (x := .fin lb) (y := .fin a) rfl rfl, chainLe_num (x := .fin a) (y := .fin b) rfl rfl,
    chainLe_num (x := .fin b) (y := .fin ub) rfl rfl]
  exact ⟨h1, h2, h3, rfl⟩

/-- C43 fails for constant triples: `(a, a, a)` is accepted, but sampling always raises ValueError. -/
theorem C43_fails_for_constant_triples (a lb ub : ℝ) (h1 : lb ≤ a) (h2 : a ≤ ub) :
    let arg := PyVal.tuple [.float (.fin a), .float (.fin a), .float (.fin a)]
    isdistribution arg (.fin lb) (.fin ub) = .ok true ∧ (∀ u, generateRandomVariate arg u = .error .valueError) := by
  refine ⟨?_, fun u => ?_⟩
  · show PyVal.chainLe [.float (.fin lb), .float (.fin a), .float (.fin a), .float (.fin a), .float (.fin ub)] = .ok true
    rw [chainLe_num (x := .fin lb) (y := .fin a) rfl rfl, chainLe_num (x := .fin a) (y := .fin a) rfl rfl,
      chainLe_num (x := .fin a) (y := .fin a) rfl rfl, chainLe_num (x := .fin a) (y := .fin ub) rfl rfl]
    exact ⟨h1, le_refl a, le_refl a, h2, rfl⟩
  · simp only [generateRandomVariate, npTriangular, PyVal.num, XR.fin_lt, XR.fin_le, lt_irrefl, if_false, le_refl, and_self, if_true]

/-- C43 fails for infinite bounds: with upper bound `inf` (as for conductivity and thickness) `(a, inf)` is accepted, but sampling raises OverflowError;
and `(a, m, inf)` is accepted, but sampling returns NaN. -/
theorem C43_fails_for_infinite_bounds (a m lb : ℝ) (h1 : lb ≤ a) (h2 : a ≤ m) :
    (isdistribution (.tuple [.float (.fin a), .float .pinf]) (.fin lb) .pinf = .ok true ∧
      ∀ u, generateRandomVariate (.tuple [.float (.fin a), .float .pinf]) u = .error .overflowError) ∧
    (isdistribution (.tuple [.float (.fin a), .float (.fin m), .float .pinf]) (.fin lb) .pinf = .ok true ∧
      ∀ u, 0 ≤ u → u < 1 → generateRandomVariate (.tuple [.float (.fin a), .float (.fin m), .float .pinf]) u = .ok (.float .nan)) := by
  refine ⟨⟨?_, fun u => rfl⟩, ?_, fun u hu hu1 => ?_⟩
  · show PyVal.chainLe [.float (.fin lb), .float (.fin a), .float .pinf, .float .pinf] = .ok true
    rw [chainLe_num (x := .fin lb) (y := .fin a) rfl rfl, chainLe_num (x := .fin a) (y := .pinf) rfl rfl,
      chainLe_num (x := .pinf) (y := .pinf) rfl rfl]
    exact ⟨h1, trivial, trivial, rfl⟩
  · show PyVal.chainLe [.float (.fin lb), .float (.fin a), .float (.fin m), .float .pinf, .float .pinf] = .ok true
    rw [chainLe_num (x := .fin lb) (y := .fin a) rfl rfl, chainLe_num (x := .fin a) (y := .fin m) rfl rfl,
      chainLe_num (x := .fin m) (y := .pinf) rfl rfl, chainLe_num (x := .pinf) (y := .pinf) rfl rfl]
    exact ⟨h1, h2, trivial, trivial, rfl⟩
  · simp only [generateRandomVariate, npTriangular, PyVal.num, XR.fin_lt, if_neg (not_lt.mpr h2)]
    have n1 : ¬ (XR.pinf < XR.fin m) := fun h => h
    have n2 : ¬ (XR.fin a ≤ XR.pinf ∧ XR.pinf ≤ XR.fin a) := fun h => h.2
    rw [if_neg n1, if_neg n2]
    have eb : XR.pinf - XR.fin a = .pinf := rfl
    have em : XR.pinf - XR.fin m = .pinf := rfl
    have er : (XR.fin m - XR.fin a) / XR.pinf = .fin 0 := by rw [XR.fin_sub]; rfl
    rw [eb, em, er]
    have hp : PyMath.sqrt XR.pinf = .pinf := rfl
    rcases hu.eq_or_lt with h | h
    · rw [← h]
      rw [if_pos (show XR.fin 0 ≤ XR.fin 0 from le_refl (0:ℝ))]
      rw [XR.fin_sub]
      have : XR.fin 0 * (XR.fin (m - a) * .pinf) = .nan := by
        show XR.mul (.fin 0) (XR.infOf (m - a)) = .nan
        unfold XR.infOf
        split_ifs <;> simp [XR.mul, XR.infOf]
      rw [this]
      rfl
    · rw [if_neg (show ¬ XR.fin u ≤ XR.fin 0 from not_le.mpr h)]
      have : (XR.fin 1 - XR.fin u) * (XR.pinf * XR.pinf) = .pinf := by
        rw [XR.fin_sub]
        show XR.infOf (1 - u) = .pinf
        unfold XR.infOf
        rw [if_pos (by linarith)]
      rw [this, hp]
      rfl

example : (0:ℝ) ≤ 1 ∧ (1:ℝ) ≤ 10 := ⟨zero_le_one, by norm_num⟩

end Oneka
