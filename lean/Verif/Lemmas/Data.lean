import Verif.Spec.Data
import Verif.Spec.Oneka
import Verif.Spec.Aquifer
import Verif.Lemmas.Utilities
import Mathlib.Data.Rat.Cast.CharZero
import Mathlib.Algebra.Order.Field.Rat
import Mathlib.Algebra.BigOperators.Fin
import Mathlib.Tactic.Push

/-!
# Checking a data module by rational arithmetic

`DataSet.Good` is decidable (it computes with rational numbers) and implies what the theorems about calls require of the arguments.
-/

namespace Oneka

/-! ## Checks -/

/-- one, two or three numbers in ascending order; a triple has different ends -/
def LitDist.ascending : LitDist → Bool
  | .num _ => true
  | .tup [a, b] => a.val ≤ b.val
  | .tup [a, m, b] => a.val ≤ m.val && m.val ≤ b.val && a.val < b.val
  | _ => false

def LitDist.nums : LitDist → List ℚ
  | .num l => [l.val]
  | .tup l => l.map Lit.val

/-- ascending, positive, at most `ub` -/
def LitDist.within (d : LitDist) (ub : Option ℚ) : Bool :=
  d.ascending && d.nums.all fun x => decide (0 < x) && ub.all fun u => decide (x ≤ u)

/-- no observation is within a metre of its predecessor -/
def separate : List LitObs → Bool
  | a :: b :: l => decide (1 ≤ (a.x.val - b.x.val) ^ 2 + (a.y.val - b.y.val) ^ 2) && separate (b :: l)
  | _ => true

/-- the six terms of a conic -/
def terms (x y : ℚ) : Fin 6 → ℚ := ![x ^ 2, y ^ 2, x * y, x, y, 1]

/-- six locations, and the inverse of the matrix of their terms -/
structure Certificate where
  points : Fin 6 → ℚ × ℚ
  inverse : Fin 6 → Fin 6 → ℚ

def Certificate.valid (c : Certificate) (kept : List LitObs) : Bool :=
  decide (∀ i, kept.any fun o => o.x.val == (c.points i).1 && o.y.val == (c.points i).2) &&
  decide (∀ k j, ∑ i, c.inverse k i * terms (c.points i).1 (c.points i).2 j = if j = k then 1 else 0)

def DataSet.good (d : DataSet) (c : Certificate) : Bool :=
  decide (0 ≤ d.target) && decide (d.target < d.wells.length) && decide (0 < d.npaths) && decide (d.duration.val ≠ 0) &&
  d.cDist.within none && d.pDist.within (some 1) && d.tDist.within none &&
  (d.wells.all fun w => decide (0 < w.rw.val) && w.q.ascending) &&
  (d.observations.all fun o => decide (0 < o.std.val)) &&
  decide (0 < d.buffer.val) && decide (0 < d.spacing.val) && decide (0 < d.umbra.val) && decide (0 < d.smooth.val) && decide (0 < d.tol.val) &&
  decide (0 < d.maxstep.val) &&
  decide (7 ≤ d.kept.length) && (d.kept.all fun o => decide (d.base.val < o.z.val)) && separate d.kept && c.valid d.kept

/-! ## Soundness -/

theorem Lit.py_num (l : Lit) : l.py.num = some (.fin (l.val : ℝ)) := by
  cases l <;> simp [Lit.py, Lit.val, PyVal.num]

theorem LitDist.py_means (d : LitDist) : d.py.Means d.dist := by
  cases d with
  | num l => exact l.py_num
  | tup l =>
    refine ⟨_, rfl, ?_⟩
    rw [List.forall₂_map_left_iff, List.forall₂_map_right_iff, List.forall₂_same]
    exact fun x _ => x.py_num

theorem LitDist.py_distIn {d : LitDist} (h : d.ascending = true) {lb ub : XR} (hlb : ∀ x ∈ d.nums, lb ≤ .fin (x:ℝ)) (hub : ∀ x ∈ d.nums, .fin (x:ℝ) ≤ ub) :
    d.py.DistIn lb ub := by
  match d, h with
  | .num l, _ => exact .inl ⟨_, l.py_num, hlb _ (by simp [nums]), hub _ (by simp [nums])⟩
  | .tup [a, b], h =>
    refine .inr (.inl ⟨_, _, _, _, .inl rfl, a.py_num, b.py_num, hlb _ (by simp [nums]), ?_, hub _ (by simp [nums])⟩)
    rw [XR.fin_le]
    simpa [ascending] using h
  | .tup [a, m, b], h =>
    simp only [ascending, Bool.and_eq_true, decide_eq_true_eq] at h
    refine .inr (.inr ⟨_, _, _, _, _, _, .inl rfl, a.py_num, m.py_num, b.py_num, hlb _ (by simp [nums]), ?_, ?_, hub _ (by simp [nums])⟩)
    · rw [XR.fin_le]; exact_mod_cast h.1.1
    · rw [XR.fin_le]; exact_mod_cast h.1.2

theorem LitDist.within_spec {d : LitDist} {ub : Option ℚ} (h : d.within ub = true) :
    d.ascending = true ∧ (∀ x ∈ d.nums, 0 < x) ∧ ∀ u ∈ ub, ∀ x ∈ d.nums, x ≤ u := by
  simp only [within, Bool.and_eq_true, List.all_eq_true, decide_eq_true_eq] at h
  refine ⟨h.1, fun x hx => (h.2 x hx).1, fun u hu x hx => ?_⟩
  have := (h.2 x hx).2
  rw [Option.mem_def.mp hu] at this
  simpa using this

theorem LitDist.pos {d : LitDist} (h : ∀ x ∈ d.nums, 0 < x) : d.dist.Pos := by
  cases d with
  | num l =>
    show (0:ℝ) < l.val
    exact_mod_cast h _ (by simp [nums])
  | tup l =>
    intro x hx
    obtain ⟨a, ha, rfl⟩ := List.mem_map.mp hx
    exact_mod_cast h _ (List.mem_map.mpr ⟨a, ha, rfl⟩)

theorem LitDist.spread {d : LitDist} (h : d.ascending = true) : ¬ d.dist.Pointlike := by
  rintro ⟨x, m, hd⟩
  match d, h with
  | .num l, _ => simp [dist] at hd
  | .tup [a, b], h => simp [dist] at hd
  | .tup [a, c, b], h =>
    simp only [ascending, Bool.and_eq_true, decide_eq_true_eq] at h
    simp only [dist, List.map_cons, List.map_nil, Dist.tuple.injEq, List.cons.injEq, and_true] at hd
    have h1 : (a.val : ℝ) = b.val := hd.1.trans hd.2.2.symm
    have h2 : a.val = b.val := by exact_mod_cast h1
    exact absurd h.2 (by rw [h2]; exact lt_irrefl _)

theorem sq_dist_lt {B x y u v : ℚ} (hB : 0 < B) : (B:ℝ) < Real.sqrt (((x:ℝ) - u) ^ 2 + ((y:ℝ) - v) ^ 2) ↔ B ^ 2 < (x - u) ^ 2 + (y - v) ^ 2 := by
  rw [Real.lt_sqrt (by exact_mod_cast hB.le)]
  exact_mod_cast Iff.rfl

theorem separate_chain : ∀ l : List LitObs, separate l = true → (l.map LitObs.obs).IsChain fun a b => 1 ≤ a.dist b.x b.y
  | [], _ => .nil
  | [a], _ => .singleton _
  | a :: b :: l, h => by
    simp only [separate, Bool.and_eq_true, decide_eq_true_eq] at h
    refine .cons_cons ?_ (separate_chain (b :: l) h.2)
    unfold Obs.dist
    rw [Real.le_sqrt' one_pos]
    have := h.1
    simp only [LitObs.obs, one_pow]
    exact_mod_cast this

theorem Certificate.general {c : Certificate} {l : List LitObs} (h : c.valid l = true) : ¬ OnOneConic (l.map LitObs.obs) := by
  simp only [Certificate.valid, Bool.and_eq_true, decide_eq_true_eq, List.any_eq_true, beq_iff_eq] at h
  obtain ⟨hp, hi⟩ := h
  rintro ⟨q, hq, hc⟩
  apply hq
  have zero : ∀ i, ∑ j, q j * (terms (c.points i).1 (c.points i).2 j : ℝ) = 0 := by
    intro i
    obtain ⟨o, ho, hx, hy⟩ := hp i
    have := hc _ (List.mem_map.mpr ⟨o, ho, rfl⟩)
    rw [← this, Fin.sum_univ_six, ← hx, ← hy]
    simp only [terms, conic, LitObs.obs]
    simp
    ring
  funext k
  have h1 : ∀ j, (∑ i, (c.inverse k i : ℝ) * (terms (c.points i).1 (c.points i).2 j : ℝ)) = if j = k then 1 else 0 := by
    intro j
    have := congrArg (Rat.cast (K := ℝ)) (hi k j)
    rw [Rat.cast_sum] at this
    simp only [Rat.cast_mul] at this
    rw [this]
    split <;> simp
  calc q k = ∑ j, q j * (if j = k then 1 else 0) := by simp
    _ = ∑ j, q j * ∑ i, (c.inverse k i : ℝ) * (terms (c.points i).1 (c.points i).2 j : ℝ) := by simp only [h1]
    _ = ∑ i, (c.inverse k i : ℝ) * ∑ j, q j * (terms (c.points i).1 (c.points i).2 j : ℝ) := by
      simp only [Finset.mul_sum]
      rw [Finset.sum_comm]
      exact Finset.sum_congr rfl fun i _ => Finset.sum_congr rfl fun j _ => by ring
    _ = 0 := by simp [zero]

section
variable {d : DataSet} {c : Certificate} (h : d.good c = true)
include h

theorem DataSet.good_spec :
    0 ≤ d.target ∧ d.target < d.wells.length ∧ 0 < d.npaths ∧ d.duration.val ≠ 0 ∧ d.cDist.within none = true ∧ d.pDist.within (some 1) = true ∧
    d.tDist.within none = true ∧ (∀ w ∈ d.wells, 0 < w.rw.val ∧ w.q.ascending = true) ∧ (∀ o ∈ d.observations, 0 < o.std.val) ∧ 0 < d.buffer.val ∧
    0 < d.spacing.val ∧ 0 < d.umbra.val ∧ 0 < d.smooth.val ∧ 0 < d.tol.val ∧ 0 < d.maxstep.val ∧ 7 ≤ d.kept.length ∧ (∀ o ∈ d.kept, d.base.val < o.z.val) ∧
    separate d.kept = true ∧ c.valid d.kept = true := by
  simpa only [DataSet.good, Bool.and_eq_true, decide_eq_true_eq, List.all_eq_true, and_assoc] using h

theorem DataSet.acceptable (runtime : String) : Acceptable (d.args runtime) := by
  obtain ⟨h1, h2, h3, h4, h5, h6, h7, h8, h9, h10, h11, h12, h13, h14, h15, h16, -⟩ := d.good_spec h
  have pos : ∀ l : Lit, 0 < l.val → l.py.NumberWith fun x => .fin 0 < x := fun l hl => ⟨_, l.py_num, (XR.fin_lt _ _).mpr (by exact_mod_cast hl)⟩
  have dist : ∀ (D : LitDist), D.within none = true → D.py.DistIn (.fin 0) .pinf := by
    intro D hD
    obtain ⟨q1, q2, -⟩ := LitDist.within_spec hD
    exact LitDist.py_distIn q1 (fun x hx => (XR.fin_le _ _).mpr (by exact_mod_cast (q2 x hx).le)) fun x _ => trivial
  exact {
    projectname := ⟨_, rfl⟩
    runtime := ⟨_, rfl⟩
    wells := by
      refine ⟨_, rfl, ?_, d.target, .inl rfl, h1, by simpa using h2⟩
      intro v hv
      obtain ⟨w, hw, rfl⟩ := List.mem_map.mp hv
      exact ⟨_, _, _, _, .inl rfl, ⟨_, w.xw.py_num, trivial⟩, ⟨_, w.yw.py_num, trivial⟩, pos _ (h8 w hw).1,
        LitDist.py_distIn (h8 w hw).2 (fun _ _ => trivial) fun _ _ => trivial⟩
    npaths := .inl ⟨_, rfl, h3⟩
    duration := ⟨_, d.duration.py_num, by simpa using h4⟩
    base := ⟨_, d.base.py_num, trivial⟩
    cDist := dist _ h5
    pDist := by
      obtain ⟨q1, q2, q3⟩ := LitDist.within_spec h6
      exact LitDist.py_distIn q1 (fun x hx => (XR.fin_le _ _).mpr (by exact_mod_cast (q2 x hx).le))
        fun x hx => (XR.fin_le _ _).mpr (by exact_mod_cast q3 1 rfl x hx)
    tDist := dist _ h7
    observations := by
      refine ⟨_, rfl, ?_, ?_⟩
      · rw [List.length_map]
        exact h16.trans (List.length_filter_le _ _)
      · intro v hv
        obtain ⟨o, ho, rfl⟩ := List.mem_map.mp hv
        exact ⟨_, _, _, _, .inl rfl, ⟨_, o.x.py_num, trivial⟩, ⟨_, o.y.py_num, trivial⟩, ⟨_, o.z.py_num, trivial⟩,
          ⟨_, o.std.py_num, (XR.fin_le _ _).mpr (by exact_mod_cast (h9 o ho).le)⟩⟩
    buffer := pos _ h10
    spacing := pos _ h11
    umbra := pos _ h12
    smooth := pos _ h13
    confined := ⟨_, rfl⟩
    tol := pos _ h14
    maxstep := pos _ h15 }

theorem DataSet.regular : d.inputs.Regular := by
  obtain ⟨-, -, -, -, h5, -, h7, -, h9, -⟩ := d.good_spec h
  refine ⟨LitDist.pos (LitDist.within_spec h5).2.1, LitDist.pos (LitDist.within_spec h7).2.1, ?_⟩
  intro o ho
  obtain ⟨o', ho', rfl⟩ := List.mem_map.mp ho
  show (0:ℝ) < o'.std.val
  exact_mod_cast h9 o' ho'

theorem DataSet.spread : d.inputs.Spread := by
  obtain ⟨-, -, -, -, h5, h6, h7, h8, -⟩ := d.good_spec h
  refine ⟨LitDist.spread (LitDist.within_spec h5).1, LitDist.spread (LitDist.within_spec h6).1, LitDist.spread (LitDist.within_spec h7).1, ?_⟩
  intro w hw
  obtain ⟨w', hw', rfl⟩ := List.mem_map.mp hw
  exact LitDist.spread (h8 w' hw').2

theorem DataSet.retained : filterObs d.inputs.run.obs (d.inputs.run.wells.map fun w => (w.xw, w.yw)) d.inputs.buffer = .ok (d.kept.map LitObs.obs) := by
  obtain ⟨-, -, -, -, -, -, -, -, -, h10, -, -, -, -, -, -, -, h18, -⟩ := d.good_spec h
  unfold filterObs
  have : removeNear d.inputs.buffer (d.inputs.run.wells.map fun w => (w.xw, w.yw)) d.inputs.run.obs = d.kept.map LitObs.obs := by
    classical
    rw [removeNear_eq]
    simp only [DataSet.inputs, DataSet.kept, List.filter_map, List.map_map]
    congr 1
    apply List.filter_congr
    intro o _
    rw [Bool.eq_iff_iff]
    simp only [Function.comp_apply, decide_eq_true_eq, List.all_eq_true, List.mem_map]
    constructor
    · intro H w hw
      have := H _ ⟨w, hw, rfl⟩
      exact (sq_dist_lt h10).mp this
    · rintro H _ ⟨w, hw, rfl⟩
      exact (sq_dist_lt h10).mpr (H w hw)
  rw [this]
  exact mergeRuns_chain _ (separate_chain _ h18)

end

theorem DataSet.denotes (d : DataSet) (runtime : String) : (d.args runtime).Denotes d.inputs where
  target := .inl rfl
  npaths := .inl rfl
  duration := d.duration.py_num
  nrealizations := .inl rfl
  base := d.base.py_num
  cDist := d.cDist.py_means
  pDist := d.pDist.py_means
  tDist := d.tDist.py_means
  wells := by
    refine ⟨_, rfl, ?_⟩
    rw [show d.inputs.run.wells = d.wells.map LitWell.well from rfl, List.forall₂_map_left_iff, List.forall₂_map_right_iff, List.forall₂_same]
    exact fun w _ => ⟨_, _, _, _, .inl rfl, w.xw.py_num, w.yw.py_num, w.rw.py_num, w.q.py_means⟩
  observations := by
    refine ⟨_, rfl, ?_⟩
    rw [show d.inputs.run.obs = d.observations.map LitObs.obs from rfl, List.forall₂_map_left_iff, List.forall₂_map_right_iff, List.forall₂_same]
    exact fun o _ => ⟨_, _, _, _, .inl rfl, o.x.py_num, o.y.py_num, o.z.py_num, o.std.py_num⟩
  buffer := d.buffer.py_num
  spacing := d.spacing.py_num
  umbra := d.umbra.py_num
  smooth := d.smooth.py_num
  confined := rfl
  tol := d.tol.py_num
  maxstep := d.maxstep.py_num

end Oneka
