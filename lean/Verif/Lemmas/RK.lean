import Verif.Spec.RK
import Verif.Lemmas.Trace
import Mathlib.Tactic.Module

namespace Oneka
variable {V : Type} [AddCommGroup V] [Module ℝ V]

theorem sc_real (c : ℝ) (v : ℝ × ℝ) : sc c v = c • v := rfl
theorem scq_real (c : ℚ) (v : ℝ × ℝ) : scq c v = (c : ℝ) • v := rfl

/-- The seven stages written out. -/
structure DPStages (f : V → V) (h : ℝ) (y : V) (k1 k2 k3 k4 k5 k6 k7 : V) : Prop where
  h1 : k1 = f y
  h2 : k2 = f (y + h • ((1/5 : ℝ) • k1))
  h3 : k3 = f (y + h • ((3/40 : ℝ) • k1 + (9/40 : ℝ) • k2))
  h4 : k4 = f (y + h • ((44/45 : ℝ) • k1 + (-56/15 : ℝ) • k2 + (32/9 : ℝ) • k3))
  h5 : k5 = f (y + h • ((19372/6561 : ℝ) • k1 + (-25360/2187 : ℝ) • k2 + (64448/6561 : ℝ) • k3
    + (-212/729 : ℝ) • k4))
  h6 : k6 = f (y + h • ((9017/3168 : ℝ) • k1 + (-355/33 : ℝ) • k2 + (46732/5247 : ℝ) • k3
    + (49/176 : ℝ) • k4 + (-5103/18656 : ℝ) • k5))
  h7 : k7 = f (y + h • ((35/384 : ℝ) • k1 + (500/1113 : ℝ) • k3 + (125/192 : ℝ) • k4 + (-2187/6784 : ℝ) • k5
    + (11/84 : ℝ) • k6))

theorem dp_stages (f : V → V) (h : ℝ) (y : V) {k1 k2 k3 k4 k5 k6 k7 : V}
    (H : DPStages f h y k1 k2 k3 k4 k5 k6 k7) : stages f dpA h y = [k1, k2, k3, k4, k5, k6, k7] := by
  obtain ⟨h1, h2, h3, h4, h5, h6, h7⟩ := H
  unfold stages dpA
  simp only [List.foldl_cons, List.foldl_nil, comb, List.zipWith, List.nil_append, List.cons_append,
    List.sum_cons, List.sum_nil, smul_zero, add_zero]
  rw [← h1]
  have e2 : y + h • (((1/5 : ℚ) : ℝ) • k1) = y + h • ((1/5 : ℝ) • k1) := by push_cast; rfl
  rw [e2, ← h2]
  have e3 : y + h • (((3/40 : ℚ) : ℝ) • k1 + ((9/40 : ℚ) : ℝ) • k2) =
      y + h • ((3/40 : ℝ) • k1 + (9/40 : ℝ) • k2) := by push_cast; rfl
  rw [e3, ← h3]
  have e4 : y + h • (((44/45 : ℚ) : ℝ) • k1 + (((-56/15 : ℚ) : ℝ) • k2 + ((32/9 : ℚ) : ℝ) • k3)) =
      y + h • ((44/45 : ℝ) • k1 + (-56/15 : ℝ) • k2 + (32/9 : ℝ) • k3) := by push_cast; rw [add_assoc]
  rw [e4, ← h4]
  have e5 : y + h • (((19372/6561 : ℚ) : ℝ) • k1 + (((-25360/2187 : ℚ) : ℝ) • k2 + (((64448/6561 : ℚ) : ℝ) • k3
      + ((-212/729 : ℚ) : ℝ) • k4))) =
      y + h • ((19372/6561 : ℝ) • k1 + (-25360/2187 : ℝ) • k2 + (64448/6561 : ℝ) • k3 + (-212/729 : ℝ) • k4) := by
    push_cast; simp only [add_assoc]
  rw [e5, ← h5]
  have e6 : y + h • (((9017/3168 : ℚ) : ℝ) • k1 + (((-355/33 : ℚ) : ℝ) • k2 + (((46732/5247 : ℚ) : ℝ) • k3
      + (((49/176 : ℚ) : ℝ) • k4 + ((-5103/18656 : ℚ) : ℝ) • k5)))) =
      y + h • ((9017/3168 : ℝ) • k1 + (-355/33 : ℝ) • k2 + (46732/5247 : ℝ) • k3
    + (49/176 : ℝ) • k4 + (-5103/18656 : ℝ) • k5) := by
    push_cast; simp only [add_assoc]
  rw [e6, ← h6]
  have e7 : y + h • (((35/384 : ℚ) : ℝ) • k1 + (((0 : ℚ) : ℝ) • k2 + (((500/1113 : ℚ) : ℝ) • k3
      + (((125/192 : ℚ) : ℝ) • k4 + (((-2187/6784 : ℚ) : ℝ) • k5 + ((11/84 : ℚ) : ℝ) • k6))))) =
      y + h • ((35/384 : ℝ) • k1 + (500/1113 : ℝ) • k3 + (125/192 : ℝ) • k4 + (-2187/6784 : ℝ) • k5
    + (11/84 : ℝ) • k6) := by
    push_cast; simp only [add_assoc, zero_smul, zero_add]
  rw [e7, ← h7]

theorem dp_step5 (f : V → V) (h : ℝ) (y : V) {k1 k2 k3 k4 k5 k6 k7 : V}
    (H : DPStages f h y k1 k2 k3 k4 k5 k6 k7) :
    rkStep f dpA dp5 h y = y + h • ((35/384 : ℝ) • k1 + (500/1113 : ℝ) • k3 + (125/192 : ℝ) • k4
      + (-2187/6784 : ℝ) • k5 + (11/84 : ℝ) • k6) := by
  unfold rkStep
  rw [dp_stages f h y H]
  unfold comb dp5
  simp only [List.zipWith, List.sum_cons, List.sum_nil]
  push_cast
  module

theorem dp_step4 (f : V → V) (h : ℝ) (y : V) {k1 k2 k3 k4 k5 k6 k7 : V}
    (H : DPStages f h y k1 k2 k3 k4 k5 k6 k7) :
    rkStep f dpA dp5 h y - rkStep f dpA dp4 h y =
      h • ((71/57600 : ℝ) • k1 + (-1/40 : ℝ) • k7 + (-71/16695 : ℝ) • k3 + (71/1920 : ℝ) • k4
        + (-17253/339200 : ℝ) • k5 + (22/525 : ℝ) • k6) := by
  unfold rkStep
  rw [dp_stages f h y H]
  unfold comb dp5 dp4
  simp only [List.zipWith, List.sum_cons, List.sum_nil]
  push_cast
  module

theorem exists_dpStages (f : V → V) (h : ℝ) (y : V) : ∃ k1 k2 k3 k4 k5 k6 k7, DPStages f h y k1 k2 k3 k4 k5 k6 k7 :=
  ⟨_, _, _, _, _, _, _, rfl, rfl, rfl, rfl, rfl, rfl, rfl⟩

/-- One trial step of the code, for a velocity function that succeeds on the six points it is asked about, is one
step of the Dormand–Prince pair. -/
theorem trial_real (f : ℝ × ℝ → ℝ × ℝ) (n : ℕ) (xy : ℝ × ℝ) (dt : ℝ) :
    trial (fun _ p => .ok (f p)) n xy (f xy) dt =
      .ok (rkStep f dpA dp5 dt xy, f (rkStep f dpA dp5 dt xy),
        max |(rkStep f dpA dp5 dt xy).1 - (rkStep f dpA dp4 dt xy).1|
            |(rkStep f dpA dp5 dt xy).2 - (rkStep f dpA dp4 dt xy).2|,
        Real.sqrt (((rkStep f dpA dp5 dt xy).1 - xy.1) ^ 2 + ((rkStep f dpA dp5 dt xy).2 - xy.2) ^ 2)) := by
  obtain ⟨k1, k2, k3, k4, k5, k6, k7, H⟩ := exists_dpStages f dt xy
  have e5 := dp_step5 f dt xy H
  have e4 := dp_step4 f dt xy H
  have c1 : (rkStep f dpA dp5 dt xy).1 - (rkStep f dpA dp4 dt xy).1 = _ := congrArg Prod.fst e4
  have c2 : (rkStep f dpA dp5 dt xy).2 - (rkStep f dpA dp4 dt xy).2 = _ := congrArg Prod.snd e4
  obtain ⟨h1, h2, h3, h4, h5, h6, h7⟩ := H
  unfold trial
  simp only [bind, Except.bind, pure, Except.pure, sc_real, scq_real]
  push_cast
  rw [← h1, ← h2, ← h3, ← h4, ← h5, ← h6, ← h7]
  rw [c1, c2, e5, ← h7]
  simp only [normInf, norm2, PyMath.fmax_real, PyMath.abs_real, PyMath.sqrt_real, Prod.fst_sub, Prod.snd_sub, pow_two]

end Oneka
