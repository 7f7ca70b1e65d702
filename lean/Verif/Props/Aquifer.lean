import Verif.Lemmas.Head
import Verif.Lemmas.Flux

/-!
# C29–C34, C62: the aquifer model

`m.potential`, `m.discharge`, `m.head`, `m.velocity`, `m.velocityConfined` are the results of the five `compute_…`
methods, here over ℝ. Statements about points exclude the well locations wherever the code divides by zero or takes the logarithm of zero there
(what it then does is the subject of C21, C33 and C64).
-/

namespace Oneka
open Aquifer

/-! ## A model used in the examples -/

/-- K = 10, porosity 0.2, thickness 20, a pumping well at the origin, an injection well at (100, 0), recharge. -/
def demoAquifer : Aquifer ℝ :=
  { base := 0, conductivity := 10, porosity := 0.2, thickness := 20,
    wells := [⟨0, 0, 0.25, 500⟩, ⟨100, 0, 0.1, -30⟩], xo := 5, yo := 7, coef := ![-0.0001, -0.0002, 0.00005, 0.3, -0.1, 4000] }

theorem demo_physical : demoAquifer.Physical := ⟨by norm_num [demoAquifer], by norm_num [demoAquifer], by norm_num [demoAquifer]⟩

theorem demo_off (x y : ℝ) (h0 : y ≠ 0) : demoAquifer.OffWells x y := by
  intro w hw
  simp only [demoAquifer, List.mem_cons, List.not_mem_nil, or_false] at hw
  rcases hw with rfl | rfl <;> (intro h; exact h0 (Prod.ext_iff.mp h).2)

/-! ## C29 -/

/-- C29: off the wells the potential is differentiable and the discharge is minus its gradient: the (total) derivative in
direction `(u, v)` is `-(Qx u + Qy v)`. -/
theorem C29_gradient (m : Aquifer ℝ) (x y : ℝ) (h : m.OffWells x y) :
    ∃ D : ℝ × ℝ →L[ℝ] ℝ, HasFDerivAt (fun p : ℝ × ℝ => m.potential p.1 p.2) D (x, y) ∧
      ∀ u v, D (u, v) = -((m.discharge x y).1 * u + (m.discharge x y).2 * v) := by
  refine ⟨_, potential_fderiv m h, fun u v => ?_⟩
  simp [form]; ring

/-- C29 with partial derivatives. -/
theorem C29_partials (m : Aquifer ℝ) (x y : ℝ) (h : m.OffWells x y) :
    HasDerivAt (fun s => m.potential s y) (-(m.discharge x y).1) x ∧
    HasDerivAt (fun s => m.potential x s) (-(m.discharge x y).2) y := by
  have hf := potential_fderiv m h
  constructor
  · have := hf.comp_hasDerivAt x ((hasDerivAt_id x).prodMk (hasDerivAt_const x y))
    exact this.congr_deriv (by simp [form])
  · have := hf.comp_hasDerivAt y ((hasDerivAt_const y x).prodMk (hasDerivAt_id y))
    exact this.congr_deriv (by simp [form])

example : demoAquifer.OffWells 3 4 := demo_off 3 4 (by norm_num)

/-! ## C30 -/

/-- C30: off the wells the discharge has divergence `-2(A+B)` and no curl. -/
theorem C30_divergence_curl (m : Aquifer ℝ) (x y : ℝ) (h : m.OffWells x y) :
    ∃ Qxx Qxy Qyx Qyy : ℝ,
      HasDerivAt (fun s => (m.discharge s y).1) Qxx x ∧ HasDerivAt (fun s => (m.discharge x s).1) Qxy y ∧
      HasDerivAt (fun s => (m.discharge s y).2) Qyx x ∧ HasDerivAt (fun s => (m.discharge x s).2) Qyy y ∧
      Qxx + Qyy = -2 * (m.coef 0 + m.coef 1) ∧ Qyx - Qxy = 0 := by
  obtain ⟨a, b, c, h1, h2, h3, h4, h5⟩ := discharge_partials m h
  exact ⟨a, b, b, c, h1, h2, h3, h4, h5, sub_self b⟩

example : demoAquifer.OffWells 100 1 := demo_off 100 1 (by norm_num)

/-! ## C31 -/

/-- C31: the potential and the discharge are those of the quadratic regional flow plus those of the wells (Thiem), with constants
that are 1/(4π) and 1/(2π) to a relative accuracy of 10⁻¹⁶ and consistent with each other. -/
theorem C31_closed_form : ∃ κ : ℝ, |4 * Real.pi * κ - 1| < 1 / 10 ^ 16 ∧ ∀ (m : Aquifer ℝ) (x y : ℝ),
    m.potential x y = conic m.coef (x - m.xo) (y - m.yo) +
      (m.wells.map fun w => w.qw * κ * Real.log ((x - w.xw) ^ 2 + (y - w.yw) ^ 2)).sum ∧
    m.potentialWells x y = (m.wells.map fun w => w.qw * κ * Real.log ((x - w.xw) ^ 2 + (y - w.yw) ^ 2)).sum ∧
    (m.discharge x y).1 = -(2 * m.coef 0 * (x - m.xo) + m.coef 2 * (y - m.yo) + m.coef 3) -
      (m.wells.map fun w => w.qw * (2 * κ) * ((x - w.xw) / ((x - w.xw) ^ 2 + (y - w.yw) ^ 2))).sum ∧
    (m.discharge x y).2 = -(2 * m.coef 1 * (y - m.yo) + m.coef 2 * (x - m.xo) + m.coef 4) -
      (m.wells.map fun w => w.qw * (2 * κ) * ((y - w.yw) / ((x - w.xw) ^ 2 + (y - w.yw) ^ 2))).sum := by
  refine ⟨(fourPiInv : ℝ), ?_, fun m x y => ⟨m.potential_eq x y, m.potentialWells_eq x y, ?_, ?_⟩⟩
  · have := twoPiInv_close
    rw [twoPiInv_eq] at this
    rwa [show 4 * Real.pi * (fourPiInv : ℝ) = 2 * Real.pi * (2 * (fourPiInv : ℝ)) by ring]
  · rw [discharge_eq, sum_map_neg', twoPiInv_eq]; rfl
  · rw [discharge_eq, sum_map_neg', sum_map_neg', twoPiInv_eq]; rfl

/-- C31: the order of the wells does not matter. -/
theorem C31_order (m : Aquifer ℝ) (l : List (Well ℝ)) (h : m.wells.Perm l) (x y : ℝ) :
    ({ m with wells := l } : Aquifer ℝ).potential x y = m.potential x y ∧
    ({ m with wells := l } : Aquifer ℝ).discharge x y = m.discharge x y := by
  simp only [potential_eq, discharge_eq]
  exact ⟨by rw [(h.map _).sum_eq], by rw [(h.map _).sum_eq, (h.map _).sum_eq]⟩

/-- C31: adding wells adds their own potential (`compute_potential_wells_only`) and their own discharge (that of a model with no
regional flow). -/
theorem C31_additive (m : Aquifer ℝ) (l₁ l₂ : List (Well ℝ)) (x y : ℝ) :
    ({ m with wells := l₁ ++ l₂ } : Aquifer ℝ).potential x y =
      ({ m with wells := l₁ } : Aquifer ℝ).potential x y + ({ m with wells := l₂ } : Aquifer ℝ).potentialWells x y ∧
    ({ m with wells := l₁ ++ l₂ } : Aquifer ℝ).discharge x y =
      ({ m with wells := l₁ } : Aquifer ℝ).discharge x y +
      ({ m with wells := l₂, coef := fun _ => 0 } : Aquifer ℝ).discharge x y := by
  simp only [potential_eq, potentialWells_eq, discharge_eq, List.map_append, List.sum_append]
  refine ⟨by ring, ?_⟩
  ext <;> simp only [Prod.fst_add, Prod.snd_add] <;> ring

/-- C31: a well that does not pump has no effect. -/
theorem C31_idle_well (m : Aquifer ℝ) (w : Well ℝ) (hw : w.qw = 0) (x y : ℝ) :
    ({ m with wells := w :: m.wells } : Aquifer ℝ).potential x y = m.potential x y ∧
    ({ m with wells := w :: m.wells } : Aquifer ℝ).discharge x y = m.discharge x y := by
  simp [potential_eq, discharge_eq, hw]

/-- C31: everything is linear in the discharges and coefficients together. -/
theorem C31_linear (m : Aquifer ℝ) (s x y : ℝ) :
    ({ m with wells := m.wells.map (fun w => { w with qw := s * w.qw }), coef := fun i => s * m.coef i } :
      Aquifer ℝ).potential x y = s * m.potential x y ∧
    ({ m with wells := m.wells.map (fun w => { w with qw := s * w.qw }), coef := fun i => s * m.coef i } :
      Aquifer ℝ).discharge x y = s • m.discharge x y := by
  have lin : ∀ (l : List (Well ℝ)) (g : Well ℝ → ℝ) (t : ℝ),
      (l.map fun w => t * g w).sum = t * (l.map g).sum := by
    intro l g t
    induction l with
    | nil => simp
    | cons a l ih => simp [ih]; ring
  simp only [potential_eq, discharge_eq, List.map_map, Function.comp_def, Well.r2, conic]
  have e1 : ∀ w : Well ℝ, s * w.qw * (fourPiInv : ℝ) * Real.log ((x - w.xw) ^ 2 + (y - w.yw) ^ 2) =
      s * (w.qw * (fourPiInv : ℝ) * Real.log ((x - w.xw) ^ 2 + (y - w.yw) ^ 2)) := fun w => by ring
  have e2 : ∀ w : Well ℝ, -(s * w.qw * (twoPiInv : ℝ) * ((x - w.xw) / ((x - w.xw) ^ 2 + (y - w.yw) ^ 2))) =
      s * (-(w.qw * (twoPiInv : ℝ) * ((x - w.xw) / ((x - w.xw) ^ 2 + (y - w.yw) ^ 2)))) := fun w => by ring
  have e3 : ∀ w : Well ℝ, -(s * w.qw * (twoPiInv : ℝ) * ((y - w.yw) / ((x - w.xw) ^ 2 + (y - w.yw) ^ 2))) =
      s * (-(w.qw * (twoPiInv : ℝ) * ((y - w.yw) / ((x - w.xw) ^ 2 + (y - w.yw) ^ 2)))) := fun w => by ring
  simp only [e1, e2, e3, lin]
  refine ⟨by ring, ?_⟩
  ext <;> simp only [Prod.smul_fst, Prod.smul_snd, smul_eq_mul] <;> ring

example : demoAquifer.wells.Perm demoAquifer.wells.reverse := (List.reverse_perm _).symm

/-! ## C32 -/

/-- C32: where the potential is positive the head is the one positive height whose potential it is. -/
theorem C32_inverse (m : Aquifer ℝ) (hK : 0 < m.conductivity) (hT : 0 < m.thickness) (x y : ℝ) (hp : 0 < m.potential x y) :
    ∃ h, m.head x y = .ok h ∧ 0 < h ∧ potentialOfHead m.conductivity m.thickness h = m.potential x y ∧
      ∀ h', 0 < h' → potentialOfHead m.conductivity m.thickness h' = m.potential x y → h' = h := by
  refine ⟨_, by rw [head_eq, if_neg (not_le.mpr hp)], headOf_pos hK hT hp, potential_headOf hK hT hp, fun h' p' e => ?_⟩
  exact head_unique hK hT p' (headOf_pos hK hT hp) (by rw [e, potential_headOf hK hT hp])

/-- C32: the head depends on the potential only, continuously and strictly increasingly. -/
theorem C32_monotone (K T : ℝ) (hK : 0 < K) (hT : 0 < T) :
    ∃ g : ℝ → ℝ, ContinuousOn g (Set.Ioi 0) ∧ StrictMonoOn g (Set.Ioi 0) ∧
      ∀ (m : Aquifer ℝ) (x y : ℝ), m.conductivity = K → m.thickness = T → 0 < m.potential x y →
        m.head x y = .ok (g (m.potential x y)) := by
  refine ⟨headOf K T, (headOf_continuous hK hT).continuousOn, headOf_strictMono hK hT, ?_⟩
  rintro m x y rfl rfl hp
  rw [head_eq, if_neg (not_le.mpr hp)]

/-- a model with positive potential: no wells, constant coefficient 4000 -/
example : 0 < ({ demoAquifer with wells := [] } : Aquifer ℝ).potential 5 7 := by
  rw [potential_eq]; simp [demoAquifer, conic]

/-! ## C33 -/

/-- C33: the head fails, with AquiferError, exactly where the potential is not positive. -/
theorem C33_head (m : Aquifer ℝ) (x y : ℝ) :
    (m.potential x y ≤ 0 → m.head x y = .error .aquiferError) ∧ (0 < m.potential x y → ∃ h, m.head x y = .ok h) := by
  rw [head_eq]
  exact ⟨fun h => by rw [if_pos h], fun h => ⟨_, by rw [if_neg (not_le.mpr h)]⟩⟩

/-- C33: and so does the velocity. (`compute_velocity_confined` cannot fail: its result type has no exceptions.) -/
theorem C33_velocity (m : Aquifer ℝ) (hm : m.Physical) (x y : ℝ) :
    (m.potential x y ≤ 0 → m.velocity x y = .error .aquiferError) ∧ (0 < m.potential x y → ∃ v, m.velocity x y = .ok v) := by
  rw [velocity_eq m hm]
  exact ⟨fun h => by rw [if_pos h], fun h => ⟨_, by rw [if_neg (not_le.mpr h)]⟩⟩

/-- both cases occur -/
example : ({ demoAquifer with wells := [], coef := fun _ => 0 } : Aquifer ℝ).potential 0 0 ≤ 0 := by
  rw [potential_eq]; norm_num [conic]

/-! ## C34 -/

/-- C34: the velocity is the discharge over porosity times saturated thickness `min(head, thickness)`. -/
theorem C34_velocity (m : Aquifer ℝ) (hm : m.Physical) (x y h : ℝ) (hh : m.head x y = .ok h) :
    m.velocity x y = .ok ((m.discharge x y).1 / (m.porosity * min h m.thickness),
      (m.discharge x y).2 / (m.porosity * min h m.thickness)) := by
  rw [head_eq] at hh
  rw [velocity_eq m hm]
  split_ifs at hh with hp
  rw [if_neg hp, Except.ok.inj hh]

/-- C34: it is the confined velocity where the head reaches the thickness, and `thickness/head` (> 1) times it elsewhere. -/
theorem C34_confined (m : Aquifer ℝ) (hm : m.Physical) (x y h : ℝ) (hh : m.head x y = .ok h) :
    0 < h ∧ (m.thickness ≤ h → m.velocity x y = .ok (m.velocityConfined x y)) ∧
    (h < m.thickness → 1 < m.thickness / h ∧ m.velocity x y = .ok ((m.thickness / h) • m.velocityConfined x y)) := by
  have hn := hm.porosity
  have hT := hm.thickness
  have hpos : 0 < h := by
    have hh' := hh
    rw [head_eq] at hh'
    split_ifs at hh' with hp
    rw [← Except.ok.inj hh']
    exact headOf_pos hm.conductivity hT (not_le.mp hp)
  refine ⟨hpos, fun hle => ?_, fun hlt => ⟨(one_lt_div hpos).mpr hlt, ?_⟩⟩
  · rw [C34_velocity m hm x y h hh, min_eq_right hle]
    unfold velocityConfined
    rw [mul_comm m.porosity]
  · rw [C34_velocity m hm x y h hh, min_eq_left hlt.le]
    unfold velocityConfined
    congr 1
    ext <;> simp only [Prod.smul_mk, smul_eq_mul] <;> field_simp

example : ∃ h, ({ demoAquifer with wells := [] } : Aquifer ℝ).head 5 7 = .ok h :=
  (C33_head _ _ _).2 (by rw [potential_eq]; simp [demoAquifer, conic])

/-! ## C62 -/

/-- C62: the flow out of a disk is the uniform recharge `-2(A+B)` times its area minus the pumping of the wells inside (each
counted with the code's value of 2π/2π, which is 1 to an accuracy of 10⁻¹⁶). -/
theorem C62_balance : ∃ one : ℝ, |one - 1| < 1 / 10 ^ 16 ∧ ∀ (m : Aquifer ℝ) (cx cy R : ℝ), 0 < R →
    (∀ w ∈ m.wells, (w.xw - cx) ^ 2 + (w.yw - cy) ^ 2 ≠ R ^ 2) →
    outflow m.discharge cx cy R = -2 * (m.coef 0 + m.coef 1) * (Real.pi * R ^ 2) -
      one * (m.wells.map fun w => if (w.xw - cx) ^ 2 + (w.yw - cy) ^ 2 < R ^ 2 then w.qw else 0).sum := by
  refine ⟨2 * Real.pi * (twoPiInv : ℝ), twoPiInv_close, fun m cx cy R hR h => ?_⟩
  rw [outflow_eq m cx cy R hR h]
  congr 1
  have : ∀ l : List (Well ℝ), (l.map fun w => if (w.xw - cx) ^ 2 + (w.yw - cy) ^ 2 < R ^ 2 then
      w.qw * (2 * Real.pi * (twoPiInv : ℝ)) else 0).sum = 2 * Real.pi * (twoPiInv : ℝ) *
      (l.map fun w => if (w.xw - cx) ^ 2 + (w.yw - cy) ^ 2 < R ^ 2 then w.qw else 0).sum := by
    intro l
    induction l with
    | nil => simp
    | cons w l ih =>
      simp only [List.map_cons, List.sum_cons, ih]
      split_ifs <;> ring
  exact this m.wells

/-- a circle with one of two wells inside -/
example : ∀ w ∈ demoAquifer.wells, (w.xw - 1) ^ 2 + (w.yw - 2) ^ 2 ≠ (50 : ℝ) ^ 2 := by
  intro w hw
  simp only [demoAquifer, List.mem_cons, List.not_mem_nil, or_false] at hw
  rcases hw with rfl | rfl <;> norm_num

end Oneka
