import Verif.Spec.Binary64
import Verif.Lemmas.Binary64Aquifer
import Verif.Lemmas.Binary64Range
import Verif.Props.RoundingAquifer

/-! # C116 The aquifer functions neither overflow nor underflow -/

namespace Oneka
open Aquifer

section
variable [LibM]

/-- **C116.** For models and points of ordinary sizes, off the wells, the potential in binary64 arithmetic is finite, and is the one that unlimited exponents give. -/
theorem C116_potential (hl : LogAccurate) {m : Aquifer Fl} {x y : Fl} (hm : m.Ordinary) (hx : x.Ordinary) (hy : y.Ordinary) (ho : m.exact.OffWells x.val y.val) :
    Is64 (m.to64.potential x.to64 y.to64) (m.potential x y) :=
  (Aquifer.same_potential hl hm hx hy ho).1

/-- **C116.** The same holds of the discharge. -/
theorem C116_discharge {m : Aquifer Fl} {x y : Fl} (hm : m.Ordinary) (hx : x.Ordinary) (hy : y.Ordinary) (ho : m.exact.OffWells x.val y.val) :
    Is64Pair (m.to64.discharge x.to64 y.to64) (m.discharge x y) :=
  ⟨(Aquifer.same_discharge hm hx hy ho).1.1, (Aquifer.same_discharge hm hx hy ho).2.1⟩

/-- **C116.** The same holds of the head; the two computations raise the same exceptions. -/
theorem C116_head (hl : LogAccurate) {m : Aquifer Fl} {x y : Fl} (hm : m.Ordinary) (hx : x.Ordinary) (hy : y.Ordinary) (ho : m.exact.OffWells x.val y.val) :
    Alike Is64 (m.to64.head x.to64 y.to64) (m.head x y) :=
  (Aquifer.same_head hl hm hx hy ho).weaken fun _ _ h => h.1

/-- **C116.** The same holds of the velocity; the two computations raise the same exceptions. -/
theorem C116_velocity (hl : LogAccurate) {m : Aquifer Fl} {x y : Fl} (hm : m.Ordinary) (hx : x.Ordinary) (hy : y.Ordinary) (ho : m.exact.OffWells x.val y.val) :
    Alike Is64Pair (m.to64.velocity x.to64 y.to64) (m.velocity x y) :=
  (Aquifer.same_velocity hl hm hx hy ho).weaken fun _ _ h => ⟨h.1.1, h.2.1⟩

/-- **C116.** The same holds of the confined velocity. -/
theorem C116_confined {m : Aquifer Fl} {x y : Fl} (hm : m.Ordinary) (hx : x.Ordinary) (hy : y.Ordinary) (ho : m.exact.OffWells x.val y.val) :
    Is64Pair (m.to64.velocityConfined x.to64 y.to64) (m.velocityConfined x y) :=
  ⟨(Aquifer.same_confined hm hx hy ho).1.1, (Aquifer.same_confined hm hx hy ho).2.1⟩

/-- **C116.** So the potential in binary64 arithmetic is as accurate as C93 says. -/
theorem C116_potential_accurate (hl : LogAccurate) {m : Aquifer Fl} {x y : Fl} (hm : m.Ordinary) (hx : x.Ordinary) (hy : y.Ordinary) (ho : m.exact.OffWells x.val y.val) :
    ∃ p : ℝ, (m.to64.potential x.to64 y.to64).v = .fin p ∧
      |p - m.exact.potential x.val y.val| ≤ (19 + 2 * m.wells.length) * 2 ^ (-53 : ℤ) * m.exact.potentialTerms x.val y.val :=
  ⟨_, C116_potential hl hm hx hy ho, C93_potential hl m x y ho hm.number⟩

/-- **C116.** So is the discharge. -/
theorem C116_discharge_accurate {m : Aquifer Fl} {x y : Fl} (hm : m.Ordinary) (hx : x.Ordinary) (hy : y.Ordinary) (ho : m.exact.OffWells x.val y.val) :
    ∃ Q : ℝ × ℝ, (m.to64.discharge x.to64 y.to64).1.v = .fin Q.1 ∧ (m.to64.discharge x.to64 y.to64).2.v = .fin Q.2 ∧
      ‖Q - m.exact.discharge x.val y.val‖ ≤ (18 + 2 * m.wells.length) * 2 ^ (-53 : ℤ) * m.exact.dischargeTerms x.val y.val :=
  ⟨fv (m.discharge x y), (C116_discharge hm hx hy ho).1, (C116_discharge hm hx hy ho).2, C93_discharge m x y ho hm.number⟩

/-- **C116.** So is the head. -/
theorem C116_head_accurate (hl : LogAccurate) {m : Aquifer Fl} {x y : Fl} (hm : m.Ordinary) (hx : x.Ordinary) (hy : y.Ordinary) (ho : m.exact.OffWells x.val y.val)
    (hpos : 0 < m.exact.potential x.val y.val) (hκ : (19 + 2 * m.wells.length) * 2 ^ (-53 : ℤ) * m.exact.condition false x.val y.val ≤ 1/50) :
    ∃ (b : B64) (h' h : ℝ), m.to64.head x.to64 y.to64 = .ok b ∧ b.v = .fin h' ∧ m.exact.head x.val y.val = .ok h ∧
      |h' - h| ≤ (2 * (19 + 2 * m.wells.length) * m.exact.condition false x.val y.val + 20) * 2 ^ (-53 : ℤ) * h := by
  obtain ⟨h', h, e1, e2, e3⟩ := C93_head hl m ⟨hm.conductivity.2, hm.porosity.2, hm.thickness.2⟩ x y ho hm.number hpos hκ
  have a := C116_head hl hm hx hy ho
  rw [e1] at a
  cases h2 : m.to64.head x.to64 y.to64 with
  | error e => rw [h2] at a; exact a.elim
  | ok b => rw [h2] at a; exact ⟨b, h'.val, h, rfl, a, e2, e3⟩

end

/-- **C116.** Coordinates of ordinary sizes are needed: there is a model of ordinary size and a point, far away, where the potential overflows. -/
theorem C116_overflow : ∃ (_ : LibM) (m : Aquifer Fl) (x y : Fl), m.Ordinary ∧ y.Ordinary ∧ m.exact.OffWells x.val y.val ∧ (m.to64.potential x.to64 y.to64).v = .pinf := by
  refine ⟨nearestLib, bowl, Fl.of (2 ^ (600 : ℤ)), 0, bowl_ordinary, Or.inl Fl.zero_val, fun w hw => by simp [bowl, exact] at hw, ?_⟩
  exact bowl_overflow

/-- **C116.** The distance to a well has to be ordinary as well: there is a model of ordinary size, and a point off its well, where the discharge is infinite, because the squared distance underflows. -/
theorem C116_underflow : ∃ (_ : LibM) (m : Aquifer Fl) (x y : Fl), m.Ordinary ∧ y.Ordinary ∧ m.exact.OffWells x.val y.val ∧ (m.to64.discharge x.to64 y.to64).1.v = .ninf := by
  refine ⟨nearestLib, mixed, Fl.of (2 ^ (-600 : ℤ)), 0, mixed_ordinary, Or.inl Fl.zero_val, ?_, mixed_underflow⟩
  rw [mixed_exact]
  intro w hw e
  simp only [List.mem_singleton] at hw
  subst hw
  have := (Prod.mk.inj e).1
  rw [of_pow] at this
  exact (two_zpow_pos (-600)).ne' this

/-! ## An example: one kilometre from the well of `mixed` -/

example : ∃ (_ : LibM) (m : Aquifer Fl) (x y : Fl), LogAccurate ∧ m.Ordinary ∧ x.Ordinary ∧ y.Ordinary ∧ m.exact.OffWells x.val y.val ∧ m.wells ≠ [] :=
  ⟨nearestLib, mixed, Fl.of (1000 : ℕ), 0, nearestLib_log, mixed_ordinary, .of_val thousand_fl (by norm_num) (by norm_num), Or.inl Fl.zero_val,
    by rw [thousand_fl, Fl.zero_val]; exact mixed_off, by simp [mixed]⟩

end Oneka
