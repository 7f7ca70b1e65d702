import Mathlib.MeasureTheory.Constructions.BorelSpace.Real
import Mathlib.MeasureTheory.Function.SpecialFunctions.Basic
import Mathlib.MeasureTheory.Group.Arithmetic
import Verif.Py.Ext
import Verif.Spec.Statistics

/-! Measurability of partial functions, and of the operations on `XR`. -/

namespace Oneka

open MeasureTheory

section
variable {D A B C : Type} [MeasurableSpace D] [MeasurableSpace A] [MeasurableSpace B] [MeasurableSpace C]

theorem PartMeasurable.some {g : D → B} (hg : Measurable g) : PartMeasurable fun d => Option.some (g d) :=
  ⟨Set.univ, g, .univ, hg, fun d b => by simp [eq_comm]⟩

theorem PartMeasurable.none [Nonempty B] : PartMeasurable fun _ : D => (Option.none : Option B) :=
  ⟨∅, fun _ => Classical.arbitrary B, .empty, measurable_const, fun d b => by simp⟩

theorem PartMeasurable.comp {f : A → Option B} (hf : PartMeasurable f) {g : D → A} (hg : Measurable g) : PartMeasurable fun d => f (g d) := by
  obtain ⟨s, h, hs, hh, e⟩ := hf
  exact ⟨g ⁻¹' s, fun d => h (g d), hg hs, hh.comp hg, fun d b => e (g d) b⟩

theorem PartMeasurable.bind {f : D → Option A} (hf : PartMeasurable f) {h : D → A → Option B} (hh : PartMeasurable fun p : D × A => h p.1 p.2) :
    PartMeasurable fun d => (f d).bind (h d) := by
  obtain ⟨s, g, hs, hg, e⟩ := hf
  obtain ⟨s', g', hs', hg', e'⟩ := hh
  refine ⟨s ∩ (fun d => (d, g d)) ⁻¹' s', fun d => g' (d, g d), hs.inter ((measurable_id.prodMk hg) hs'), hg'.comp (measurable_id.prodMk hg), fun d b => ?_⟩
  rw [Option.bind_eq_some_iff]
  constructor
  · rintro ⟨a, h1, h2⟩
    obtain ⟨h3, rfl⟩ := (e d a).mp h1
    obtain ⟨h4, rfl⟩ := (e' (d, g d) b).mp h2
    exact ⟨⟨h3, h4⟩, rfl⟩
  · rintro ⟨⟨h3, h4⟩, rfl⟩
    exact ⟨g d, (e d _).mpr ⟨h3, rfl⟩, (e' (d, g d) _).mpr ⟨h4, rfl⟩⟩

theorem PartMeasurable.map {f : D → Option A} (hf : PartMeasurable f) {h : D → A → B} (hh : Measurable fun p : D × A => h p.1 p.2) :
    PartMeasurable fun d => (f d).map (h d) := by
  have := hf.bind (h := fun d a => Option.some (h d a)) (PartMeasurable.some hh)
  simpa [Option.map_eq_bind, Function.comp_def] using this

open Classical in
theorem PartMeasurable.ite {p : D → Prop} (hp : MeasurableSet {d | p d}) {f g : D → Option B} (hf : PartMeasurable f) (hg : PartMeasurable g) :
    PartMeasurable fun d => if p d then f d else g d := by
  obtain ⟨s, f', hs, hf', e⟩ := hf
  obtain ⟨s', g', hs', hg', e'⟩ := hg
  refine ⟨({d | p d} ∩ s) ∪ ({d | p d}ᶜ ∩ s'), fun d => if p d then f' d else g' d, (hp.inter hs).union (hp.compl.inter hs'), Measurable.ite hp hf' hg', fun d b => ?_⟩
  by_cases h : p d
  · simp [h, e]
  · simp [h, e']

theorem PartMeasurable.elim {f : D → Option A} (hf : PartMeasurable f) {g : D → Option B} (hg : PartMeasurable g) {h : D → A → Option B}
    (hh : PartMeasurable fun p : D × A => h p.1 p.2) : PartMeasurable fun d => match f d with
      | Option.none => g d
      | Option.some a => h d a := by
  classical
  obtain ⟨s, f', hs, hf', e⟩ := hf
  have key : ∀ d, (match f d with
      | Option.none => g d
      | Option.some a => h d a) = if d ∈ s then h d (f' d) else g d := by
    intro d
    by_cases hd : d ∈ s
    · rw [(e d (f' d)).mpr ⟨hd, rfl⟩, if_pos hd]
    · have : f d = Option.none := by
        cases hfd : f d with
        | none => rfl
        | some a => exact absurd ((e d a).mp hfd).1 hd
      rw [this, if_neg hd]
  simp only [key]
  exact PartMeasurable.ite hs (hh.comp (measurable_id.prodMk hf')) hg

theorem PartMeasurable.congr {f g : D → Option B} (hf : PartMeasurable f) (h : ∀ d, f d = g d) : PartMeasurable g := by
  rwa [show g = f from (funext h).symm]

theorem PartMeasurable.isSome {f : D → Option B} (hf : PartMeasurable f) : MeasurableSet {d | ∃ b, f d = Option.some b} := by
  obtain ⟨s, g, hs, -, e⟩ := hf
  have : {d | ∃ b, f d = Option.some b} = s := by
    ext d
    simp [e]
  rwa [this]

/-- A condition on the value. -/
theorem PartMeasurable.sat {f : D → Option A} (hf : PartMeasurable f) {p : D → A → Prop} (hp : MeasurableSet {x : D × A | p x.1 x.2}) :
    MeasurableSet {d | ∃ a, f d = Option.some a ∧ p d a} := by
  obtain ⟨s, g, hs, hg, e⟩ := hf
  have : {d | ∃ a, f d = Option.some a ∧ p d a} = s ∩ (fun d => (d, g d)) ⁻¹' {x : D × A | p x.1 x.2} := by
    ext d
    simp [e]
  rw [this]
  exact hs.inter ((measurable_id.prodMk hg) hp)

end

namespace XR

/-- which kind of number -/
def tag : XR → Fin 4
  | fin _ => 0
  | pinf => 1
  | ninf => 2
  | nan => 3

/-- a number from its kind and its value -/
def mk (i : Fin 4) (r : ℝ) : XR := match i with
  | 0 => fin r
  | 1 => pinf
  | 2 => ninf
  | 3 => nan

/-- the value, if finite -/
def val : XR → ℝ
  | fin r => r
  | _ => 0

theorem mk_tag (x : XR) : mk x.tag x.val = x := by cases x <;> rfl

theorem measurable_iff {B : Type} [MeasurableSpace B] {f : XR → B} : Measurable f ↔ Measurable fun r => f (fin r) :=
  ⟨fun h => h.comp (fun _ hs => hs), fun h => fun _ hs => h hs⟩

theorem measurable_fin : Measurable fin := fun _ hs => hs

theorem measurable_tag : Measurable tag := measurable_iff.mpr measurable_const

theorem measurable_val : Measurable val := measurable_iff.mpr measurable_id

/-- Functions of two floats. -/
theorem measurable₂ {B : Type} [MeasurableSpace B] {op : XR → XR → B} (h : ∀ i j, Measurable fun p : ℝ × ℝ => op (mk i p.1) (mk j p.2)) :
    Measurable fun p : XR × XR => op p.1 p.2 := by
  have h1 : Measurable fun x : (Fin 4 × Fin 4) × (ℝ × ℝ) => op (mk x.1.1 x.2.1) (mk x.1.2 x.2.2) :=
    measurable_from_prod_countable_right fun ij => h ij.1 ij.2
  have h2 : Measurable fun p : XR × XR => ((p.1.tag, p.2.tag), (p.1.val, p.2.val)) :=
    ((measurable_tag.comp measurable_fst).prodMk (measurable_tag.comp measurable_snd)).prodMk
      ((measurable_val.comp measurable_fst).prodMk (measurable_val.comp measurable_snd))
  have := h1.comp h2
  simpa [Function.comp_def, mk_tag] using this

theorem measurable_infOf : Measurable infOf := by
  unfold infOf
  exact Measurable.ite measurableSet_Ioi measurable_const (Measurable.ite measurableSet_Iio measurable_const measurable_const)

instance : MeasurableNeg XR := ⟨measurable_iff.mpr (measurable_fin.comp measurable_neg)⟩

instance : MeasurableAdd₂ XR := ⟨by
  refine measurable₂ (op := fun x y => x + y) fun i j => ?_
  fin_cases i <;> fin_cases j <;> first | exact measurable_const | exact measurable_fin.comp (measurable_fst.add measurable_snd)⟩

instance : MeasurableSub₂ XR := ⟨by
  refine measurable₂ (op := fun x y => x - y) fun i j => ?_
  fin_cases i <;> fin_cases j <;> first | exact measurable_const | exact measurable_fin.comp (measurable_fst.add measurable_snd.neg)⟩

instance : MeasurableMul₂ XR := ⟨by
  refine measurable₂ (op := fun x y => x * y) fun i j => ?_
  fin_cases i <;> fin_cases j <;>
    first
    | exact measurable_const
    | exact measurable_fin.comp (measurable_fst.mul measurable_snd)
    | exact measurable_infOf.comp measurable_fst
    | exact measurable_infOf.comp measurable_snd
    | exact measurable_infOf.comp measurable_fst.neg
    | exact measurable_infOf.comp measurable_snd.neg⟩

instance : MeasurableDiv₂ XR := ⟨by
  refine measurable₂ (op := fun x y => x / y) fun i j => ?_
  fin_cases i <;> fin_cases j <;>
    first
    | exact measurable_const
    | exact Measurable.ite (measurable_snd (measurableSet_singleton (0 : ℝ))) (measurable_infOf.comp measurable_fst) (measurable_fin.comp (measurable_fst.div measurable_snd))
    | exact Measurable.ite (measurable_snd measurableSet_Iio) measurable_const measurable_const⟩

theorem measurableSet_lt' {D : Type} [MeasurableSpace D] {f g : D → XR} (hf : Measurable f) (hg : Measurable g) : MeasurableSet {d | f d < g d} := by
  have h : Measurable fun p : XR × XR => (p.1 < p.2 : Prop) := by
    refine measurable₂ (op := fun x y => (x < y : Prop)) fun i j => ?_
    fin_cases i <;> fin_cases j <;> first | exact measurable_const | exact measurableSet_setOf.mp (measurableSet_lt measurable_fst measurable_snd)
  exact measurableSet_setOf.mpr (h.comp (hf.prodMk hg))

theorem measurableSet_le' {D : Type} [MeasurableSpace D] {f g : D → XR} (hf : Measurable f) (hg : Measurable g) : MeasurableSet {d | f d ≤ g d} := by
  have h : Measurable fun p : XR × XR => (p.1 ≤ p.2 : Prop) := by
    refine measurable₂ (op := fun x y => (x ≤ y : Prop)) fun i j => ?_
    fin_cases i <;> fin_cases j <;> first | exact measurable_const | exact measurableSet_setOf.mp (measurableSet_le measurable_fst measurable_snd)
  exact measurableSet_setOf.mpr (h.comp (hf.prodMk hg))

theorem measurable_abs : Measurable (PyMath.abs : XR → XR) := measurable_iff.mpr (measurable_fin.comp (_root_.continuous_abs.measurable))

theorem measurable_sqrt : Measurable (PyMath.sqrt : XR → XR) :=
  measurable_iff.mpr (Measurable.ite measurableSet_Iio measurable_const (measurable_fin.comp Real.continuous_sqrt.measurable))

theorem measurable_log : Measurable (PyMath.log : XR → XR) :=
  measurable_iff.mpr (Measurable.ite measurableSet_Iio measurable_const
    (Measurable.ite (measurableSet_singleton 0) measurable_const (measurable_fin.comp Real.measurable_log)))

theorem measurable_root5 : Measurable (PyMath.root5 : XR → XR) :=
  measurable_iff.mpr (Measurable.ite measurableSet_Iio measurable_const (measurable_fin.comp (measurable_id.pow_const _)))

theorem measurable_fmax : Measurable fun p : XR × XR => PyMath.fmax p.1 p.2 := by
  refine measurable₂ (op := fun x y => PyMath.fmax x y) fun i j => ?_
  fin_cases i <;> fin_cases j <;>
    first
    | exact measurable_const
    | exact measurable_fin.comp (measurable_fst.max measurable_snd)
    | exact measurable_fin.comp measurable_fst
    | exact measurable_fin.comp measurable_snd

end XR

end Oneka
