import Mathlib.Topology.Instances.Matrix
import Verif.Lemmas.FitDetermined
import Verif.Lemmas.TraceMeas
import Verif.Model.BackVelocity

/-! Velocities and fits of a model that depends on random numbers: what they are is measurable. -/

namespace Oneka

open MeasureTheory Matrix

section
variable {D E : Type} [MeasurableSpace D] [MeasurableSpace E]

/-- the attributes are measurable functions of the random numbers -/
structure MeasModel (m : D → Aquifer ℝ) : Prop where
  base : Measurable fun d => (m d).base
  conductivity : Measurable fun d => (m d).conductivity
  porosity : Measurable fun d => (m d).porosity
  thickness : Measurable fun d => (m d).thickness
  xo : Measurable fun d => (m d).xo
  yo : Measurable fun d => (m d).yo
  coef : Measurable fun d => (m d).coef
  wells : ∃ W : List (D → Well ℝ), (∀ w ∈ W, Measurable (fun d => (w d).xw) ∧ Measurable (fun d => (w d).yw) ∧ Measurable fun d => (w d).qw) ∧
    ∀ d, (m d).wells = W.map (· d)

theorem meas_q (r : ℚ) : Measurable fun _ : E => (PyMath.q r : XR) := measurable_const

theorem meas_potentialWells {m : D → Aquifer ℝ} (hm : MeasModel m) {d : E → D} {x y : E → XR} (hd : Measurable d) (hx : Measurable x) (hy : Measurable y) :
    Measurable fun e => (m (d e)).toX.potentialWells (x e) (y e) := by
  obtain ⟨W, hW, hw⟩ := hm.wells
  unfold Aquifer.potentialWells Aquifer.toX
  simp only [hw, List.map_map, List.foldl_map]
  generalize (PyMath.q 0 : XR) = z
  have key : ∀ (W : List (D → Well ℝ)), (∀ w ∈ W, Measurable (fun d => (w d).xw) ∧ Measurable (fun d => (w d).yw) ∧ Measurable fun d => (w d).qw) →
      ∀ z : E → XR, Measurable z → Measurable fun e => List.foldl (fun (p : XR) (w : D → Well ℝ) =>
        p + XR.fin (w (d e)).qw * PyMath.log ((x e - XR.fin (w (d e)).xw) * (x e - XR.fin (w (d e)).xw) + (y e - XR.fin (w (d e)).yw) * (y e - XR.fin (w (d e)).yw)) * PyMath.q Aquifer.fourPiInv) (z e) W := by
    intro W
    induction W with
    | nil => intro _ z hz; exact hz
    | cons w W ih =>
      intro h z hz
      obtain ⟨h1, h2, h3⟩ := h w (by simp)
      simp only [List.foldl_cons]
      refine ih (fun w' hw' => h w' (by simp [hw'])) _ ?_
      have a := hx.sub (XR.measurable_fin.comp (h1.comp hd))
      have b := hy.sub (XR.measurable_fin.comp (h2.comp hd))
      exact hz.add (((XR.measurable_fin.comp (h3.comp hd)).mul (XR.measurable_log.comp ((a.mul a).add (b.mul b)))).mul measurable_const)
  exact key W hW (fun _ => z) measurable_const

theorem meas_coef {m : D → Aquifer ℝ} (hm : MeasModel m) {d : E → D} (hd : Measurable d) (i : Fin 6) : Measurable fun e => (m (d e)).toX.coef i :=
  XR.measurable_fin.comp ((measurable_pi_iff.mp hm.coef i).comp hd)

theorem meas_potential {m : D → Aquifer ℝ} (hm : MeasModel m) {d : E → D} {x y : E → XR} (hd : Measurable d) (hx : Measurable x) (hy : Measurable y) :
    Measurable fun e => (m (d e)).toX.potential (x e) (y e) := by
  have a : Measurable fun e => x e - (m (d e)).toX.xo := hx.sub (XR.measurable_fin.comp (hm.xo.comp hd))
  have b : Measurable fun e => y e - (m (d e)).toX.yo := hy.sub (XR.measurable_fin.comp (hm.yo.comp hd))
  have c := meas_coef hm hd
  exact ((((((c 0).mul (a.mul a)).add ((c 1).mul (b.mul b))).add (((c 2).mul a).mul b)).add ((c 3).mul a)).add ((c 4).mul b)).add (c 5) |>.add (meas_potentialWells hm hd hx hy)

theorem meas_discharge {m : D → Aquifer ℝ} (hm : MeasModel m) {d : E → D} {x y : E → XR} (hd : Measurable d) (hx : Measurable x) (hy : Measurable y) :
    Measurable fun e => (m (d e)).toX.discharge (x e) (y e) := by
  have a : Measurable fun e => x e - (m (d e)).toX.xo := hx.sub (XR.measurable_fin.comp (hm.xo.comp hd))
  have b : Measurable fun e => y e - (m (d e)).toX.yo := hy.sub (XR.measurable_fin.comp (hm.yo.comp hd))
  have c := meas_coef hm hd
  have hQ : Measurable fun e => (-(PyMath.q 2 * (m (d e)).toX.coef 0 * (x e - (m (d e)).toX.xo) + (m (d e)).toX.coef 2 * (y e - (m (d e)).toX.yo) + (m (d e)).toX.coef 3),
      -(PyMath.q 2 * (m (d e)).toX.coef 1 * (y e - (m (d e)).toX.yo) + (m (d e)).toX.coef 2 * (x e - (m (d e)).toX.xo) + (m (d e)).toX.coef 4)) :=
    (((((measurable_const.mul (c 0)).mul a).add ((c 2).mul b)).add (c 3)).neg).prodMk (((((measurable_const.mul (c 1)).mul b).add ((c 2).mul a)).add (c 4)).neg)
  obtain ⟨W, hW, hw⟩ := hm.wells
  have key : ∀ (W : List (D → Well ℝ)), (∀ w ∈ W, Measurable (fun d => (w d).xw) ∧ Measurable (fun d => (w d).yw) ∧ Measurable fun d => (w d).qw) →
      ∀ z : E → XR × XR, Measurable z → Measurable fun e => List.foldl (fun (Q : XR × XR) (w : D → Well ℝ) =>
        (Q.1 + (-XR.fin (w (d e)).qw) * (x e - XR.fin (w (d e)).xw) / ((x e - XR.fin (w (d e)).xw) * (x e - XR.fin (w (d e)).xw) + (y e - XR.fin (w (d e)).yw) * (y e - XR.fin (w (d e)).yw)) * PyMath.q Aquifer.twoPiInv,
         Q.2 + (-XR.fin (w (d e)).qw) * (y e - XR.fin (w (d e)).yw) / ((x e - XR.fin (w (d e)).xw) * (x e - XR.fin (w (d e)).xw) + (y e - XR.fin (w (d e)).yw) * (y e - XR.fin (w (d e)).yw)) * PyMath.q Aquifer.twoPiInv)) (z e) W := by
    intro W
    induction W with
    | nil => intro _ z hz; exact hz
    | cons w W ih =>
      intro h z hz
      obtain ⟨h1, h2, h3⟩ := h w (by simp)
      simp only [List.foldl_cons]
      refine ih (fun w' hw' => h w' (by simp [hw'])) _ ?_
      have a := hx.sub (XR.measurable_fin.comp (h1.comp hd))
      have b := hy.sub (XR.measurable_fin.comp (h2.comp hd))
      have q := (XR.measurable_fin.comp (h3.comp hd)).neg
      exact (hz.fst.add (((q.mul a).div ((a.mul a).add (b.mul b))).mul measurable_const)).prodMk
        (hz.snd.add (((q.mul b).div ((a.mul a).add (b.mul b))).mul measurable_const))
  have := key W hW _ hQ
  unfold Aquifer.discharge
  have e1 : ∀ e, (m (d e)).toX.wells = (W.map (· (d e))).map fun w => ⟨.fin w.xw, .fin w.yw, .fin w.rw, .fin w.qw⟩ := fun e => by
    unfold Aquifer.toX; simp only [hw]
  simp only [e1, List.map_map, List.foldl_map]
  exact this

theorem toOption_ite {A : Type} (p : Prop) [Decidable p] (x y : Except PyErr A) : (if p then x else y).toOption = if p then x.toOption else y.toOption := by
  split <;> rfl

theorem PartMeasurable.ite' {B : Type} [MeasurableSpace B] {p : D → Prop} [∀ d, Decidable (p d)] (hp : MeasurableSet {d | p d}) {f g : D → Option B} (hf : PartMeasurable f) (hg : PartMeasurable g) :
    PartMeasurable fun d => if p d then f d else g d := by
  refine (PartMeasurable.ite hp hf hg).congr fun d => ?_
  by_cases h : p d
  · rw [if_pos h, if_pos h]
  · rw [if_neg h, if_neg h]

theorem meas_head {m : D → Aquifer ℝ} (hm : MeasModel m) {d : E → D} {x y : E → XR} (hd : Measurable d) (hx : Measurable x) (hy : Measurable y) :
    PartMeasurable fun e => ((m (d e)).toX.head (x e) (y e)).toOption := by
  have hp := meas_potential hm hd hx hy
  have hk : Measurable fun e => (m (d e)).toX.conductivity := XR.measurable_fin.comp (hm.conductivity.comp hd)
  have ht : Measurable fun e => (m (d e)).toX.thickness := XR.measurable_fin.comp (hm.thickness.comp hd)
  have hc := ((meas_q (E := E) (1/2)).mul hk).mul (ht.mul ht)
  unfold Aquifer.head
  simp only [toOption_ite]
  haveI : Nonempty XR := ⟨.nan⟩
  refine PartMeasurable.ite' (XR.measurableSet_le' hp measurable_const) PartMeasurable.none
    (PartMeasurable.ite' (XR.measurableSet_lt' hp hc) (PartMeasurable.some (XR.measurable_sqrt.comp (((meas_q 2).mul hp).div hk)))
      (PartMeasurable.some ((hp.add hc).div (hk.mul ht))))

theorem meas_velocityConfined {m : D → Aquifer ℝ} (hm : MeasModel m) {d : E → D} {x y : E → XR} (hd : Measurable d) (hx : Measurable x) (hy : Measurable y) :
    Measurable fun e => (m (d e)).toX.velocityConfined (x e) (y e) := by
  have hQ := meas_discharge hm hd hx hy
  have ht : Measurable fun e => (m (d e)).toX.thickness := XR.measurable_fin.comp (hm.thickness.comp hd)
  have hn : Measurable fun e => (m (d e)).toX.porosity := XR.measurable_fin.comp (hm.porosity.comp hd)
  exact (hQ.fst.div (ht.mul hn)).prodMk (hQ.snd.div (ht.mul hn))

theorem meas_velocity {m : D → Aquifer ℝ} (hm : MeasModel m) {d : E → D} {x y : E → XR} (hd : Measurable d) (hx : Measurable x) (hy : Measurable y) :
    PartMeasurable fun e => ((m (d e)).toX.velocity (x e) (y e)).toOption := by
  have hQ := meas_discharge hm hd hx hy
  have ht : Measurable fun e => (m (d e)).toX.thickness := XR.measurable_fin.comp (hm.thickness.comp hd)
  have hn : Measurable fun e => (m (d e)).toX.porosity := XR.measurable_fin.comp (hm.porosity.comp hd)
  haveI : Nonempty (XR × XR) := ⟨(.nan, .nan)⟩
  have key : PartMeasurable fun e => ((m (d e)).toX.head (x e) (y e)).toOption.bind fun h =>
      if h ≤ PyMath.q 0 then (none : Option (XR × XR))
      else if (m (d e)).toX.thickness < h then
        some (((m (d e)).toX.discharge (x e) (y e)).1 / ((m (d e)).toX.thickness * (m (d e)).toX.porosity), ((m (d e)).toX.discharge (x e) (y e)).2 / ((m (d e)).toX.thickness * (m (d e)).toX.porosity))
      else some (((m (d e)).toX.discharge (x e) (y e)).1 / (h * (m (d e)).toX.porosity), ((m (d e)).toX.discharge (x e) (y e)).2 / (h * (m (d e)).toX.porosity)) := by
    refine (meas_head hm hd hx hy).bind ?_
    have e1 : Measurable fun p : E × XR => p.1 := measurable_fst
    have h : Measurable fun p : E × XR => p.2 := measurable_snd
    replace hQ := hQ.comp e1
    replace ht := ht.comp e1
    replace hn := hn.comp e1
    exact PartMeasurable.ite' (XR.measurableSet_le' h measurable_const) PartMeasurable.none
      (PartMeasurable.ite' (XR.measurableSet_lt' ht h) (PartMeasurable.some ((hQ.fst.div (ht.mul hn)).prodMk (hQ.snd.div (ht.mul hn))))
        (PartMeasurable.some ((hQ.fst.div (h.mul hn)).prodMk (hQ.snd.div (h.mul hn)))))
  refine key.congr fun e => ?_
  unfold Aquifer.velocity
  simp only
  cases (m (d e)).toX.head (x e) (y e) with
  | error _ => rfl
  | ok h =>
    simp only [toOption_ite]
    rfl

theorem meas_reverse {m : D → Aquifer ℝ} (hm : MeasModel m) (confined : Bool) : MeasVel fun d (_ : ℕ) p => (m d).toX.reverseVelocity confined p := by
  intro n
  have hd : Measurable fun p : D × (XR × XR) => p.1 := measurable_fst
  have hp : Measurable fun p : D × (XR × XR) => p.2 := measurable_snd
  have key : PartMeasurable fun p : D × (XR × XR) => (if confined then Except.ok ((m p.1).toX.velocityConfined p.2.1 p.2.2) else (m p.1).toX.velocity p.2.1 p.2.2).toOption := by
    cases confined with
    | true => exact PartMeasurable.some (meas_velocityConfined hm hd hp.fst hp.snd)
    | false => exact meas_velocity hm hd hp.fst hp.snd
  have hv : Measurable fun p : (D × (XR × XR)) × (XR × XR) => p.2 := measurable_snd
  refine (key.map (h := fun _ v => (-v.1, -v.2)) (hv.fst.neg.prodMk hv.snd.neg)).congr fun p => ?_
  show _ = (Except.map (fun v => (-v.1, -v.2)) (if confined then Except.ok ((m p.1).toX.velocityConfined p.2.1 p.2.2) else (m p.1).toX.velocity p.2.1 p.2.2)).toOption
  cases (if confined then Except.ok ((m p.1).toX.velocityConfined p.2.1 p.2.2) else (m p.1).toX.velocity p.2.1 p.2.2) <;> rfl

/-! ## The fit -/

theorem meas_fosm {m : D → Aquifer ℝ} (hm : MeasModel m) (o : Obs) : PartMeasurable fun d => ((m d).fosm o).toOption := by
  have hh : Measurable fun d => o.z - (m d).base := measurable_const.sub hm.base
  unfold Aquifer.fosm
  simp only [toOption_ite]
  refine PartMeasurable.ite' (measurableSet_le hm.thickness hh) (PartMeasurable.some ?_) (PartMeasurable.ite' (measurableSet_lt measurable_const hh) (PartMeasurable.some ?_) PartMeasurable.none)
  · exact ((hm.conductivity.mul hm.thickness).mul (hh.sub (measurable_const.mul hm.thickness))).prodMk ((hm.conductivity.mul hm.thickness).mul measurable_const)
  · exact ((measurable_const.mul hm.conductivity).mul ((hh.pow_const 2).add measurable_const)).prodMk ((hm.conductivity.mul hh).mul measurable_const)

theorem meas_fitRow {m : D → Aquifer ℝ} (hm : MeasModel m) (xo yo : ℝ) (o : Obs) : PartMeasurable fun d => ((m d).fitRow xo yo o).toOption := by
  haveI : Nonempty ((Fin 6 → XR) × XR) := ⟨(fun _ => .nan, .nan)⟩
  obtain ⟨W, hW, hw⟩ := hm.wells
  have key : PartMeasurable fun d => ((m d).fosm o).toOption.bind fun p =>
      if (W.isEmpty = true ∧ p.2 = 0) then (none : Option ((Fin 6 → XR) × XR)) else
        some (fun i => .fin ((![(o.x - xo) ^ 2, (o.y - yo) ^ 2, (o.x - xo) * (o.y - yo), o.x - xo, o.y - yo, 1] : Fin 6 → ℝ) i) / .fin p.2,
          (.fin p.1 - (m d).toX.potentialWells (.fin o.x) (.fin o.y)) / .fin p.2) := by
    refine (meas_fosm hm o).bind ?_
    have hp : Measurable fun p : D × (ℝ × ℝ) => p.2 := measurable_snd
    have hd : Measurable fun p : D × (ℝ × ℝ) => p.1 := measurable_fst
    refine PartMeasurable.ite' ?_ PartMeasurable.none (PartMeasurable.some ?_)
    · by_cases hW : W.isEmpty = true
      · simp only [hW, true_and]; exact hp.snd (measurableSet_singleton 0)
      · exact MeasurableSet.congr MeasurableSet.empty (by ext p; simp [hW])
    · refine Measurable.prodMk (measurable_pi_iff.mpr fun i => ?_) ?_
      · exact Measurable.div (f := fun _ => XR.fin ((![(o.x - xo) ^ 2, (o.y - yo) ^ 2, (o.x - xo) * (o.y - yo), o.x - xo, o.y - yo, 1] : Fin 6 → ℝ) i)) measurable_const (XR.measurable_fin.comp hp.snd)
      · exact ((XR.measurable_fin.comp hp.fst).sub (meas_potentialWells hm hd measurable_const measurable_const)).div (XR.measurable_fin.comp hp.snd)
  refine key.congr fun d => ?_
  unfold Aquifer.fitRow
  cases (m d).fosm o with
  | error _ => rfl
  | ok p =>
    have e : (m d).wells.isEmpty = W.isEmpty := by rw [hw]; cases W <;> rfl
    simp only [toOption_ite, e, Bool.and_eq_true, decide_eq_true_eq]
    by_cases h : W.isEmpty = true ∧ p.2 = 0
    · simp [Except.toOption, h]
    · simp only [Except.toOption, Option.bind_some, if_neg h]

theorem meas_isFin {f : E → XR} (hf : Measurable f) : MeasurableSet {e | (f e).IsFin} := by
  have h : MeasurableSet {x : XR | x.IsFin} := by
    show MeasurableSet (XR.fin ⁻¹' {x : XR | x.IsFin})
    simp [XR.IsFin]
  exact hf h

theorem meas_finPart {r : E → (Fin 6 → XR) × XR} (hr : Measurable r) : PartMeasurable fun e => Aquifer.finPart (r e) := by
  classical
  unfold Aquifer.finPart
  have hi : ∀ i, Measurable fun e => (r e).1 i := fun i => measurable_pi_iff.mp hr.fst i
  refine PartMeasurable.ite ?_ PartMeasurable.none (PartMeasurable.some ((measurable_pi_iff.mpr fun i => XR.measurable_val.comp (hi i)).prodMk (XR.measurable_val.comp hr.snd)))
  have : {e | NonFinite (r e)} = (⋃ i, {e | ((r e).1 i).IsFin}ᶜ) ∪ {e | (r e).2.IsFin}ᶜ := by
    ext e
    simp [NonFinite]
  rw [this]
  exact (MeasurableSet.iUnion fun i => (meas_isFin (hi i)).compl).union (meas_isFin hr.snd).compl

theorem meas_entry {f : E → Matrix (Fin 6) (Fin 6) ℝ} (hf : Measurable f) (i j : Fin 6) : Measurable fun e => f e i j :=
  (measurable_pi_apply j).comp ((measurable_pi_apply (X := fun _ : Fin 6 => Fin 6 → ℝ) i).comp hf)

theorem meas_fitSys {m : D → Aquifer ℝ} (hm : MeasModel m) (xo yo : ℝ) (obs : List Obs) : PartMeasurable fun d => (m d).fitSys xo yo obs := by
  induction obs with
  | nil => exact PartMeasurable.some measurable_const
  | cons o os ih =>
    unfold Aquifer.fitSys
    refine (meas_fitRow hm xo yo o).bind (h := fun d r => (Aquifer.finPart r).bind fun p => ((m d).fitSys xo yo os).bind fun s =>
      some ((fun i j => p.1 i * p.1 j + s.1 i j : Matrix (Fin 6) (Fin 6) ℝ), fun i => p.1 i * p.2 + s.2 i)) ?_
    refine (meas_finPart measurable_snd).bind (h := fun (q : D × ((Fin 6 → XR) × XR)) p => ((m q.1).fitSys xo yo os).bind fun s =>
      some ((fun i j => p.1 i * p.1 j + s.1 i j : Matrix (Fin 6) (Fin 6) ℝ), fun i => p.1 i * p.2 + s.2 i)) ?_
    refine (ih.comp (g := fun q : (D × ((Fin 6 → XR) × XR)) × ((Fin 6 → ℝ) × ℝ) => q.1.1) (measurable_fst.comp measurable_fst)).bind
      (h := fun q s => some ((fun i j => q.2.1 i * q.2.1 j + s.1 i j : Matrix (Fin 6) (Fin 6) ℝ), fun i => q.2.1 i * q.2.2 + s.2 i)) ?_
    refine PartMeasurable.some ?_
    have hq : Measurable fun q : ((D × ((Fin 6 → XR) × XR)) × ((Fin 6 → ℝ) × ℝ)) × (Matrix (Fin 6) (Fin 6) ℝ × (Fin 6 → ℝ)) => q.1.2 := measurable_snd.comp measurable_fst
    have hs : Measurable fun q : ((D × ((Fin 6 → XR) × XR)) × ((Fin 6 → ℝ) × ℝ)) × (Matrix (Fin 6) (Fin 6) ℝ × (Fin 6 → ℝ)) => q.2 := measurable_snd
    have h1 : ∀ i, Measurable fun q : ((D × ((Fin 6 → XR) × XR)) × ((Fin 6 → ℝ) × ℝ)) × (Matrix (Fin 6) (Fin 6) ℝ × (Fin 6 → ℝ)) => q.1.2.1 i := fun i => measurable_pi_iff.mp hq.fst i
    refine Measurable.prodMk (measurable_pi_iff.mpr fun i => measurable_pi_iff.mpr fun j => ?_) (measurable_pi_iff.mpr fun i => ?_)
    · exact ((h1 i).mul (h1 j)).add (meas_entry hs.fst i j)
    · exact ((h1 i).mul hq.snd).add (measurable_pi_iff.mp hs.snd i)

instance : OpensMeasurableSpace (Matrix (Fin 6) (Fin 6) ℝ) := inferInstanceAs (OpensMeasurableSpace (Fin 6 → Fin 6 → ℝ))

theorem meas_det {f : E → Matrix (Fin 6) (Fin 6) ℝ} (hf : Measurable f) : Measurable fun e => (f e).det := by
  have h : Continuous fun M : Matrix (Fin 6) (Fin 6) ℝ => M.det := continuous_id.matrix_det
  exact h.measurable.comp hf

theorem meas_inv {f : E → Matrix (Fin 6) (Fin 6) ℝ} (hf : Measurable f) : Measurable fun e => (f e)⁻¹ := by
  have h : Continuous fun M : Matrix (Fin 6) (Fin 6) ℝ => M.adjugate := continuous_id.matrix_adjugate
  refine measurable_pi_iff.mpr fun i => measurable_pi_iff.mpr fun j => ?_
  have : (fun e => (f e)⁻¹ i j) = fun e => (f e).det⁻¹ * (f e).adjugate i j := by
    funext e
    rw [Matrix.inv_def, Ring.inverse_eq_inv']
    rfl
  show Measurable fun e => (f e)⁻¹ i j
  rw [this]
  exact (meas_det hf).inv.mul ((h.matrix_elem i j).measurable.comp hf)

/-- Expected coefficients and covariance. -/
theorem meas_fit {la : LinAlg} (hla : la.Correct) (hc : la.Converges) (hs : la.Strict) {m : D → Aquifer ℝ} (hm : MeasModel m) (xo yo : ℝ) (obs : List Obs) :
    PartMeasurable fun d => ((m d).fitRegionalFlow la obs xo yo).2.toOption := by
  classical
  refine PartMeasurable.congr ?_ fun d => (Aquifer.fit_determined hla hc hs (m d) xo yo obs).symm
  refine (meas_fitSys hm xo yo obs).bind (h := fun _ s => if s.1.det = 0 then none else some (s.1⁻¹ *ᵥ s.2, s.1⁻¹)) ?_
  have hs : Measurable fun q : D × (Matrix (Fin 6) (Fin 6) ℝ × (Fin 6 → ℝ)) => q.2 := measurable_snd
  have hi := meas_inv hs.fst
  refine PartMeasurable.ite' ((meas_det hs.fst) (measurableSet_singleton 0)) PartMeasurable.none (PartMeasurable.some (Measurable.prodMk (measurable_pi_iff.mpr fun i => ?_) hi))
  unfold Matrix.mulVec dotProduct
  exact Finset.measurable_sum _ fun j _ => (meas_entry hi i j).mul (measurable_pi_iff.mp hs.snd j)

end

end Oneka
