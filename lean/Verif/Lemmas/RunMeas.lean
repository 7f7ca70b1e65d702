import Verif.Lemmas.AquiferMeas
import Verif.Lemmas.PropsSequence

/-! Realizations as functions of their random numbers: whether they return and what they capture is measurable. -/

namespace Oneka

open MeasureTheory

section
variable {D E : Type} [MeasurableSpace D] [MeasurableSpace E]

open Classical in
/-- the real number that a float stands for -/
noncomputable def realOf (x : XR) : Option ℝ := if x.IsFin then some x.val else none

theorem meas_realOf {f : E → XR} (hf : Measurable f) : PartMeasurable fun e => realOf (f e) := by
  classical
  unfold realOf
  exact PartMeasurable.ite (meas_isFin hf) (PartMeasurable.some (XR.measurable_val.comp hf)) PartMeasurable.none

theorem asReal_float (x : XR) : (PyVal.asReal (.ok (.float x))).toOption = realOf x := by
  unfold realOf
  cases x <;> simp [PyVal.asReal, XR.IsFin, XR.val, Except.toOption]

theorem meas_sample (d : Dist) {u : E → ℝ} (hu : Measurable u) : PartMeasurable fun e => (d.sample (u e)).toOption := by
  classical
  unfold Dist.sample
  rcases d with c | l
  · exact PartMeasurable.some (g := fun _ => c) measurable_const
  match l with
  | [] => exact PartMeasurable.none
  | [_] => exact PartMeasurable.none
  | [a, b] =>
    refine (meas_realOf (f := fun e => XR.fin (a + (b - a) * u e)) (XR.measurable_fin.comp (measurable_const.add (measurable_const.mul hu)))).congr fun e => ?_
    rw [← asReal_float]
    rfl
  | [a, m, b] =>
    have hX : Measurable fun e => XR.fin (u e) := XR.measurable_fin.comp hu
    have key : PartMeasurable fun e => if XR.fin m < XR.fin a then none else if XR.fin b < XR.fin m then none else
        if XR.fin a ≤ XR.fin b ∧ XR.fin b ≤ XR.fin a then none else
        if XR.fin (u e) ≤ (XR.fin m - XR.fin a) / (XR.fin b - XR.fin a) then realOf (XR.fin a + PyMath.sqrt (XR.fin (u e) * ((XR.fin m - XR.fin a) * (XR.fin b - XR.fin a))))
        else realOf (XR.fin b - PyMath.sqrt ((XR.fin 1 - XR.fin (u e)) * ((XR.fin b - XR.fin m) * (XR.fin b - XR.fin a)))) := by
      refine PartMeasurable.ite' (.const _) PartMeasurable.none (PartMeasurable.ite' (.const _) PartMeasurable.none (PartMeasurable.ite' (.const _) PartMeasurable.none
        (PartMeasurable.ite' (XR.measurableSet_le' hX measurable_const) (meas_realOf ?_) (meas_realOf ?_))))
      · exact measurable_const.add (XR.measurable_sqrt.comp (hX.mul measurable_const))
      · exact measurable_const.sub (XR.measurable_sqrt.comp ((measurable_const.sub hX).mul measurable_const))
    refine key.congr fun e => ?_
    simp only [← asReal_float]
    show _ = (PyVal.asReal (npTriangular (.float (.fin a)) (.float (.fin m)) (.float (.fin b)) (u e))).toOption
    unfold npTriangular
    simp only [PyVal.num]
    split_ifs <;> rfl
  | _ :: _ :: _ :: _ :: _ => exact PartMeasurable.none

/-- the value of a distribution, 0 if there is none -/
noncomputable def drawn (d : Dist) (u : ℝ) : ℝ := (d.sample u).toOption.getD 0

theorem drawn_ok {d : Dist} {u r : ℝ} (h : d.sample u = .ok r) : drawn d u = r := by
  unfold drawn
  rw [h]
  rfl

theorem meas_getD {f : E → Option ℝ} (hf : PartMeasurable f) : Measurable fun e => (f e).getD 0 := by
  classical
  obtain ⟨s, g, hs, hg, e⟩ := hf
  have : (fun e => (f e).getD 0) = fun e => if e ∈ s then g e else 0 := by
    funext d
    by_cases hd : d ∈ s
    · rw [(e d _).mpr ⟨hd, rfl⟩, if_pos hd]; rfl
    · rw [if_neg hd]
      cases h : f d with
      | none => rfl
      | some b => exact absurd ((e d b).mp h).1 hd
  rw [this]
  exact Measurable.ite hs hg measurable_const

theorem meas_drawn (d : Dist) {u : E → ℝ} (hu : Measurable u) : Measurable fun e => drawn d (u e) := meas_getD (meas_sample d hu)

/-- the wells as functions of the numbers -/
noncomputable def drawnWells (ws : List SWell) : List (Numbers → Well ℝ) := ws.mapIdx fun j w x => ⟨w.xw, w.yw, w.rw, drawn w.q (x.1 j)⟩

/-- the model before the fit as a function of the numbers -/
noncomputable def drawnModel (a : RunArgs) (t : SWell) (x : Numbers) : Aquifer ℝ :=
  ⟨a.base, drawn a.cDist (x.1 a.wells.length), drawn a.pDist (x.1 (a.wells.length + 1)), drawn a.tDist (x.1 (a.wells.length + 2)),
    (drawnWells a.wells).map (· x), t.xw, t.yw, 0⟩

/-- the model after the fit -/
noncomputable def fittedModel (a : RunArgs) (t : SWell) (x : Numbers) (c : Fin 6 → ℝ) : Aquifer ℝ :=
  ⟨a.base, drawn a.cDist (x.1 a.wells.length), drawn a.pDist (x.1 (a.wells.length + 1)), drawn a.tDist (x.1 (a.wells.length + 2)),
    (drawnWells a.wells).map (· x), t.xw, t.yw, c⟩

/-- all distributions have values -/
def DrawOk (a : RunArgs) (x : Numbers) : Prop :=
  (∀ j, ∀ w : SWell, a.wells[j]? = some w → ∃ v, (w.q.sample (x.1 j)).toOption = some v) ∧ (∃ v, (a.cDist.sample (x.1 a.wells.length)).toOption = some v) ∧
    (∃ v, (a.pDist.sample (x.1 (a.wells.length + 1))).toOption = some v) ∧ ∃ v, (a.tDist.sample (x.1 (a.wells.length + 2))).toOption = some v

/-- the coefficients -/
noncomputable def drawnCoef (a : RunArgs) (la : LinAlg) (mv : NormalGen) (t : SWell) (x : Numbers) : Option (Fin 6 → ℝ) :=
  ((drawnModel a t x).fitRegionalFlow la a.obs t.xw t.yw).2.toOption.bind fun p => (mv p.1 p.2 x.2).toOption

theorem meas_u (j : ℕ) : Measurable fun x : Numbers => x.1 j := (measurable_pi_apply j).comp measurable_fst

theorem meas_drawnModel (a : RunArgs) (t : SWell) : MeasModel (drawnModel a t) where
  base := measurable_const
  conductivity := meas_drawn _ (meas_u _)
  porosity := meas_drawn _ (meas_u _)
  thickness := meas_drawn _ (meas_u _)
  xo := measurable_const
  yo := measurable_const
  coef := measurable_const
  wells := by
    refine ⟨drawnWells a.wells, fun w hw => ?_, fun d => rfl⟩
    obtain ⟨j, hj, rfl⟩ := List.mem_mapIdx.mp hw
    exact ⟨measurable_const, measurable_const, meas_drawn _ (meas_u _)⟩

theorem meas_drawOk (a : RunArgs) : MeasurableSet {x | DrawOk a x} := by
  unfold DrawOk
  refine MeasurableSet.inter (s₁ := {x : Numbers | ∀ j, ∀ w : SWell, a.wells[j]? = some w → ∃ v, (w.q.sample (x.1 j)).toOption = some v}) ?_ ((meas_sample a.cDist (meas_u _)).isSome.inter ((meas_sample a.pDist (meas_u _)).isSome.inter (meas_sample a.tDist (meas_u _)).isSome))
  have : {x : Numbers | ∀ j, ∀ w : SWell, a.wells[j]? = some w → ∃ v, (w.q.sample (x.1 j)).toOption = some v} =
      ⋂ j, {x : Numbers | ∀ w : SWell, a.wells[j]? = some w → ∃ v, (w.q.sample (x.1 j)).toOption = some v} := by
    ext x; simp
  rw [this]
  refine MeasurableSet.iInter fun j => ?_
  cases hj : a.wells[j]? with
  | none => simp
  | some w =>
    simp only [Option.some.injEq, forall_eq']
    exact (meas_sample w.q (meas_u j)).isSome

theorem meas_drawnCoef (a : RunArgs) {la : LinAlg} (hla : la.Correct) (hc : la.Converges) (hs : la.Strict) {mv : NormalGen} (hmv : mv.IsMeasurable) (t : SWell) :
    PartMeasurable (drawnCoef a la mv t) := by
  refine (meas_fit hla hc hs (meas_drawnModel a t) t.xw t.yw a.obs).bind (h := fun x p => (mv p.1 p.2 x.2).toOption) ?_
  exact hmv.comp (g := fun q : Numbers × ((Fin 6 → ℝ) × Matrix (Fin 6) (Fin 6) ℝ) => (q.2, q.1.2)) (measurable_snd.prodMk (measurable_snd.comp measurable_fst))

/-- the `k`-th trace with coefficients `c` -/
def TraceOf (a : RunArgs) (t : SWell) (x : Numbers) (c : Fin 6 → ℝ) (k : ℕ) (tr : Trace XR) : Prop :=
  computeBacktrace (.fin (t.xw + (t.rw + 1) * Real.cos (2 * Real.pi * k / a.npaths)))
      (.fin (t.yw + (t.rw + 1) * Real.sin (2 * Real.pi * k / a.npaths))) a.duration a.tol a.maxstep
      (fun _ p => (fittedModel a t x c).toX.reverseVelocity a.confined p) = some tr

theorem toOption_some {A : Type} {e : Except PyErr A} {v : A} : e.toOption = some v ↔ e = .ok v := by
  cases e <;> simp [Except.toOption]

theorem realized_iff {a : RunArgs} {la : LinAlg} {mv : NormalGen} {t : SWell} {x : Numbers} {P : List (Trace XR) → Prop} :
    (∃ L, Realized a la t (fun d j => d.sample (x.1 j)) (fun ev cov => mv ev cov x.2) (fun _ _ => none) L ∧ P L.traces) ↔
      DrawOk a x ∧ ∃ c, drawnCoef a la mv t x = some c ∧ ∃ trs : List (Trace XR), trs.length = a.npaths.toNat ∧ (∀ k tr, trs[k]? = some tr → TraceOf a t x c k tr) ∧ P trs := by
  constructor
  · rintro ⟨L, R, hP⟩
    have hw : L.model.wells = (drawnModel a t x).wells := by
      refine List.ext_getElem? fun j => ?_
      by_cases hj : j < a.wells.length
      · obtain ⟨d, h1, h2⟩ := R.wells j _ (List.getElem?_eq_getElem hj)
        rw [h1]
        simp [drawnModel, drawnWells, hj, drawn_ok h2]
      · rw [List.getElem?_eq_none (by rw [R.wells_length]; omega), List.getElem?_eq_none (by simp [drawnModel, drawnWells]; omega)]
    have hm : L.model = fittedModel a t x L.model.coef := by
      have h1 := R.base
      have h2 := drawn_ok R.conductivity
      have h3 := drawn_ok R.porosity
      have h4 := drawn_ok R.thickness
      have h5 := R.origin
      generalize L.model = A at *
      cases A
      simp only [drawnModel, fittedModel, Aquifer.mk.injEq, and_true] at *
      exact ⟨h1, h2.symm, h3.symm, h4.symm, hw, h5.1, h5.2⟩
    refine ⟨⟨fun j w hj => ?_, ⟨_, toOption_some.mpr R.conductivity⟩, ⟨_, toOption_some.mpr R.porosity⟩, ⟨_, toOption_some.mpr R.thickness⟩⟩, L.model.coef, ?_, L.traces, R.traces_length, fun k tr hk => ?_, hP⟩
    · obtain ⟨d, -, h2⟩ := R.wells j w hj
      exact ⟨d, toOption_some.mpr h2⟩
    · have := R.fit
      rw [hm, fit_congr (m := drawnModel a t x) (m' := fittedModel a t x L.model.coef) rfl rfl rfl rfl] at this
      unfold drawnCoef
      rw [this]
      exact toOption_some.mpr R.coef
    · unfold TraceOf
      rw [← hm]
      exact R.traces k tr hk
  · rintro ⟨⟨h1, ⟨v2, h2⟩, ⟨v3, h3⟩, ⟨v4, h4⟩⟩, c, hc, trs, hl, ht, hP⟩
    obtain ⟨p, hp, hc'⟩ := Option.bind_eq_some_iff.mp hc
    have e2 := drawn_ok (toOption_some.mp h2)
    have e3 := drawn_ok (toOption_some.mp h3)
    have e4 := drawn_ok (toOption_some.mp h4)
    refine ⟨⟨fittedModel a t x c, p.1, p.2, 0, trs⟩, ⟨rfl, by simp [fittedModel, drawnWells], fun j w hj => ?_, ?_, ?_, ?_, ⟨rfl, rfl⟩, ?_, toOption_some.mp hc', hl, fun k tr hk => ht k tr hk⟩, hP⟩
    · obtain ⟨v, hv⟩ := h1 j w hj
      refine ⟨v, ?_, toOption_some.mp hv⟩
      simp [fittedModel, drawnWells, hj, drawn_ok (toOption_some.mp hv)]
    · simp only [fittedModel, e2]; exact toOption_some.mp h2
    · simp only [fittedModel, e3]; exact toOption_some.mp h3
    · simp only [fittedModel, e4]; exact toOption_some.mp h4
    · show (Aquifer.fitRegionalFlow la (fittedModel a t x c) a.obs t.xw t.yw).2 = _
      rw [fit_congr (m := drawnModel a t x) (m' := fittedModel a t x c) rfl rfl rfl rfl]
      exact toOption_some.mp hp

theorem measModel_coef {m : D → Aquifer ℝ} (hm : MeasModel m) {c : D → Fin 6 → ℝ} (hc : Measurable c) : MeasModel fun d => { m d with coef := c d } :=
  ⟨hm.base, hm.conductivity, hm.porosity, hm.thickness, hm.xo, hm.yo, hc, hm.wells⟩

theorem meas_traces (a : RunArgs) (t : SWell) {c : Numbers → Fin 6 → ℝ} (hc : Measurable c) (k : ℕ) (u X Y : ℝ) (b : Bool) :
    MeasurableSet {x | ∃ tr, TraceOf a t x (c x) k tr ∧ (NearTrack tr.path u X Y ↔ b = true)} :=
  meas_backtrace _ _ a.duration a.tol a.maxstep (meas_reverse (m := fun x => fittedModel a t x (c x)) (measModel_coef (meas_drawnModel a t) hc) a.confined) u X Y b

/-- Lists of traces exist if each does. -/
theorem traces_list {n : ℕ} {T : ℕ → Trace XR → Prop} (hT : ∀ k tr tr', T k tr → T k tr' → tr = tr') {Q : Trace XR → Prop} :
    (∃ trs : List (Trace XR), trs.length = n ∧ (∀ k tr, trs[k]? = some tr → T k tr) ∧ ∃ tr ∈ trs, Q tr) ↔
      (∀ k < n, ∃ tr, T k tr) ∧ ∃ k < n, ∃ tr, T k tr ∧ Q tr := by
  constructor
  · rintro ⟨trs, rfl, h, tr, htr, hq⟩
    refine ⟨fun k hk => ⟨_, h k _ (List.getElem?_eq_getElem hk)⟩, ?_⟩
    obtain ⟨k, hk, rfl⟩ := List.mem_iff_getElem.mp htr
    exact ⟨k, hk, _, h k _ (List.getElem?_eq_getElem hk), hq⟩
  · rintro ⟨h, k, hk, tr, h1, h2⟩
    have : Nonempty (Trace XR) := ⟨⟨[], [], none⟩⟩
    choose! f hf using h
    refine ⟨(List.range n).map f, by simp, fun j tr' hj => ?_, ?_⟩
    · rw [List.getElem?_map, Option.map_eq_some_iff] at hj
      obtain ⟨i, hi, rfl⟩ := hj
      obtain ⟨h3, rfl⟩ := List.getElem?_eq_some_iff.mp hi
      rw [List.getElem_range]
      exact hf j (by simpa using h3)
    · refine ⟨f k, List.mem_map.mpr ⟨k, by simpa using hk, rfl⟩, ?_⟩
      rw [hT k _ _ (hf k hk) h1]
      exact h2

theorem traces_list' {n : ℕ} {T : ℕ → Trace XR → Prop} :
    (∃ trs : List (Trace XR), trs.length = n ∧ (∀ k tr, trs[k]? = some tr → T k tr) ∧ True) ↔ ∀ k < n, ∃ tr, T k tr := by
  constructor
  · rintro ⟨trs, rfl, h, -⟩ k hk
    exact ⟨_, h k _ (List.getElem?_eq_getElem hk)⟩
  · intro h
    have : Nonempty (Trace XR) := ⟨⟨[], [], none⟩⟩
    choose! f hf using h
    refine ⟨(List.range n).map f, by simp, fun j tr' hj => ?_, trivial⟩
    rw [List.getElem?_map, Option.map_eq_some_iff] at hj
    obtain ⟨i, hi, rfl⟩ := hj
    obtain ⟨h3, rfl⟩ := List.getElem?_eq_some_iff.mp hi
    rw [List.getElem_range]
    exact hf j (by simpa using h3)

theorem meas_returned (a : RunArgs) (t : SWell) {c : Numbers → Fin 6 → ℝ} (hc : Measurable c) (k : ℕ) : MeasurableSet {x | ∃ tr, TraceOf a t x (c x) k tr} := by
  have h : {x | ∃ tr, TraceOf a t x (c x) k tr} = {x | ∃ tr, TraceOf a t x (c x) k tr ∧ (NearTrack tr.path 0 0 0 ↔ true = true)} ∪
      {x | ∃ tr, TraceOf a t x (c x) k tr ∧ (NearTrack tr.path 0 0 0 ↔ false = true)} := by
    ext x
    simp only [Set.mem_ofPred_eq, Set.mem_union, iff_true, Bool.false_eq_true, iff_false]
    constructor
    · rintro ⟨tr, h⟩
      by_cases hn : NearTrack tr.path 0 0 0
      · exact .inl ⟨tr, h, hn⟩
      · exact .inr ⟨tr, h, hn⟩
    · rintro (⟨tr, h, -⟩ | ⟨tr, h, -⟩) <;> exact ⟨tr, h⟩
  rw [h]
  exact (meas_traces a t hc k 0 0 0 true).union (meas_traces a t hc k 0 0 0 false)

theorem meas_capturedWith (a : RunArgs) {la : LinAlg} (hla : la.Correct) (hc : la.Converges) (hs : la.Strict) {mv : NormalGen} (hmv : mv.IsMeasurable) (t : SWell) (X Y : ℝ) :
    MeasurableSet {x | CapturedWith a la mv t X Y x} := by
  obtain ⟨s, g, hs', hg, e⟩ := meas_drawnCoef a hla hc hs hmv t
  have key : {x | CapturedWith a la mv t X Y x} = {x | DrawOk a x} ∩ (s ∩ ((⋂ k ∈ Set.Iio a.npaths.toNat, {x | ∃ tr, TraceOf a t x (g x) k tr}) ∩
      ⋃ k ∈ Set.Iio a.npaths.toNat, {x | ∃ tr, TraceOf a t x (g x) k tr ∧ (NearTrack tr.path a.umbra X Y ↔ true = true)})) := by
    ext x
    have h1 := realized_iff (a := a) (la := la) (mv := mv) (t := t) (x := x) (P := fun trs => ∃ tr ∈ trs, NearTrack tr.path a.umbra X Y)
    show (∃ L, _ ∧ RealizationLog.Captures L a.umbra X Y) ↔ _
    unfold RealizationLog.Captures
    rw [h1]
    simp only [traces_list (T := TraceOf a t x _) (fun k tr tr' h h' => Option.some.inj (h.symm.trans h')), e]
    simp only [Set.mem_inter_iff, Set.mem_ofPred_eq, Set.mem_iInter, Set.mem_iUnion, Set.mem_Iio, iff_true, exists_prop]
    constructor
    · rintro ⟨h, c, ⟨hx, rfl⟩, h2, h3⟩; exact ⟨h, hx, h2, h3⟩
    · rintro ⟨h, hx, h2, h3⟩; exact ⟨h, g x, ⟨hx, rfl⟩, h2, h3⟩
  rw [key]
  exact (meas_drawOk a).inter (hs'.inter ((MeasurableSet.biInter (Set.to_countable _) fun k _ => meas_returned a t hg k).inter
    (MeasurableSet.biUnion (Set.to_countable _) fun k _ => meas_traces a t hg k a.umbra X Y true)))

theorem meas_returnsWith (a : RunArgs) {la : LinAlg} (hla : la.Correct) (hc : la.Converges) (hs : la.Strict) {mv : NormalGen} (hmv : mv.IsMeasurable) (t : SWell) :
    MeasurableSet {x | ReturnsWith a la mv t x} := by
  obtain ⟨s, g, hs', hg, e⟩ := meas_drawnCoef a hla hc hs hmv t
  have key : {x | ReturnsWith a la mv t x} = {x | DrawOk a x} ∩ (s ∩ ⋂ k ∈ Set.Iio a.npaths.toNat, {x | ∃ tr, TraceOf a t x (g x) k tr}) := by
    ext x
    have h1 := realized_iff (a := a) (la := la) (mv := mv) (t := t) (x := x) (P := fun _ => True)
    simp only [traces_list', e] at h1
    simp only [and_true] at h1
    show (∃ L, _) ↔ _
    rw [h1]
    simp only [Set.mem_inter_iff, Set.mem_ofPred_eq, Set.mem_iInter, Set.mem_Iio]
    constructor
    · rintro ⟨h, c, ⟨hx, rfl⟩, h2⟩; exact ⟨h, hx, h2⟩
    · rintro ⟨h, hx, h2⟩; exact ⟨h, g x, ⟨hx, rfl⟩, h2⟩
  rw [key]
  exact (meas_drawOk a).inter (hs'.inter (MeasurableSet.biInter (Set.to_countable _) fun k _ => meas_returned a t hg k))

end

end Oneka
