import Verif.Lemmas.PartMeas
import Verif.Lemmas.Trace
import Verif.Model.Capturezone

/-! The tracer as a function of random numbers: what it does is measurable. -/

namespace Oneka

open MeasureTheory

theorem toOption_bind {A B : Type} (x : Except PyErr A) (f : A → Except PyErr B) : (x >>= f).toOption = x.toOption.bind fun a => (f a).toOption := by
  cases x <;> rfl

section
variable {D E : Type} [MeasurableSpace D] [MeasurableSpace E]

theorem meas_add {f g : E → XR × XR} (hf : Measurable f) (hg : Measurable g) : Measurable fun e => f e + g e :=
  (hf.fst.add hg.fst).prodMk (hf.snd.add hg.snd)

theorem meas_sub {f g : E → XR × XR} (hf : Measurable f) (hg : Measurable g) : Measurable fun e => f e - g e :=
  (hf.fst.sub hg.fst).prodMk (hf.snd.sub hg.snd)

theorem meas_sc {c : E → XR} {v : E → XR × XR} (hc : Measurable c) (hv : Measurable v) : Measurable fun e => sc (c e) (v e) :=
  (hc.mul hv.fst).prodMk (hc.mul hv.snd)

theorem meas_scq (c : ℚ) {v : E → XR × XR} (hv : Measurable v) : Measurable fun e => scq c (v e) := meas_sc measurable_const hv

theorem meas_normInf {v : E → XR × XR} (hv : Measurable v) : Measurable fun e => normInf (v e) :=
  XR.measurable_fmax.comp ((XR.measurable_abs.comp hv.fst).prodMk (XR.measurable_abs.comp hv.snd))

theorem meas_norm2 {v : E → XR × XR} (hv : Measurable v) : Measurable fun e => norm2 (v e) :=
  XR.measurable_sqrt.comp ((hv.fst.mul hv.fst).add (hv.snd.mul hv.snd))

theorem meas_min {f g : E → XR} (hf : Measurable f) (hg : Measurable g) : Measurable fun e => pyMin2 (f e) (g e) :=
  Measurable.ite (XR.measurableSet_lt' hg hf) hg hf

theorem meas_nextDt (tol maxstep : XR) {est ds dt : E → XR} (h1 : Measurable est) (h2 : Measurable ds) (h3 : Measurable dt) :
    Measurable fun e => nextDt tol maxstep (est e) (ds e) (dt e) :=
  (measurable_const.mul (meas_min (meas_min (XR.measurable_root5.comp (measurable_const.div (h1.add measurable_const)))
    (measurable_const.div (h2.add measurable_const))) measurable_const)).mul h3

theorem meas_clip (duration : XR) {t dt : E → XR} (h1 : Measurable t) (h2 : Measurable dt) : Measurable fun e => clipDt duration (t e) (dt e) :=
  Measurable.ite (XR.measurableSet_lt' measurable_const (XR.measurable_abs.comp (h1.add h2))) (measurable_const.sub h1) h2

theorem up {A : Type} [MeasurableSpace A] {g : E → A} (hg : Measurable g) : Measurable fun p : E × (XR × XR) => g p.1 := hg.comp measurable_fst

/-- the velocity functions are measurable -/
def MeasVel (feval : D → ℕ → XR × XR → Except PyErr (XR × XR)) : Prop := ∀ n, PartMeasurable fun p : D × (XR × XR) => (feval p.1 n p.2).toOption

theorem meas_trial {feval : D → ℕ → XR × XR → Except PyErr (XR × XR)} (hf : MeasVel feval) (n : ℕ) {d : E → D} {xy k1 : E → XR × XR} {dt : E → XR}
    (hd : Measurable d) (hxy : Measurable xy) (hk : Measurable k1) (hdt : Measurable dt) :
    PartMeasurable fun e => (trial (feval (d e)) n (xy e) (k1 e) (dt e)).toOption := by
  unfold trial
  simp only [toOption_bind]
  refine ((hf n).comp (hd.prodMk (meas_add hxy (meas_sc hdt (meas_scq _ hk))))).bind ?_
  have e1 : Measurable fun p : E × (XR × XR) => p.1 := measurable_fst
  have k2 : Measurable fun p : E × (XR × XR) => p.2 := measurable_snd
  refine ((hf (n+1)).comp ((hd.comp e1).prodMk (meas_add (hxy.comp e1) (meas_sc (hdt.comp e1) (meas_add (meas_scq _ (hk.comp e1)) (meas_scq _ k2)))))).bind ?_
  replace e1 := up e1
  replace k2 := up k2
  have k3 : Measurable fun p : (E × (XR × XR)) × (XR × XR) => p.2 := measurable_snd
  refine ((hf (n+2)).comp ((hd.comp e1).prodMk (meas_add (hxy.comp e1) (meas_sc (hdt.comp e1) (meas_add (meas_add (meas_scq _ (hk.comp e1)) (meas_scq _ k2)) (meas_scq _ k3)))))).bind ?_
  replace e1 := up e1
  replace k2 := up k2
  replace k3 := up k3
  have k4 : Measurable fun p : ((E × (XR × XR)) × (XR × XR)) × (XR × XR) => p.2 := measurable_snd
  refine ((hf (n+3)).comp ((hd.comp e1).prodMk (meas_add (hxy.comp e1) (meas_sc (hdt.comp e1)
    (meas_add (meas_add (meas_add (meas_scq _ (hk.comp e1)) (meas_scq _ k2)) (meas_scq _ k3)) (meas_scq _ k4)))))).bind ?_
  replace e1 := up e1
  replace k2 := up k2
  replace k3 := up k3
  replace k4 := up k4
  have k5 : Measurable fun p : (((E × (XR × XR)) × (XR × XR)) × (XR × XR)) × (XR × XR) => p.2 := measurable_snd
  refine ((hf (n+4)).comp ((hd.comp e1).prodMk (meas_add (hxy.comp e1) (meas_sc (hdt.comp e1)
    (meas_add (meas_add (meas_add (meas_add (meas_scq _ (hk.comp e1)) (meas_scq _ k2)) (meas_scq _ k3)) (meas_scq _ k4)) (meas_scq _ k5)))))).bind ?_
  replace e1 := up e1
  replace k2 := up k2
  replace k3 := up k3
  replace k4 := up k4
  replace k5 := up k5
  have k6 : Measurable fun p : ((((E × (XR × XR)) × (XR × XR)) × (XR × XR)) × (XR × XR)) × (XR × XR) => p.2 := measurable_snd
  have xyt := meas_add (hxy.comp e1) (meas_sc (hdt.comp e1)
    (meas_add (meas_add (meas_add (meas_add (meas_scq (35/384) (hk.comp e1)) (meas_scq (500/1113) k3)) (meas_scq (125/192) k4)) (meas_scq (-2187/6784) k5)) (meas_scq (11/84) k6)))
  refine ((hf (n+5)).comp ((hd.comp e1).prodMk xyt)).bind ?_
  replace e1 := up e1
  replace k3 := up k3
  replace k4 := up k4
  replace k5 := up k5
  replace k6 := up k6
  replace xyt := up xyt
  have k7 : Measurable fun p : (((((E × (XR × XR)) × (XR × XR)) × (XR × XR)) × (XR × XR)) × (XR × XR)) × (XR × XR) => p.2 := measurable_snd
  exact PartMeasurable.some (xyt.prodMk (k7.prodMk ((meas_normInf (meas_sc (hdt.comp e1)
    (meas_add (meas_add (meas_add (meas_add (meas_add (meas_scq _ (hk.comp e1)) (meas_scq _ k7)) (meas_scq _ k3)) (meas_scq _ k4)) (meas_scq _ k5)) (meas_scq _ k6)))).prodMk
      (meas_norm2 (meas_sub xyt (hxy.comp e1))))))


/-! ## The loop, remembering only whether a point is near the track -/

theorem near_measurable (u X Y : ℝ) {f g : E → XR × XR} (hf : Measurable f) (hg : Measurable g) :
    MeasurableSet {e | ((f e).1.toReal, (f e).2.toReal) ≠ ((g e).1.toReal, (g e).2.toReal) ∧
      NearSegment (f e).1.toReal (f e).2.toReal (g e).1.toReal (g e).2.toReal u X Y} := by
  have ht : Measurable XR.toReal := XR.measurable_iff.mpr measurable_id
  have h1 : IsOpen {p : (ℝ × ℝ) × (ℝ × ℝ) | NearSegment p.1.1 p.1.2 p.2.1 p.2.2 u X Y} := by
    have : {p : (ℝ × ℝ) × (ℝ × ℝ) | NearSegment p.1.1 p.1.2 p.2.1 p.2.2 u X Y} =
        ⋃ t ∈ Set.Icc (0 : ℝ) 1, {p : (ℝ × ℝ) × (ℝ × ℝ) | (X - (p.1.1 + t * (p.2.1 - p.1.1))) ^ 2 + (Y - (p.1.2 + t * (p.2.2 - p.1.2))) ^ 2 < u ^ 2} := by
      ext p
      simp [NearSegment, and_assoc]
    rw [this]
    refine isOpen_biUnion fun t _ => isOpen_lt ?_ continuous_const
    fun_prop
  have hm : Measurable fun e => ((((f e).1.toReal, (f e).2.toReal), ((g e).1.toReal, (g e).2.toReal)) : (ℝ × ℝ) × (ℝ × ℝ)) :=
    ((ht.comp hf.fst).prodMk (ht.comp hf.snd)).prodMk ((ht.comp hg.fst).prodMk (ht.comp hg.snd))
  exact ((measurableSet_eq_fun hm.fst hm.snd).compl).inter (hm h1.measurableSet)

/-- Time, step, position, velocity, and whether the track so far is near a given point. -/
abbrev Reduced := (XR × XR) × ((XR × XR) × (XR × XR)) × Bool

open Classical in
/-- one pass through the loop -/
noncomputable def rnext (duration tol maxstep : XR) (u X Y : ℝ) (feval : ℕ → XR × XR → Except PyErr (XR × XR)) (n : ℕ) (r : Reduced) : Option Reduced :=
  if PyMath.abs r.1.1 < PyMath.abs duration then
    (trial feval n r.2.1.1 r.2.1.2 (clipDt duration r.1.1 r.1.2)).toOption.bind fun v =>
      some (if v.2.2.1 < tol ∧ v.2.2.2 < maxstep then
          ((r.1.1 + clipDt duration r.1.1 r.1.2, nextDt tol maxstep v.2.2.1 v.2.2.2 (clipDt duration r.1.1 r.1.2)), (v.1, v.2.1),
            if (r.2.1.1.1.toReal, r.2.1.1.2.toReal) ≠ (v.1.1.toReal, v.1.2.toReal) ∧
              NearSegment r.2.1.1.1.toReal r.2.1.1.2.toReal v.1.1.toReal v.1.2.toReal u X Y then true else r.2.2)
        else ((r.1.1, nextDt tol maxstep v.2.2.1 v.2.2.2 (clipDt duration r.1.1 r.1.2)), r.2.1, r.2.2))
  else none

/-- at most `k` passes -/
noncomputable def rfuel (duration tol maxstep : XR) (u X Y : ℝ) (feval : ℕ → XR × XR → Except PyErr (XR × XR)) : ℕ → ℕ → Reduced → Option Bool
  | 0, _, _ => none
  | k + 1, n, r => match rnext duration tol maxstep u X Y feval n r with
    | none => some r.2.2
    | some r' => rfuel duration tol maxstep u X Y feval k (n + 6) r'

theorem meas_rnext (duration tol maxstep : XR) (u X Y : ℝ) {feval : D → ℕ → XR × XR → Except PyErr (XR × XR)} (hf : MeasVel feval) (n : ℕ) :
    PartMeasurable fun p : D × Reduced => rnext duration tol maxstep u X Y (feval p.1) n p.2 := by
  classical
  haveI : Nonempty Reduced := ⟨((.nan, .nan), ((.nan, .nan), (.nan, .nan)), false)⟩
  have t : Measurable fun p : D × Reduced => p.2.1.1 := by fun_prop
  have dt : Measurable fun p : D × Reduced => p.2.1.2 := by fun_prop
  have xy : Measurable fun p : D × Reduced => p.2.2.1.1 := by fun_prop
  have k1 : Measurable fun p : D × Reduced => p.2.2.1.2 := by fun_prop
  have cl := meas_clip duration t dt
  have tr := meas_trial hf n (measurable_fst (α := D) (β := Reduced)) xy k1 cl
  unfold rnext
  refine PartMeasurable.ite (XR.measurableSet_lt' (XR.measurable_abs.comp t) measurable_const) (tr.bind ?_) PartMeasurable.none
  have pr : Measurable fun x : (D × Reduced) × ((XR × XR) × (XR × XR) × XR × XR) => x.1 := measurable_fst
  have xyt : Measurable fun x : (D × Reduced) × ((XR × XR) × (XR × XR) × XR × XR) => x.2.1 := by fun_prop
  have k2 : Measurable fun x : (D × Reduced) × ((XR × XR) × (XR × XR) × XR × XR) => x.2.2.1 := by fun_prop
  have es : Measurable fun x : (D × Reduced) × ((XR × XR) × (XR × XR) × XR × XR) => x.2.2.2.1 := by fun_prop
  have ds : Measurable fun x : (D × Reduced) × ((XR × XR) × (XR × XR) × XR × XR) => x.2.2.2.2 := by fun_prop
  have fl : Measurable fun x : (D × Reduced) × ((XR × XR) × (XR × XR) × XR × XR) => x.1.2.2.2 := by fun_prop
  have nd := meas_nextDt tol maxstep es ds (cl.comp pr)
  refine PartMeasurable.some (Measurable.ite ?_ ?_ ?_)
  · exact (XR.measurableSet_lt' es measurable_const).inter (XR.measurableSet_lt' ds measurable_const)
  · exact (((t.comp pr).add (cl.comp pr)).prodMk nd).prodMk ((xyt.prodMk k2).prodMk (Measurable.ite (near_measurable u X Y (xy.comp pr) xyt) measurable_const fl))
  · exact ((t.comp pr).prodMk nd).prodMk (((xy.comp pr).prodMk (k1.comp pr)).prodMk fl)

theorem meas_rfuel (duration tol maxstep : XR) (u X Y : ℝ) {feval : D → ℕ → XR × XR → Except PyErr (XR × XR)} (hf : MeasVel feval) (k n : ℕ) :
    PartMeasurable fun p : D × Reduced => rfuel duration tol maxstep u X Y (feval p.1) k n p.2 := by
  induction k generalizing n with
  | zero => exact PartMeasurable.none
  | succ k ih =>
    have h1 : Measurable fun p : (D × Reduced) × Reduced => (p.1.1, p.2) := by fun_prop
    have h2 : Measurable fun p : D × Reduced => p.2.2.2 := by fun_prop
    refine ((meas_rnext duration tol maxstep u X Y hf n).elim (PartMeasurable.some h2)
      (h := fun p r => rfuel duration tol maxstep u X Y (feval p.1) k (n + 6) r) ((ih (n + 6)).comp h1)).congr fun p => ?_
    rw [rfuel]
    cases rnext duration tol maxstep u X Y (feval p.1) n p.2 <;> rfl

end

/-- the vertices as real numbers -/
def realPath (vs : List (XR × XR)) : List (ℝ × ℝ) := vs.map fun v => (v.1.toReal, v.2.toReal)

theorem infix_pair_snoc {α : Type} {a b x y : α} (l : List α) (h : l.getLast? = some x) : [a, b] <:+: l ++ [y] ↔ [a, b] <:+: l ∨ (a = x ∧ b = y) := by
  obtain ⟨l', rfl⟩ : ∃ l', l = l' ++ [x] := by
    obtain ⟨l', e⟩ := List.getLast?_eq_some_iff.mp h
    exact ⟨l', e⟩
  constructor
  · rintro ⟨p, q, e⟩
    rcases List.eq_nil_or_concat q with rfl | ⟨q', z, rfl⟩
    · right
      simp only [List.append_nil, List.append_assoc, List.cons_append, List.nil_append] at e
      have := List.append_inj_right' e rfl
      simpa using this
    · left
      refine ⟨p, q', ?_⟩
      rw [List.concat_eq_append, ← List.append_assoc] at e
      exact List.append_inj_left' e rfl
  · rintro (⟨p, q, e⟩ | ⟨rfl, rfl⟩)
    · exact ⟨p, q ++ [y], by rw [← e]; simp⟩
    · exact ⟨l', [], by simp⟩

theorem near_snoc {vs : List (XR × XR)} {x y : XR × XR} (h : vs.getLast? = some x) (u X Y : ℝ) :
    NearTrack (realPath (vs ++ [y])) u X Y ↔ NearTrack (realPath vs) u X Y ∨
      ((x.1.toReal, x.2.toReal) ≠ (y.1.toReal, y.2.toReal) ∧ NearSegment x.1.toReal x.2.toReal y.1.toReal y.2.toReal u X Y) := by
  unfold NearTrack realPath
  rw [List.map_append, List.map_singleton]
  have hl : (vs.map fun v => (v.1.toReal, v.2.toReal)).getLast? = some (x.1.toReal, x.2.toReal) := by rw [List.getLast?_map, h]; rfl
  constructor
  · rintro ⟨a, b, hi, h1, h2⟩
    rcases (infix_pair_snoc _ hl).mp hi with hi | ⟨rfl, rfl⟩
    · exact .inl ⟨a, b, hi, h1, h2⟩
    · exact .inr ⟨h1, h2⟩
  · rintro (⟨a, b, hi, h1, h2⟩ | ⟨h1, h2⟩)
    · exact ⟨a, b, (infix_pair_snoc _ hl).mpr (.inl hi), h1, h2⟩
    · exact ⟨_, _, (infix_pair_snoc _ hl).mpr (.inr ⟨rfl, rfl⟩), h1, h2⟩

open Classical in
/-- what the reduced loop knows of a state -/
noncomputable def reduce (u X Y : ℝ) (s : TState XR) : Reduced := ((s.t, s.dt), (s.xy, s.k1), decide (NearTrack (realPath s.vs) u X Y))

open Classical in
theorem tfuel_reduced (c : TCfg XR) (u X Y : ℝ) (k : ℕ) (s : TState XR) (hs : s.vs.getLast? = some s.xy) :
    (tfuel c k s).map (fun tr => decide (NearTrack tr.path u X Y)) = rfuel c.duration c.tol c.maxstep u X Y c.feval k s.n (reduce u X Y s) := by
  induction k generalizing s with
  | zero => rfl
  | succ k ih =>
    rw [tfuel, rfuel]
    have hp := titer_pass c s
    generalize hx : titer c s = x at hp
    cases hp with
    | done h =>
      have : rnext c.duration c.tol c.maxstep u X Y c.feval s.n (reduce u X Y s) = none := if_neg h
      rw [this]
      rfl
    | error h e he =>
      have : rnext c.duration c.tol c.maxstep u X Y c.feval s.n (reduce u X Y s) = none := by
        unfold rnext
        rw [if_pos (by exact h)]
        simp only [reduce, he]
        rfl
      rw [this]
      rfl
    | accept h xyt k2 est ds he h1 h2 =>
      have : rnext c.duration c.tol c.maxstep u X Y c.feval s.n (reduce u X Y s) = some (reduce u X Y
          ⟨s.t + clipDt c.duration s.t s.dt, nextDt c.tol c.maxstep est ds (clipDt c.duration s.t s.dt), xyt, k2, s.n+6, s.vs ++ [xyt],
          s.ss ++ [⟨s.t, clipDt c.duration s.t s.dt, est, xyt⟩]⟩) := by
        unfold rnext
        rw [if_pos (by exact h)]
        simp only [reduce, he, Except.toOption, Option.bind_some, if_pos (And.intro h1 h2), near_snoc hs]
        congr 3
        by_cases hn : NearTrack (realPath s.vs) u X Y <;> simp [hn]
      rw [this]
      exact ih _ (by simp)
    | reject h xyt k2 est ds he h1 =>
      have : rnext c.duration c.tol c.maxstep u X Y c.feval s.n (reduce u X Y s) = some (reduce u X Y
          ⟨s.t, nextDt c.tol c.maxstep est ds (clipDt c.duration s.t s.dt), s.xy, s.k1, s.n+6, s.vs, s.ss⟩) := by
        unfold rnext
        rw [if_pos (by exact h)]
        simp only [reduce, he, Except.toOption, Option.bind_some, if_neg h1]
      rw [this]
      exact ih _ hs

open Classical in
/-- Whether the trace returns, and then whether it is near the point, in at most `k` passes. -/
theorem backtrace_reduced (xs ys duration tol maxstep : XR) (feval : ℕ → XR × XR → Except PyErr (XR × XR)) (u X Y : ℝ) (b : Bool) :
    (∃ tr, computeBacktrace xs ys duration tol maxstep feval = some tr ∧ decide (NearTrack tr.path u X Y) = b) ↔
      ((feval 0 (xs, ys)).toOption = none ∧ b = false) ∨ ∃ k, (((feval 0 (xs, ys)).toOption).bind fun k1 =>
        rfuel duration tol maxstep u X Y feval k 1 ((PyMath.q 0, PyMath.q (1/10) * PyMath.sign duration), ((xs, ys), k1), false)) = some b := by
  have single : ¬ NearTrack (realPath [(xs, ys)]) u X Y := by
    rintro ⟨a, b, h, -⟩
    have := h.length_le
    simp [realPath] at this
  unfold computeBacktrace
  cases h0 : feval 0 (xs, ys) with
  | error e =>
    have : ¬ NearTrack (Trace.path ⟨[(xs, ys)], [], some (PyMath.q 0)⟩) u X Y := single
    simp only [Option.some.injEq, exists_eq_left', this, decide_false, Except.toOption, true_and]
    constructor
    · rintro rfl; exact .inl rfl
    · rintro (rfl | ⟨k, h⟩)
      · rfl
      · simp at h
  | ok k1 =>
    let c : TCfg XR := ⟨duration, tol, maxstep, feval⟩
    let s : TState XR := ⟨PyMath.q 0, PyMath.q (1/10) * PyMath.sign duration, (xs, ys), k1, 1, [(xs, ys)], []⟩
    have hr : reduce u X Y s = ((PyMath.q 0, PyMath.q (1/10) * PyMath.sign duration), ((xs, ys), k1), false) := by
      simp only [reduce, s, single, decide_false]
    have key := fun k => tfuel_reduced c u X Y k s (by simp [s])
    simp only [Except.toOption, Option.bind_some, reduceCtorEq, false_and, false_or, ← hr]
    constructor
    · rintro ⟨tr, h, hb⟩
      obtain ⟨k, hk⟩ := (tloop_eq_some c s tr).mp h
      refine ⟨k, ?_⟩
      rw [← key k, hk, Option.map_some, hb]
    · rintro ⟨k, hk⟩
      have := key k
      rw [show rfuel c.duration c.tol c.maxstep u X Y c.feval k s.n (reduce u X Y s) = some b from hk] at this
      obtain ⟨tr, h1, h2⟩ := Option.map_eq_some_iff.mp this
      exact ⟨tr, (tloop_eq_some c s tr).mpr ⟨k, h1⟩, h2⟩

section
variable {D : Type} [MeasurableSpace D]

theorem meas_backtrace (xs ys duration tol maxstep : XR) {feval : D → ℕ → XR × XR → Except PyErr (XR × XR)} (hf : MeasVel feval) (u X Y : ℝ) (b : Bool) :
    MeasurableSet {d | ∃ tr, computeBacktrace xs ys duration tol maxstep (feval d) = some tr ∧ (NearTrack tr.path u X Y ↔ b = true)} := by
  classical
  have h0 : PartMeasurable fun d => (feval d 0 (xs, ys)).toOption := (hf 0).comp (measurable_id.prodMk measurable_const)
  have hb : ∀ P : Prop, (P ↔ b = true) ↔ decide P = b := by
    intro P
    cases b <;> simp
  simp only [hb, backtrace_reduced]
  have e1 : MeasurableSet {d | (feval d 0 (xs, ys)).toOption = none ∧ b = false} := by
    have : {d | (feval d 0 (xs, ys)).toOption = none} = {d | ∃ b, (feval d 0 (xs, ys)).toOption = some b}ᶜ := by
      ext d
      simp [Option.eq_none_iff_forall_ne_some]
    exact (this ▸ h0.isSome.compl).inter (.const _)
  refine e1.union ?_
  refine MeasurableSet.congr (MeasurableSet.iUnion (f := fun k => {d | ((feval d 0 (xs, ys)).toOption.bind fun k1 =>
    rfuel duration tol maxstep u X Y (feval d) k 1 ((PyMath.q 0, PyMath.q (1 / 10) * PyMath.sign duration), ((xs, ys), k1), false)) = some b}) fun k => ?_)
    (by ext d; simp; rfl)
  have h1 : Measurable fun p : D × (XR × XR) => (p.1, (((PyMath.q 0, PyMath.q (1/10) * PyMath.sign duration), ((xs, ys), p.2), false) : Reduced)) := by fun_prop
  have := (h0.bind (h := fun d k1 => rfuel duration tol maxstep u X Y (feval d) k 1
    ((PyMath.q 0, PyMath.q (1 / 10) * PyMath.sign duration), ((xs, ys), k1), false)) ((meas_rfuel duration tol maxstep u X Y hf k 1).comp h1)).sat (p := fun _ x => x = b) (measurable_snd (measurableSet_singleton b))
  simpa using this

end

end Oneka
