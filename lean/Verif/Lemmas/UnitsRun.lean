import Verif.Lemmas.UnitsFit
import Verif.Lemmas.Run
import Verif.Model.Utilities

/-!
# Traces, filtered observations and realizations in other units
-/

namespace Oneka

variable {ℓ τ : ℝ}

/-! ## Traces -/

theorem loop_units_back (hℓ : 0 < ℓ) (hτ : 0 < τ) {f g : ℕ → XR × XR → Except PyErr (XR × XR)} (h : Converts ℓ τ f g) (D tol M : XR) (t' dt' : XR) (xy' k1' : XR × XR) (n : ℕ) (vs' : List (XR × XR))
    (ss' : List (Accepted XR)) (r' : Trace XR) (hr : traceLoop (.fin τ * D) (.fin ℓ * tol) (.fin ℓ * M) g t' dt' xy' k1' n vs' ss' = some r') :
    ∀ t dt xy k1 vs ss, t' = .fin τ * t → dt' = .fin τ * dt → xy' = placeInUnits ℓ xy → k1' = placeInUnits (ℓ / τ) k1 →
      ∃ r, tracerLoop (1 / 4503599627370496 / ℓ) D tol M f t dt xy k1 n vs ss = some r := by
  refine traceLoop.partial_correctness (.fin τ * D) (.fin ℓ * tol) (.fin ℓ * M) g
    (fun t' dt' xy' k1' n _ _ _ => ∀ t dt xy k1 vs ss, t' = .fin τ * t → dt' = .fin τ * dt → xy' = placeInUnits ℓ xy → k1' = placeInUnits (ℓ / τ) k1 →
      ∃ r, tracerLoop (1 / 4503599627370496 / ℓ) D tol M f t dt xy k1 n vs ss = some r) ?_ t' dt' xy' k1' n vs' ss' r' hr
  intro loop ih t' dt' xy' k1' n vs' ss' r' hr t dt xy k1 vs ss h1 h2 h3 h4
  subst h1 h2 h3 h4
  rw [clip_units hτ, trial_units hℓ hτ h] at hr
  simp only [XR.units_abs hτ, XR.units_lt hτ] at hr
  rw [tracerLoop]
  split_ifs at hr ⊢ with c
  · cases e : trial f n xy k1 (clipDt D t dt) with
    | error x => exact ⟨_, rfl⟩
    | ok o =>
      obtain ⟨xyt, k2, est, ds⟩ := o
      rw [e] at hr
      simp only [Except.map, XR.units_lt hℓ, nextDt_units hℓ hτ, ← XR.scale_add hτ] at hr ⊢
      split_ifs at hr ⊢ with c2
      · exact ih _ _ _ _ _ _ _ _ hr _ _ _ _ _ _ rfl rfl rfl rfl
      · exact ih _ _ _ _ _ _ _ _ hr _ _ _ _ _ _ rfl rfl rfl rfl
  · exact ⟨_, rfl⟩

theorem backtrace_units (hℓ : 0 < ℓ) (hτ : 0 < τ) {f g : ℕ → XR × XR → Except PyErr (XR × XR)} (h : Converts ℓ τ f g) (xs ys D tol M : XR) :
    computeBacktrace (.fin ℓ * xs) (.fin ℓ * ys) (.fin τ * D) (.fin ℓ * tol) (.fin ℓ * M) g = (tracer (1 / 10 / τ) (1 / 4503599627370496 / ℓ) xs ys D tol M f).map (Trace.inUnits ℓ τ) := by
  have e0 : (PyMath.q 0 : XR) = .fin τ * .fin 0 := by
    show XR.fin _ = _
    simp
  have e1 : (PyMath.q (1 / 10) : XR) * PyMath.sign (XR.fin τ * D) = .fin τ * (.fin (1 / 10 / τ) * PyMath.sign D) := by
    rw [XR.units_sign hτ, XR.units_units hτ]
    congr 1
    show XR.fin _ = _
    congr 1
    push_cast
    field_simp
  have hp := h 0 (xs, ys)
  unfold placeInUnits at hp
  simp only at hp
  unfold computeBacktrace tracer
  rw [hp]
  cases f 0 (xs, ys) with
  | error e =>
    simp only [Except.map, Option.map_some]
    rw [e0]
    rfl
  | ok k1 =>
    simp only [Except.map]
    rw [e0, e1]
    cases hl : tracerLoop (1 / 4503599627370496 / ℓ) D tol M f (.fin 0) (.fin (1 / 10 / τ) * PyMath.sign D) (xs, ys) k1 1 [(xs, ys)] [] with
    | some r => exact loop_units hℓ hτ h _ _ _ _ _ _ _ _ _ _ _ hl
    | none =>
      cases hl' : traceLoop (.fin τ * D) (.fin ℓ * tol) (.fin ℓ * M) g (.fin τ * .fin 0) (.fin τ * (.fin (1 / 10 / τ) * PyMath.sign D)) (.fin ℓ * xs, .fin ℓ * ys) (.fin (ℓ / τ) * k1.1, .fin (ℓ / τ) * k1.2) 1
          [(.fin ℓ * xs, .fin ℓ * ys)] [] with
      | none => rfl
      | some r' =>
        obtain ⟨r, hr⟩ := loop_units_back hℓ hτ h _ _ _ _ _ _ _ _ _ _ _ hl' _ _ (xs, ys) k1 [(xs, ys)] [] rfl rfl rfl rfl
        rw [hl] at hr
        cases hr

theorem place_one (p : XR × XR) : placeInUnits 1 p = p := Prod.ext (XR.units_one _) (XR.units_one _)

theorem trace_one (r : Trace XR) : r.inUnits 1 1 = r := by
  obtain ⟨vs, ss, w⟩ := r
  unfold Trace.inUnits
  simp only [XR.units_one, place_one]
  congr 1
  · exact (List.map_congr_left fun p _ => place_one p).trans (List.map_id _)
  · exact (List.map_congr_left fun a _ => rfl).trans (List.map_id _)
  · cases w <;> rfl

theorem tracer_is_backtrace (xs ys D tol M : XR) (f : ℕ → XR × XR → Except PyErr (XR × XR)) : tracer (1 / 10) (1 / 4503599627370496) xs ys D tol M f = computeBacktrace xs ys D tol M f := by
  have h : Converts 1 1 f f := fun n p => by
    rw [place_one, div_one]
    cases f n p with
    | error e => rfl
    | ok v => exact congrArg Except.ok (place_one v).symm
  have := backtrace_units one_pos one_pos h xs ys D tol M
  simp only [XR.units_one, div_one] at this
  rw [this]
  cases tracer (1 / 10) (1 / 4503599627370496) xs ys D tol M f with
  | none => rfl
  | some r => exact congrArg some (trace_one r).symm

theorem reverse_units (hℓ : 0 < ℓ) (hτ : 0 < τ) (m : Aquifer ℝ) (c : Bool) (p : XR × XR) :
    (m.inUnits ℓ τ).toX.reverseVelocity c (placeInUnits ℓ p) = (m.toX.reverseVelocity c p).map (placeInUnits (ℓ / τ)) := by
  have h : 0 < ℓ / τ := div_pos hℓ hτ
  have hn : ∀ v : XR × XR, (-(placeInUnits (ℓ / τ) v).1, -(placeInUnits (ℓ / τ) v).2) = placeInUnits (ℓ / τ) (-v.1, -v.2) := fun v => by
    unfold placeInUnits
    simp only [XR.scale_neg h]
  unfold Aquifer.reverseVelocity
  cases c with
  | true =>
    simp only [if_true, Except.map]
    show Except.ok (-((m.inUnits ℓ τ).toX.velocityConfined (.fin ℓ * p.1) (.fin ℓ * p.2)).1, -((m.inUnits ℓ τ).toX.velocityConfined (.fin ℓ * p.1) (.fin ℓ * p.2)).2) = _
    rw [velocityConfined_units hℓ hτ, hn]
  | false =>
    simp only [Bool.false_eq_true, if_false]
    show ((m.inUnits ℓ τ).toX.velocity (.fin ℓ * p.1) (.fin ℓ * p.2)).map _ = _
    rw [velocity_units hℓ hτ]
    cases m.toX.velocity p.1 p.2 with
    | error e => rfl
    | ok v => exact congrArg Except.ok (hn v)

theorem interrupted_units (hℓ : 0 < ℓ) (hτ : 0 < τ) (m : Aquifer ℝ) (c : Bool) (int : ℕ → Option PyErr) :
    Converts ℓ τ (fun n p => match int n with
        | some e => .error e
        | none => m.toX.reverseVelocity c p) (fun n p => match int n with
        | some e => .error e
        | none => (m.inUnits ℓ τ).toX.reverseVelocity c p) := by
  intro n p
  simp only
  cases int n with
  | some e => rfl
  | none => exact reverse_units hℓ hτ m c p

/-! ## Filtering -/

theorem hypot_units (hℓ : 0 < ℓ) (x y : ℝ) : hypot (ℓ * x) (ℓ * y) = ℓ * hypot x y := by
  unfold hypot
  rw [show ℓ * x * (ℓ * x) + ℓ * y * (ℓ * y) = ℓ ^ 2 * (x * x + y * y) by ring, Real.sqrt_mul (sq_nonneg _), Real.sqrt_sq hℓ.le]

theorem away_units (hℓ : 0 < ℓ) (b : ℝ) (o : Obs) (ws : List (ℝ × ℝ)) : awayFromWells (ℓ * b) (o.inUnits ℓ) (ws.map fun w => (ℓ * w.1, ℓ * w.2)) = awayFromWells b o ws := by
  induction ws with
  | nil => rfl
  | cons w ws ih =>
    simp only [List.map_cons, awayFromWells, ih]
    have : hypot ((o.inUnits ℓ).x - ℓ * w.1) ((o.inUnits ℓ).y - ℓ * w.2) = ℓ * hypot (o.x - w.1) (o.y - w.2) := by
      rw [← hypot_units hℓ, mul_sub, mul_sub]
      rfl
    simp only [this, mul_le_mul_iff_right₀ hℓ]

theorem removeNear_units (hℓ : 0 < ℓ) (b : ℝ) (ws : List (ℝ × ℝ)) (l : List Obs) :
    removeNear (ℓ * b) (ws.map fun w => (ℓ * w.1, ℓ * w.2)) (l.map (Obs.inUnits ℓ)) = (removeNear b ws l).map (Obs.inUnits ℓ) := by
  induction l with
  | nil => rfl
  | cons o l ih =>
    simp only [List.map_cons, removeNear, ih, away_units hℓ]
    split_ifs <;> rfl

theorem removeNear_mem {b : ℝ} {ws : List (ℝ × ℝ)} {l : List Obs} {o : Obs} (h : o ∈ removeNear b ws l) : o ∈ l := by
  induction l with
  | nil => exact h
  | cons p l ih =>
    simp only [removeNear] at h
    split_ifs at h
    · rcases List.mem_cons.mp h with rfl | h
      · exact List.mem_cons_self
      · exact List.mem_cons_of_mem _ (ih h)
    · exact List.mem_cons_of_mem _ (ih h)

theorem accumulate_units (hℓ : 0 < ℓ) (l : List Obs) (n d : ℝ) : accumulate (l.map (Obs.inUnits ℓ)) (n / ℓ) (d / ℓ ^ 2) = (accumulate l n d).map fun r => (r.1 / ℓ, r.2 / ℓ ^ 2) := by
  induction l generalizing n d with
  | nil => rfl
  | cons o l ih =>
    simp only [List.map_cons, accumulate]
    have e : (o.inUnits ℓ).std ^ 2 = ℓ ^ 2 * o.std ^ 2 := by
      show (ℓ * o.std) ^ 2 = _
      ring
    have e0 : ℓ ^ 2 * o.std ^ 2 = 0 ↔ o.std ^ 2 = 0 := by simp [hℓ.ne']
    have e1 : n / ℓ + (o.inUnits ℓ).z / (ℓ ^ 2 * o.std ^ 2) = (n + o.z / o.std ^ 2) / ℓ := by
      show n / ℓ + ℓ * o.z / (ℓ ^ 2 * o.std ^ 2) = _
      rw [add_div]
      congr 1
      rw [pow_two, mul_assoc, mul_div_mul_left _ _ hℓ.ne', div_div, mul_comm]
    have e2 : d / ℓ ^ 2 + 1 / (ℓ ^ 2 * o.std ^ 2) = (d + 1 / o.std ^ 2) / ℓ ^ 2 := by
      rw [add_div, div_div, mul_comm (o.std ^ 2)]
    simp only [e, e0, e1, e2, ih]
    split_ifs <;> rfl

theorem mergeGroup_units (hℓ : 0 < ℓ) (o : Obs) (os : List Obs) : mergeGroup (o.inUnits ℓ) (os.map (Obs.inUnits ℓ)) = (mergeGroup o os).map (Obs.inUnits ℓ) := by
  unfold mergeGroup
  simp only [List.map_eq_nil_iff]
  split_ifs
  · rfl
  · have h := accumulate_units hℓ (o :: os) 0 0
    rw [zero_div, zero_div, List.map_cons] at h
    rw [h]
    cases accumulate (o :: os) 0 0 with
    | error e => rfl
    | ok r =>
      obtain ⟨num, den⟩ := r
      simp only [Except.map]
      unfold Obs.inUnits
      congr 2
      · rw [div_div_eq_mul_div, ← mul_div_assoc]
        congr 1
        field_simp
      · rw [one_div_div, show ℓ ^ 2 / den = ℓ ^ 2 * (1 / den) by ring, Real.sqrt_mul (sq_nonneg _), Real.sqrt_sq hℓ.le]

theorem while_congr {α : Type} {p q : α → Bool} {l : List α} (h : ∀ a ∈ l, p a = q a) : l.takeWhile p = l.takeWhile q ∧ l.dropWhile p = l.dropWhile q := by
  induction l with
  | nil => exact ⟨rfl, rfl⟩
  | cons a l ih =>
    obtain ⟨h1, h2⟩ := ih fun b hb => h b (List.mem_cons_of_mem _ hb)
    simp only [List.takeWhile_cons, List.dropWhile_cons, h a List.mem_cons_self, h1, h2, and_self]

theorem mergeRuns_units (hℓ : 0 < ℓ) : ∀ (n : ℕ) (l : List Obs), l.length ≤ n → (∀ o ∈ l, ∀ p ∈ l, hypot (o.x - p.x) (o.y - p.y) < 1 ↔ ℓ * hypot (o.x - p.x) (o.y - p.y) < 1) →
    mergeRuns (l.map (Obs.inUnits ℓ)) = (mergeRuns l).map (List.map (Obs.inUnits ℓ))
  | _, [], _, _ => by simp [mergeRuns, Except.map]
  | 0, _ :: _, h, _ => by simp at h
  | n + 1, o :: l, h, hh => by
    have hc : ∀ p ∈ l, ((fun p : Obs => decide (hypot ((o.inUnits ℓ).x - p.x) ((o.inUnits ℓ).y - p.y) < 1)) ∘ Obs.inUnits ℓ) p = decide (hypot (o.x - p.x) (o.y - p.y) < 1) := by
      intro p hp
      have e : hypot ((o.inUnits ℓ).x - (p.inUnits ℓ).x) ((o.inUnits ℓ).y - (p.inUnits ℓ).y) = ℓ * hypot (o.x - p.x) (o.y - p.y) := by
        rw [← hypot_units hℓ, mul_sub, mul_sub]
        rfl
      simp only [Function.comp_apply, e, hh o List.mem_cons_self p (List.mem_cons_of_mem _ hp)]
    have ht : l.takeWhile ((fun p : Obs => decide (hypot ((o.inUnits ℓ).x - p.x) ((o.inUnits ℓ).y - p.y) < 1)) ∘ Obs.inUnits ℓ) = l.takeWhile fun p => decide (hypot (o.x - p.x) (o.y - p.y) < 1) :=
      (while_congr hc).1
    have hd : l.dropWhile ((fun p : Obs => decide (hypot ((o.inUnits ℓ).x - p.x) ((o.inUnits ℓ).y - p.y) < 1)) ∘ Obs.inUnits ℓ) = l.dropWhile fun p => decide (hypot (o.x - p.x) (o.y - p.y) < 1) :=
      (while_congr hc).2
    rw [List.map_cons, mergeRuns, mergeRuns, List.takeWhile_map, List.dropWhile_map, ht, hd, mergeGroup_units hℓ]
    have hl : (l.dropWhile fun p => decide (hypot (o.x - p.x) (o.y - p.y) < 1)).length ≤ n :=
      ((List.dropWhile_suffix _).length_le).trans (Nat.le_of_succ_le_succ h)
    have hm : ∀ q ∈ l.dropWhile fun p => decide (hypot (o.x - p.x) (o.y - p.y) < 1), q ∈ o :: l := fun q hq => List.mem_cons_of_mem _ ((List.dropWhile_suffix _).subset hq)
    rw [mergeRuns_units hℓ n _ hl fun a ha b hb => hh a (hm a ha) b (hm b hb)]
    cases mergeGroup o (l.takeWhile fun p => decide (hypot (o.x - p.x) (o.y - p.y) < 1)) with
    | error e => rfl
    | ok r =>
      simp only [Except.map]
      cases mergeRuns (l.dropWhile fun p => decide (hypot (o.x - p.x) (o.y - p.y) < 1)) <;> rfl

theorem filterObs_units (hℓ : 0 < ℓ) (l : List Obs) (ws : List (ℝ × ℝ)) (b : ℝ) (h : ∀ o ∈ l, ∀ p ∈ l, hypot (o.x - p.x) (o.y - p.y) < 1 ↔ ℓ * hypot (o.x - p.x) (o.y - p.y) < 1) :
    filterObs (l.map (Obs.inUnits ℓ)) (ws.map fun w => (ℓ * w.1, ℓ * w.2)) (ℓ * b) = (filterObs l ws b).map (List.map (Obs.inUnits ℓ)) := by
  unfold filterObs
  rw [removeNear_units hℓ, mergeRuns_units hℓ _ _ le_rfl fun o ho p hp => h o (removeNear_mem ho) p (removeNear_mem hp)]

/-! ## Realizations -/

theorem path_units (r : Trace XR) (hℓ : 0 < ℓ) : (r.inUnits ℓ τ).path = r.path.map fun p => (ℓ * p.1, ℓ * p.2) := by
  have h : ∀ x : XR, (XR.fin ℓ * x).toReal = ℓ * x.toReal := by
    intro x
    cases x with
    | fin a => rfl
    | pinf => rw [XR.fin_mul_pinf hℓ]; simp [XR.toReal]
    | ninf => rw [XR.fin_mul_ninf hℓ]; simp [XR.toReal]
    | nan => show XR.toReal .nan = _; simp [XR.toReal]
  unfold Trace.path Trace.inUnits placeInUnits
  simp only [List.map_map]
  refine List.map_congr_left fun p _ => ?_
  simp only [Function.comp_apply, h]

theorem infix_map_iff {α β : Type} {f : α → β} (hf : Function.Injective f) {a b : α} {l : List α} : [f a, f b] <:+: l.map f ↔ [a, b] <:+: l := by
  constructor
  · rintro ⟨s, t, h⟩
    obtain ⟨l1, l2, rfl, h1, h2⟩ := List.map_eq_append_iff.mp h.symm
    obtain ⟨l3, l4, rfl, h3, h4⟩ := List.map_eq_append_iff.mp h1
    obtain ⟨x, l5, rfl, hx, h5⟩ := List.map_eq_cons_iff.mp h4
    obtain ⟨y, l6, rfl, hy, h6⟩ := List.map_eq_cons_iff.mp h5
    obtain rfl := List.map_eq_nil_iff.mp h6
    obtain rfl := hf hx
    obtain rfl := hf hy
    exact ⟨l3, l2, rfl⟩
  · rintro ⟨s, t, rfl⟩
    exact ⟨s.map f, t.map f, by simp⟩

theorem near_units (hℓ : 0 < ℓ) (l : List (ℝ × ℝ)) (u X Y : ℝ) : NearTrack (l.map fun p => (ℓ * p.1, ℓ * p.2)) (ℓ * u) (ℓ * X) (ℓ * Y) ↔ NearTrack l u X Y := by
  have hi : Function.Injective fun p : ℝ × ℝ => (ℓ * p.1, ℓ * p.2) := by
    intro p q h
    simp only [Prod.mk.injEq, mul_right_inj' hℓ.ne'] at h
    exact Prod.ext h.1 h.2
  have hs : ∀ ax ay bx b2 : ℝ, NearSegment (ℓ * ax) (ℓ * ay) (ℓ * bx) (ℓ * b2) (ℓ * u) (ℓ * X) (ℓ * Y) ↔ NearSegment ax ay bx b2 u X Y := by
    intro ax ay bx b2
    unfold NearSegment
    refine exists_congr fun t => and_congr_right fun _ => and_congr_right fun _ => ?_
    rw [show (ℓ * X - (ℓ * ax + t * (ℓ * bx - ℓ * ax))) ^ 2 + (ℓ * Y - (ℓ * ay + t * (ℓ * b2 - ℓ * ay))) ^ 2 = ℓ ^ 2 * ((X - (ax + t * (bx - ax))) ^ 2 + (Y - (ay + t * (b2 - ay))) ^ 2) by ring, mul_pow]
    exact mul_lt_mul_iff_right₀ (by positivity)
  constructor
  · rintro ⟨a, b, h1, h2, h3⟩
    obtain ⟨a', -, rfl⟩ := List.mem_map.mp (h1.subset List.mem_cons_self)
    obtain ⟨b', -, rfl⟩ := List.mem_map.mp (h1.subset (List.mem_cons_of_mem _ List.mem_cons_self))
    exact ⟨a', b', (infix_map_iff hi).mp h1, fun h => h2 (by rw [h]), (hs _ _ _ _).mp h3⟩
  · rintro ⟨a, b, h1, h2, h3⟩
    exact ⟨_, _, (infix_map_iff hi).mpr h1, fun h => h2 (hi h), (hs _ _ _ _).mpr h3⟩

theorem realized_units (hℓ : 0 < ℓ) (hτ : 0 < τ) {a : RunArgs} {la : LinAlg} (h1 : la.Correct) (h2 : la.Converges) (h3 : la.Strict) {t : SWell} {q : Dist → ℕ → Except PyErr ℝ}
    (hq : ∀ μ, 0 < μ → ∀ d j, q (d.times μ) j = (q d j).map (μ * ·)) {coefs coefs' : (Fin 6 → ℝ) → Matrix (Fin 6) (Fin 6) ℝ → Except PyErr (Fin 6 → ℝ)}
    (hc : ∀ ev cov s, coefs' (coefInUnits ℓ τ s ev) (covInUnits ℓ τ cov) = (coefs ev cov).map (coefInUnits ℓ τ s)) {interrupt : ℕ → ℕ → Option PyErr} {L L' : RealizationLog}
    (R : Realized a la t q coefs interrupt L) (R' : Realized (a.inUnits ℓ τ) la (t.inUnits ℓ τ) q coefs' interrupt L') :
    L'.model = L.model.inUnits ℓ τ ∧ L'.ev = coefInUnits ℓ τ (L.model.logShift ℓ) L.ev ∧ L'.cov = covInUnits ℓ τ L.cov ∧
      ∃ trs, RetracedIn ℓ τ a t interrupt L.model trs ∧ L'.traces = trs.map (Trace.inUnits ℓ τ) := by
  have hκ : 0 < ℓ ^ 3 / τ := by positivity
  have hk : 0 < ℓ / τ := div_pos hℓ hτ
  have hl : (a.inUnits ℓ τ).wells.length = a.wells.length := List.length_map _
  have eb : L'.model.base = (L.model.inUnits ℓ τ).base := by
    rw [R'.base]
    show ℓ * a.base = ℓ * L.model.base
    rw [R.base]
  have ec : L'.model.conductivity = (L.model.inUnits ℓ τ).conductivity := by
    have := R'.conductivity
    rw [hl] at this
    change q (a.cDist.times (ℓ / τ)) _ = _ at this
    rw [hq _ hk, R.conductivity] at this
    exact (Except.ok.inj this).symm
  have ep : L'.model.porosity = (L.model.inUnits ℓ τ).porosity := by
    have := R'.porosity
    rw [hl] at this
    change q a.pDist _ = _ at this
    rw [R.porosity] at this
    exact (Except.ok.inj this).symm
  have et : L'.model.thickness = (L.model.inUnits ℓ τ).thickness := by
    have := R'.thickness
    rw [hl] at this
    change q (a.tDist.times ℓ) _ = _ at this
    rw [hq _ hℓ, R.thickness] at this
    exact (Except.ok.inj this).symm
  have ew : L'.model.wells = (L.model.inUnits ℓ τ).wells := by
    refine List.ext_getElem? fun j => ?_
    show _ = (L.model.wells.map (Well.inUnits ℓ τ))[j]?
    rw [List.getElem?_map]
    by_cases hj : j < a.wells.length
    · obtain ⟨d, k1, k2⟩ := R.wells j _ (List.getElem?_eq_getElem hj)
      have hg : (a.inUnits ℓ τ).wells[j]? = some (a.wells[j].inUnits ℓ τ) := by
        show (a.wells.map (SWell.inUnits ℓ τ))[j]? = _
        rw [List.getElem?_map, List.getElem?_eq_getElem hj]
        rfl
      obtain ⟨d', k3, k4⟩ := R'.wells j _ hg
      change q (a.wells[j].q.times (ℓ ^ 3 / τ)) j = _ at k4
      rw [hq _ hκ, k2] at k4
      obtain rfl := Except.ok.inj k4
      rw [k3, k1]
      rfl
    · rw [List.getElem?_eq_none (by rw [R'.wells_length, hl]; omega), List.getElem?_eq_none (by rw [R.wells_length]; omega)]
      rfl
  have hfit := R'.fit
  rw [fit_congr eb ec et ew] at hfit
  change ((L.model.inUnits ℓ τ).fitRegionalFlow la (a.obs.map (Obs.inUnits ℓ)) (ℓ * t.xw) (ℓ * t.yw)).2 = _ at hfit
  rw [fit_units hℓ hτ h1 h2 h3, R.fit] at hfit
  obtain ⟨he, hv⟩ := Prod.mk.inj (Except.ok.inj hfit)
  have eo : L'.model.coef = (L.model.inUnits ℓ τ).coef := by
    have := R'.coef
    rw [← he, ← hv, hc, R.coef] at this
    exact (Except.ok.inj this).symm
  have ex : L'.model.xo = (L.model.inUnits ℓ τ).xo := by
    rw [R'.origin.1]
    show ℓ * t.xw = ℓ * L.model.xo
    rw [R.origin.1]
  have ey : L'.model.yo = (L.model.inUnits ℓ τ).yo := by
    rw [R'.origin.2]
    show ℓ * t.yw = ℓ * L.model.yo
    rw [R.origin.2]
  have hm : L'.model = L.model.inUnits ℓ τ := by
    generalize L'.model = A at eb ec ep et ew eo ex ey
    generalize L.model.inUnits ℓ τ = B at eb ec ep et ew eo ex ey
    cases A
    cases B
    simp only at eb ec ep et ew eo ex ey
    subst eb ec ep et ew eo ex ey
    rfl
  refine ⟨hm, he.symm, hv.symm, ?_⟩
  have key : ∀ k : ℕ, ∀ tr' : Trace XR, L'.traces[k]? = some tr' → ∃ tr, tracer (1 / 10 / τ) (1 / 4503599627370496 / ℓ) (.fin (t.xw + (t.rw + 1 / ℓ) * Real.cos (2 * Real.pi * k / a.npaths)))
      (.fin (t.yw + (t.rw + 1 / ℓ) * Real.sin (2 * Real.pi * k / a.npaths))) a.duration a.tol a.maxstep (fun n p => match interrupt k n with
        | some e => .error e
        | none => L.model.toX.reverseVelocity a.confined p) = some tr ∧ tr' = tr.inUnits ℓ τ := by
    intro k tr' htr
    have := R'.traces k tr' htr
    rw [hm] at this
    have e1 : XR.fin ((t.inUnits ℓ τ).xw + ((t.inUnits ℓ τ).rw + 1) * Real.cos (2 * Real.pi * k / (a.inUnits ℓ τ).npaths)) = .fin ℓ * .fin (t.xw + (t.rw + 1 / ℓ) * Real.cos (2 * Real.pi * k / a.npaths)) := by
      rw [XR.fin_mul]
      show XR.fin (ℓ * t.xw + (ℓ * t.rw + 1) * Real.cos (2 * Real.pi * k / a.npaths)) = _
      congr 1
      field_simp
    have e2 : XR.fin ((t.inUnits ℓ τ).yw + ((t.inUnits ℓ τ).rw + 1) * Real.sin (2 * Real.pi * k / (a.inUnits ℓ τ).npaths)) = .fin ℓ * .fin (t.yw + (t.rw + 1 / ℓ) * Real.sin (2 * Real.pi * k / a.npaths)) := by
      rw [XR.fin_mul]
      show XR.fin (ℓ * t.yw + (ℓ * t.rw + 1) * Real.sin (2 * Real.pi * k / a.npaths)) = _
      congr 1
      field_simp
    rw [e1, e2] at this
    change computeBacktrace _ _ (.fin τ * a.duration) (.fin ℓ * a.tol) (.fin ℓ * a.maxstep) _ = _ at this
    replace this := (backtrace_units hℓ hτ (interrupted_units hℓ hτ L.model a.confined (interrupt k)) _ _ _ _ _).symm.trans this
    obtain ⟨tr, i1, i2⟩ := Option.map_eq_some_iff.mp this
    exact ⟨tr, i1, i2.symm⟩
  choose f hf1 hf2 using key
  have hlen : L'.traces.length = a.npaths.toNat := R'.traces_length
  refine ⟨List.ofFn fun k : Fin L'.traces.length => f k _ (List.getElem?_eq_getElem k.2), ⟨?_, ?_⟩, ?_⟩
  · rw [List.length_ofFn, hlen]
  · intro k tr hk
    rw [List.getElem?_ofFn] at hk
    split_ifs at hk with hk'
    obtain rfl := Option.some.inj hk
    exact hf1 k _ _
  · refine List.ext_getElem? fun k => ?_
    rw [List.getElem?_map, List.getElem?_ofFn]
    by_cases hk : k < L'.traces.length
    · rw [List.getElem?_eq_getElem hk, dif_pos hk, Option.map_some]
      exact congrArg some (hf2 k _ _)
    · rw [List.getElem?_eq_none (by omega), dif_neg hk]
      rfl

theorem captures_units (hℓ : 0 < ℓ) {L : RealizationLog} {trs : List (Trace XR)} (h : L.traces = trs.map (Trace.inUnits ℓ τ)) (u X Y : ℝ) :
    L.Captures (ℓ * u) (ℓ * X) (ℓ * Y) ↔ ∃ tr ∈ trs, NearTrack tr.path u X Y := by
  unfold RealizationLog.Captures
  rw [h]
  constructor
  · rintro ⟨tr, h1, h2⟩
    obtain ⟨tr0, h3, rfl⟩ := List.mem_map.mp h1
    rw [path_units _ hℓ, near_units hℓ] at h2
    exact ⟨tr0, h3, h2⟩
  · rintro ⟨tr, h1, h2⟩
    refine ⟨_, List.mem_map_of_mem h1, ?_⟩
    rw [path_units _ hℓ, near_units hℓ]
    exact h2

end Oneka
