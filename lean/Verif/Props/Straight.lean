import Verif.Spec.Straight
import Verif.Lemmas.Straight
import Verif.Lemmas.Outward
import Verif.Props.Width
import Verif.Props.Upstream

/-!
# C146: straight pathlines are traced straight

Vocabulary: Spec/Straight.lean. Examples: Props/StraightExamples.lean. There is no hypothesis on the accuracy of the traces here: the tolerance, the step limit, the duration and the strength of the wells are arbitrary, and every evaluation of
the velocity may be interrupted.
-/

namespace Oneka

open Aquifer

/-- **C146.** If on a straight line the velocity is along the line, a trace that starts on the line stays on it. The velocity function may be stateful and may raise. -/
theorem C146_line {p d : ℝ × ℝ} {xs ys duration tol maxstep : ℝ} {feval : ℕ → ℝ × ℝ → Except PyErr (ℝ × ℝ)} (h0 : OnLine p d (xs, ys)) (hf : ∀ n q v, OnLine p d q → feval n q = .ok v → Parallel d v) {r : Trace ℝ}
    (h : computeBacktrace xs ys duration tol maxstep feval = some r) : ∀ v ∈ r.vertices, OnLine p d v :=
  trace_straight h0 hf h

/-- **C146.** The same for the velocity function that the runs hand to the tracer: if the water on a straight line moves along the line, a trace that starts on the line stays on it. -/
theorem C146_trace {m : Aquifer ℝ} (hm : m.Physical) {confined : Bool} {p d : ℝ × ℝ} (hflow : m.FlowsAlong confined p d) {x y duration tol maxstep : ℝ} (h0 : OnLine p d (x, y)) (hd : duration ≠ 0) (htol : 0 ≤ tol)
    {fe : ℕ → XR × XR → Except PyErr (XR × XR)} (hfe : ∀ n q, fe n q = m.toX.reverseVelocity confined q ∨ ∃ e, fe n q = .error e) {r : Trace XR}
    (h : computeBacktrace (.fin x) (.fin y) (.fin duration) (.fin tol) (.fin maxstep) fe = some r) : ∀ v ∈ r.path, OnLine p d v := by
  simp only [reverseVelocity_eq] at hfe
  have hfe' : ∀ n p v, fe n p = .ok v → m.toX.backVelocity confined p = .ok v := by
    intro n p v hv
    rcases hfe n p with e | ⟨e, he⟩
    · rw [← e]; exact hv
    · rw [he] at hv; simp at hv
  obtain ⟨r', hr', rfl⟩ := backtrace_unlift (tame_of m hm confined hfe') hd htol h
  have key := trace_straight h0 (fun n q v hq hv => ?_) hr'
  · intro v hv
    simp only [Trace.path, Trace.emb, List.map_map, List.mem_map] at hv
    obtain ⟨u, hu, rfl⟩ := hv
    exact key u hu
  · rw [finPart_ok] at hv
    rcases backVelocity_off m hm confined (hfe' _ _ _ hv) with ⟨hoff, w, hw, e⟩ | hn
    · have hvw : v = w := Prod.ext (XR.fin.inj (congrArg Prod.fst e)) (XR.fin.inj (congrArg Prod.snd e))
      have := hflow q _ hq (backVelocity_flows hm hoff hw)
      rw [hvw]
      unfold Parallel at this ⊢
      simp only [Prod.fst_neg, Prod.snd_neg] at this
      linarith
    · exact absurd hn (emb_not_nan v)

/-- **C146.** Where this is so: (1) On every line through the only well of an aquifer at rest. -/
theorem C146_rest {m : Aquifer ℝ} (hm : m.Physical) {w : Well ℝ} (h : m.AtRest w) (confined : Bool) (d : ℝ × ℝ) : m.FlowsAlong confined (w.xw, w.yw) d := by
  intro q V hq hV
  refine parallel_of_discharge hm hV ?_
  rw [uniform_discharge (AtRest.uniform h)]
  unfold OnLine Parallel at *
  simp only [Prod.fst_sub, Prod.snd_sub] at *
  linear_combination (-(w.qw * (twoPiInv : ℝ) / w.r2 q.1 q.2)) * hq

/-- **C146.** (2) On every line through the only well of an aquifer whose only other supply is recharge, spread evenly about the well. -/
theorem C146_recharge {m : Aquifer ℝ} (hm : m.Physical) {w : Well ℝ} (hw : m.wells = [w]) (ho : m.xo = w.xw ∧ m.yo = w.yw) (heven : m.coef 0 = m.coef 1) (hno : m.coef 2 = 0 ∧ m.coef 3 = 0 ∧ m.coef 4 = 0) (confined : Bool)
    (d : ℝ × ℝ) : m.FlowsAlong confined (w.xw, w.yw) d := by
  intro q V hq hV
  refine parallel_of_discharge hm hV ?_
  rw [discharge_eq, hw, ho.1, ho.2, heven, hno.1, hno.2.1, hno.2.2]
  unfold OnLine Parallel at *
  simp only [Prod.fst_sub, Prod.snd_sub, List.map_cons, List.map_nil, List.sum_cons, List.sum_nil] at *
  linear_combination (-(2 * m.coef 1) - w.qw * (twoPiInv : ℝ) / w.r2 q.1 q.2) * hq

/-- **C146.** (3) On a line in the direction of a uniform flow that contains all wells. -/
theorem C146_axis {m : Aquifer ℝ} (hm : m.Physical) {p d : ℝ × ℝ} (hw : ∀ w ∈ m.wells, OnLine p d (w.xw, w.yw)) (hno : m.coef 0 = 0 ∧ m.coef 1 = 0 ∧ m.coef 2 = 0) (hd : Parallel d (m.coef 3, m.coef 4)) (confined : Bool) :
    m.FlowsAlong confined p d := by
  intro q V hq hV
  refine parallel_of_discharge hm hV ?_
  rw [discharge_eq, hno.1, hno.2.1, hno.2.2]
  have key : ∀ ws : List (Well ℝ), (∀ w ∈ ws, OnLine p d (w.xw, w.yw)) →
      d.1 * (ws.map fun w => -(w.qw * (twoPiInv : ℝ) * ((q.2 - w.yw) / w.r2 q.1 q.2))).sum = d.2 * (ws.map fun w => -(w.qw * (twoPiInv : ℝ) * ((q.1 - w.xw) / w.r2 q.1 q.2))).sum := by
    intro ws
    induction ws with
    | nil => simp
    | cons w ws ih =>
      intro hws
      have h1 := ih fun w' hw' => hws w' (List.mem_cons_of_mem _ hw')
      have h2 := hws w List.mem_cons_self
      unfold OnLine Parallel at h2 hq
      simp only [Prod.fst_sub, Prod.snd_sub, List.map_cons, List.sum_cons] at *
      linear_combination h1 - (w.qw * (twoPiInv : ℝ) / w.r2 q.1 q.2) * (hq - h2)
  have := key _ hw
  unfold Parallel at *
  simp only at *
  linear_combination this - hd

/-- **C146.** What a realization captures if the water moves straight to or from the well: only places within the umbra of the lines through the well and the starting points. -/
theorem C146_captures {a : RunArgs} {la : LinAlg} {t : SWell} {q : Dist → ℕ → Except PyErr ℝ} {coefs : (Fin 6 → ℝ) → Matrix (Fin 6) (Fin 6) ℝ → Except PyErr (Fin 6 → ℝ)}
    {interrupt : ℕ → ℕ → Option PyErr} {T : RealizationLog} (R : Realized a la t q coefs interrupt T) {D tol maxstep : ℝ} (hd : a.duration = .fin D) (ht : a.tol = .fin tol) (hm : a.maxstep = .fin maxstep) (hD : D ≠ 0) (htol : 0 ≤ tol)
    (hphys : T.model.Physical) (hflow : ∀ d, T.model.FlowsAlong a.confined (t.xw, t.yw) d) (umbra X Y : ℝ) (hu : 0 ≤ umbra) (hc : T.Captures umbra X Y) :
    ∃ k : ℕ, k < a.npaths ∧ t.offSpoke a.npaths k (X, Y) < umbra := by
  obtain ⟨tr, htr, A, B, hAB, -, s, -, -, hs⟩ := hc
  obtain ⟨k, hk⟩ := List.getElem?_of_mem htr
  have hlt : k < T.traces.length := (List.getElem?_eq_some_iff.mp hk).1
  rw [R.traces_length] at hlt
  refine ⟨k, by omega, ?_⟩
  have h := R.traces k tr hk
  rw [hd, ht, hm] at h
  set θ := 2 * Real.pi * k / (a.npaths : ℝ) with hθ
  have key := C146_trace hphys (hflow (Real.cos θ, Real.sin θ)) (p := (t.xw, t.yw)) (by unfold OnLine Parallel; simp only [Prod.fst_sub, Prod.snd_sub]; ring) hD htol (fun n p => by
    cases interrupt k n with
    | none => exact .inl rfl
    | some e => exact .inr ⟨e, rfl⟩) h
  have hA := key A (hAB.subset (by simp))
  have hB := key B (hAB.subset (by simp))
  unfold SWell.offSpoke
  rw [← hθ]
  refine abs_lt_of_sq_lt_sq ?_ hu
  refine lt_of_le_of_lt ?_ hs
  unfold OnLine Parallel at hA hB
  simp only [Prod.fst_sub, Prod.snd_sub] at hA hB ⊢
  have e : Real.cos θ * (Y - t.yw) - Real.sin θ * (X - t.xw) = Real.cos θ * (Y - (A.2 + s * (B.2 - A.2))) - Real.sin θ * (X - (A.1 + s * (B.1 - A.1))) := by
    linear_combination (1 - s) * hA + s * hB
  rw [e]
  generalize Y - (A.2 + s * (B.2 - A.2)) = η
  generalize X - (A.1 + s * (B.1 - A.1)) = ξ
  have := Real.sin_sq_add_cos_sq θ
  have e2 : ξ ^ 2 + η ^ 2 = (Real.cos θ * η - Real.sin θ * ξ) ^ 2 + (Real.cos θ * ξ + Real.sin θ * η) ^ 2 := by
    linear_combination (-(ξ ^ 2 + η ^ 2)) * this
  rw [e2]
  exact le_add_of_nonneg_right (sq_nonneg _)

open Classical in
/-- **C146.** What is archived: the weight of a node counts no realization with straight flow to or from the well in which the node is the umbra or more away from all these lines. With few paths there are gaps between them. -/
theorem C146_archived (a : PyArgs) (n : Inputs) (env : CallEnv) (v : PyVal) (hden : a.Denotes n) (h : (oneka a env).ending = .returns v) (fs : Files)
    {D tol maxstep : ℝ} (hd : n.run.duration = .fin D) (ht : n.run.tol = .fin tol) (hm : n.run.maxstep = .fin maxstep) :
    ∃ (d : Dict) (f : PField ℝ) (k : ℕ) (t : SWell),
      loadOneka ((oneka a env).events.foldl Effect.apply fs) env.now.archiveName = .ok d ∧ d.get "pfield" = some (.field (.field f)) ∧ n.run.target = k ∧ n.run.wells[k]? = some t ∧
      ∀ p q : ℤ, (|p| ≤ 1 ∧ |q| ≤ 1) ∨ n.run.umbra ≤ n.run.spacing → ∀ X Y : ℝ, X = t.xw + p * n.run.spacing → Y = t.yw + q * n.run.spacing →
        f.weightAt X Y ≤ ((realizations (oneka a env).events).countP fun L => L.model.Physical → (∀ d, L.model.FlowsAlong n.run.confined (t.xw, t.yw) d) → ∃ j : ℕ, j < n.run.npaths ∧ t.offSpoke n.run.npaths j (X, Y) < n.run.umbra) := by
  obtain ⟨-, -, ha, -⟩ := returned_course h
  obtain ⟨-, -, -, hu, -⟩ := accepted_inputs ha hden
  have hD : D ≠ 0 := by
    obtain ⟨x, hx, hx0⟩ := ha.duration
    rw [hden.duration, hd] at hx
    rintro rfl
    exact hx0 (Option.some.inj hx).symm
  have htol : 0 ≤ tol := by
    obtain ⟨x, hx, hx0⟩ := ha.tol
    rw [hden.tol, ht] at hx
    obtain rfl := Option.some.inj hx
    exact ((XR.fin_lt _ _).mp hx0).le
  by_cases h1 : 1 < n.nrealizations
  · obtain ⟨d, f, obs, k, t, g1, g2, -, -, g3, g4, -, g5, -, g6, -⟩ := C68_stochastic a n env v hden h1 h fs
    refine ⟨d, f, k, t, g1, g2, g3, g4, fun p q hpq X Y hX hY => ?_⟩
    rw [hX, hY, g6 p q hpq]
    refine Nat.cast_le.mpr (List.countP_mono_left fun L hL hc => ?_)
    simp only [decide_eq_true_eq] at hc ⊢
    intro hphys hflow
    obtain ⟨i, hi⟩ := List.getElem?_of_mem hL
    exact C146_captures (g5 i L hi) hd ht hm hD htol hphys hflow _ _ _ hu.le hc
  · obtain ⟨d, f, obs, k, t, L, g1, g2, -, -, g3, g4, e, R, -, g6, -⟩ := C68_deterministic a n env v hden (not_lt.mp h1) h fs
    refine ⟨d, f, k, t, g1, g2, g3, g4, fun p q hpq X Y hX hY => ?_⟩
    rw [hX, hY, g6 p q hpq, e]
    split_ifs with hc
    · rw [List.countP_singleton, if_pos]
      · simp
      · rw [decide_eq_true_eq]
        exact fun hphys hflow => C146_captures R hd ht hm hD htol hphys hflow _ _ _ hu.le hc
    · positivity

/-- **C146.** The traces around a pumping well in a confined aquifer at rest lead straight away from it: the vertices are on the ray from the well through the start, each farther from the well than the one before. -/
theorem C146_outward {m : Aquifer ℝ} (hm : m.Physical) {w : Well ℝ} (hw : m.AtRest w) (hq : 0 < w.qw) {x y duration tol maxstep : ℝ} (h0 : (x, y) ≠ (w.xw, w.yw)) (hd : 0 < duration) (htol : 0 < tol) (hmax : 0 < maxstep)
    {fe : ℕ → XR × XR → Except PyErr (XR × XR)} (hfe : ∀ n q, fe n q = m.toX.reverseVelocity true q ∨ ∃ e, fe n q = .error e) {r : Trace XR}
    (h : computeBacktrace (.fin x) (.fin y) (.fin duration) (.fin tol) (.fin maxstep) fe = some r) :
    ∃ ρs : List ℝ, r.path = ρs.map (fun ρ => (w.xw + ρ * (x - w.xw), w.yw + ρ * (y - w.yw))) ∧ ρs.head? = some 1 ∧ ρs.Pairwise (· < ·) := by
  simp only [reverseVelocity_eq] at hfe
  have hfe' : ∀ n p v, fe n p = .ok v → m.toX.backVelocity true p = .ok v := by
    intro n p v hv
    rcases hfe n p with e | ⟨e, he⟩
    · rw [← e]; exact hv
    · rw [he] at hv; simp at hv
  obtain ⟨r', hr', rfl⟩ := backtrace_unlift (tame_of m hm true hfe') hd.ne' htol.le h
  have hr : 0 < w.r2 x y := r2_pos_of_ne (p := (x, y)) h0
  have hnb : 0 < m.porosity * m.thickness := mul_pos hm.porosity hm.thickness
  have hκ : 0 < w.qw * (twoPiInv : ℝ) / (m.porosity * m.thickness) := div_pos (mul_pos hq (close_pos twoPiInv_close)) hnb
  have key := trace_outward (w := (w.xw, w.yw)) (e := (x - w.xw, y - w.yw)) (c := w.qw * (twoPiInv : ℝ) / (m.porosity * m.thickness) / w.r2 x y) (div_pos hκ hr) hd htol hmax (fun n ρ v hρ hv => ?_) (by simp [rayAt]) hr'
  · obtain ⟨ρs, k1, k2, k3⟩ := key
    refine ⟨ρs, ?_, k2, k3⟩
    simp only [Trace.path, Trace.emb, k1, List.map_map]
    rfl
  · rw [finPart_ok] at hv
    rcases backVelocity_off m hm true (hfe' _ _ _ hv) with ⟨hoff, u, hu, e⟩ | hn
    · have hvu : v = u := Prod.ext (XR.fin.inj (congrArg Prod.fst e)) (XR.fin.inj (congrArg Prod.snd e))
      obtain ⟨-, hV⟩ := (still_flows hw hm).mp (backVelocity_flows hm hoff hu)
      have hV : v = -(-v) := (neg_neg v).symm
      rw [hvu] at hV ⊢
      rw [hV, ‹-u = _›]
      have e2 : w.r2 (rayAt (w.xw, w.yw) (x - w.xw, y - w.yw) ρ).1 (rayAt (w.xw, w.yw) (x - w.xw, y - w.yw) ρ).2 = ρ ^ 2 * w.r2 x y := by
        simp only [rayAt, Well.r2]
        ring
      rw [e2]
      have hr' := hr.ne'
      refine Prod.ext ?_ ?_
      · simp only [multOf, rayAt, Prod.fst_neg]
        generalize w.r2 x y = Q at *
        field_simp
        ring
      · simp only [multOf, rayAt, Prod.snd_neg]
        generalize w.r2 x y = Q at *
        field_simp
        ring
    · exact absurd hn (emb_not_nan v)

/-- **C146.** So a realization at rest captures only places within the umbra of the rays that begin at the starting points and lead away from the well. -/
theorem C146_rays {a : RunArgs} {la : LinAlg} {t : SWell} {q : Dist → ℕ → Except PyErr ℝ} {coefs : (Fin 6 → ℝ) → Matrix (Fin 6) (Fin 6) ℝ → Except PyErr (Fin 6 → ℝ)}
    {interrupt : ℕ → ℕ → Option PyErr} {T : RealizationLog} (R : Realized a la t q coefs interrupt T) {D tol maxstep : ℝ} (hd : a.duration = .fin D) (ht : a.tol = .fin tol) (hm : a.maxstep = .fin maxstep) (hD : 0 < D) (htol : 0 < tol)
    (hmax : 0 < maxstep) (hcf : a.confined = true) (hphys : T.model.Physical) {w : Well ℝ} (hw : T.model.AtRest w) (hq : 0 < w.qw) (hr : 0 ≤ t.rw) (htw : t ∈ a.wells) (umbra X Y : ℝ) (hu : 0 ≤ umbra) (hc : T.Captures umbra X Y) :
    ∃ k : ℕ, k < a.npaths ∧ ∃ ρ, 1 ≤ ρ ∧ euclid (t.xw + ρ * ((t.start a.npaths k).1 - t.xw), t.yw + ρ * ((t.start a.npaths k).2 - t.yw)) (X, Y) < umbra := by
  obtain ⟨tr, htr, A, B, hAB, -, s, s0, s1, hs⟩ := hc
  obtain ⟨k, hk⟩ := List.getElem?_of_mem htr
  have hlt : k < T.traces.length := (List.getElem?_eq_some_iff.mp hk).1
  rw [R.traces_length] at hlt
  refine ⟨k, by omega, ?_⟩
  obtain ⟨hx, hy, -⟩ := only_well R htw hw.wells
  have h := R.traces k tr hk
  rw [hd, ht, hm, hcf] at h
  obtain ⟨ρs, k1, k2, k3⟩ := C146_outward hphys hw hq (hx ▸ hy ▸ start_ne t hr a.npaths k) hD htol hmax (fun n p => by
    cases interrupt k n with
    | none => exact .inl rfl
    | some e => exact .inr ⟨e, rfl⟩) h
  have hge : ∀ ρ ∈ ρs, 1 ≤ ρ := by
    cases ρs with
    | nil => simp
    | cons b l =>
      obtain rfl : b = 1 := Option.some.inj k2
      intro ρ hρ
      rcases List.mem_cons.mp hρ with rfl | hρ
      · exact le_rfl
      · exact ((List.pairwise_cons.mp k3).1 ρ hρ).le
  have hA : A ∈ tr.path := hAB.subset (by simp)
  have hB : B ∈ tr.path := hAB.subset (by simp)
  rw [k1, List.mem_map] at hA hB
  obtain ⟨α, hα, rfl⟩ := hA
  obtain ⟨β, hβ, rfl⟩ := hB
  refine ⟨α + s * (β - α), ?_, ?_⟩
  · have := hge α hα
    have := hge β hβ
    nlinarith
  · unfold euclid
    rw [Real.sqrt_lt' (lt_of_le_of_ne hu ?_)]
    · refine lt_of_eq_of_lt ?_ hs
      rw [hx, hy]
      simp only [SWell.start]
      rw [← hx, ← hy]
      ring
    · rintro rfl
      have : (0:ℝ) ^ 2 = 0 := by norm_num
      rw [this] at hs
      exact absurd hs (not_lt.mpr (add_nonneg (sq_nonneg _) (sq_nonneg _)))

open Classical in
/-- **C146.** What is archived: the weight of a node counts no realization at rest, pumping from a confined aquifer, in which the node is the umbra or more away from all these rays; in particular none if it is that near to the well. -/
theorem C146_archived_rays (a : PyArgs) (n : Inputs) (env : CallEnv) (v : PyVal) (hden : a.Denotes n) (h : (oneka a env).ending = .returns v) (fs : Files)
    {D tol maxstep : ℝ} (hd : n.run.duration = .fin D) (ht : n.run.tol = .fin tol) (hm : n.run.maxstep = .fin maxstep) (hD : 0 < D) (hcf : n.run.confined = true) :
    ∃ (d : Dict) (f : PField ℝ) (k : ℕ) (t : SWell),
      loadOneka ((oneka a env).events.foldl Effect.apply fs) env.now.archiveName = .ok d ∧ d.get "pfield" = some (.field (.field f)) ∧ n.run.target = k ∧ n.run.wells[k]? = some t ∧
      ∀ p q : ℤ, (|p| ≤ 1 ∧ |q| ≤ 1) ∨ n.run.umbra ≤ n.run.spacing → ∀ X Y : ℝ, X = t.xw + p * n.run.spacing → Y = t.yw + q * n.run.spacing →
        f.weightAt X Y ≤ ((realizations (oneka a env).events).countP fun L => L.model.Physical → ∀ w, L.model.AtRest w → 0 < w.qw →
          ∃ j : ℕ, j < n.run.npaths ∧ ∃ ρ, 1 ≤ ρ ∧ euclid (t.xw + ρ * ((t.start n.run.npaths j).1 - t.xw), t.yw + ρ * ((t.start n.run.npaths j).2 - t.yw)) (X, Y) < n.run.umbra) := by
  obtain ⟨-, -, ha, -⟩ := returned_course h
  obtain ⟨-, -, -, hu, -⟩ := accepted_inputs ha hden
  have htol : 0 < tol := by
    obtain ⟨x, hx, hx0⟩ := ha.tol
    rw [hden.tol, ht] at hx
    obtain rfl := Option.some.inj hx
    exact (XR.fin_lt _ _).mp hx0
  have hmax : 0 < maxstep := by
    obtain ⟨x, hx, hx0⟩ := ha.maxstep
    rw [hden.maxstep, hm] at hx
    obtain rfl := Option.some.inj hx
    exact (XR.fin_lt _ _).mp hx0
  by_cases h1 : 1 < n.nrealizations
  · obtain ⟨d, f, obs, k, t, g1, g2, -, -, g3, g4, -, g5, -, g6, -⟩ := C68_stochastic a n env v hden h1 h fs
    have hmem : t ∈ n.run.wells := List.mem_of_getElem? g4
    refine ⟨d, f, k, t, g1, g2, g3, g4, fun p q hpq X Y hX hY => ?_⟩
    rw [hX, hY, g6 p q hpq]
    refine Nat.cast_le.mpr (List.countP_mono_left fun L hL hc => ?_)
    simp only [decide_eq_true_eq] at hc ⊢
    intro hphys w hw hq
    obtain ⟨i, hi⟩ := List.getElem?_of_mem hL
    exact C146_rays (g5 i L hi) hd ht hm hD htol hmax hcf hphys hw hq (accepted_radius ha hden hmem).le hmem _ _ _ hu.le hc
  · obtain ⟨d, f, obs, k, t, L, g1, g2, -, -, g3, g4, e, R, -, g6, -⟩ := C68_deterministic a n env v hden (not_lt.mp h1) h fs
    have hmem : t ∈ n.run.wells := List.mem_of_getElem? g4
    refine ⟨d, f, k, t, g1, g2, g3, g4, fun p q hpq X Y hX hY => ?_⟩
    rw [hX, hY, g6 p q hpq, e]
    split_ifs with hc
    · rw [List.countP_singleton, if_pos]
      · simp
      · rw [decide_eq_true_eq]
        exact fun hphys w hw hq => C146_rays R hd ht hm hD htol hmax hcf hphys hw hq (accepted_radius ha hden hmem).le hmem _ _ _ hu.le hc
    · positivity

end Oneka
