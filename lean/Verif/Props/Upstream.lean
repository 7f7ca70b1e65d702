import Verif.Lemmas.Upstream
import Verif.Props.Backtrace
import Verif.Props.Oneka
import Verif.Lemmas.Draw

/-!
# C81: the traces of a run lead upstream
-/

namespace Oneka

open Aquifer

/-! ## C81 -/

/-- C81: a trace along the velocity function that the runs hand to the tracer, which may be interrupted at any evaluation, is a chain of Dormand–Prince steps along the upstream direction `f` of the
model: each with a local error below `tol`, shorter than `maxstep` and in the direction of the duration. (A positive duration leads upstream, a negative one downstream.) The steps cover the duration if there
was no warning. `f` is arbitrary where there is no flow: the tracer never uses such a place. -/
theorem C81_trace (m : Aquifer ℝ) (hm : m.Physical) (confined : Bool) (f : ℝ × ℝ → ℝ × ℝ) (hf : m.Upstream confined f) (x y duration tol maxstep : ℝ) (hd : duration ≠ 0)
    (htol : 0 < tol) (hmax : 0 < maxstep) (fe : ℕ → XR × XR → Except PyErr (XR × XR)) (hfe : ∀ n p, fe n p = m.toX.reverseVelocity confined p ∨ ∃ e, fe n p = .error e) (r : Trace XR)
    (h : computeBacktrace (.fin x) (.fin y) (.fin duration) (.fin tol) (.fin maxstep) fe = some r) :
    ∃ path, r.vertices = ((x, y) :: path.map Prod.snd).map floats ∧ DPPath f tol maxstep (x, y) path ∧ (∀ st ∈ path, 0 < st.1 * duration) ∧
      |(path.map Prod.fst).sum| ≤ |duration| ∧ (r.warning = none → (path.map Prod.fst).sum = duration) := by
  simp only [reverseVelocity_eq] at hfe
  have hfe' : ∀ n p v, fe n p = .ok v → m.toX.backVelocity confined p = .ok v := by
    intro n p v hv
    rcases hfe n p with e | ⟨e, he⟩
    · rw [← e]; exact hv
    · rw [he] at hv; simp at hv
  obtain ⟨r', hr', rfl⟩ := backtrace_unlift (tame_of m hm confined hfe') hd htol.le h
  obtain ⟨path, p1, p2, p3, p4, p5, -⟩ := C19_duration f x y duration tol maxstep _ (computes_of m hm confined hf hfe') hd htol hmax r' hr'
  exact ⟨path, by rw [← p1]; rfl, p2, p3, p4, fun hw => p5 (by simpa [Trace.emb] using hw)⟩

/-- there is an upstream direction, e.g. for the example aquifer, confined or not -/
example (confined : Bool) : ∃ f, demoAquifer.Upstream confined f := exists_upstream _ demo_physical _

/-- such a velocity function, interrupted after `N` evaluations, with which the trace returns -/
example (N : ℕ) (confined : Bool) : ∃ fe : ℕ → XR × XR → Except PyErr (XR × XR), (∀ n p, fe n p = demoAquifer.toX.reverseVelocity confined p ∨ ∃ e, fe n p = .error e) ∧
    ∃ r, computeBacktrace (.fin 1) (.fin 0) (.fin 3650) (.fin 1) (.fin 10) fe = some r := by
  refine ⟨fun n p => if n < N then demoAquifer.toX.reverseVelocity confined p else .error .keyboardInterrupt, fun n p => ?_,
    interrupted_terminates (N := N) (fun p => ⟨.keyboardInterrupt, by simp⟩) _ _ _ _ _⟩
  by_cases h : n < N
  · exact .inl (if_pos h)
  · exact .inr ⟨_, if_neg h⟩

/-- C81: trace number `k` of a realization of a run (see C45, C46) starts one metre outside the screen of the target, in the direction of angle `2πk/npaths`, and leads upstream through the model of
that realization, unless the duration is negative. -/
theorem C81_realization {a : RunArgs} {la : LinAlg} {t : SWell} {q : Dist → ℕ → Except PyErr ℝ} {coefs : (Fin 6 → ℝ) → Matrix (Fin 6) (Fin 6) ℝ → Except PyErr (Fin 6 → ℝ)}
    {interrupt : ℕ → ℕ → Option PyErr} {L : RealizationLog} (R : Realized a la t q coefs interrupt L) {duration tol maxstep : ℝ} (hd : a.duration = .fin duration) (ht : a.tol = .fin tol)
    (hm : a.maxstep = .fin maxstep) (hd0 : duration ≠ 0) (ht0 : 0 < tol) (hm0 : 0 < maxstep) (hP : L.model.Physical) (f : ℝ × ℝ → ℝ × ℝ) (hf : L.model.Upstream a.confined f)
    (k : ℕ) (tr : Trace XR) (hk : L.traces[k]? = some tr) :
    ∃ start path, start = (t.xw + (t.rw + 1) * Real.cos (2 * Real.pi * k / a.npaths), t.yw + (t.rw + 1) * Real.sin (2 * Real.pi * k / a.npaths)) ∧
      tr.vertices = (start :: path.map Prod.snd).map floats ∧ DPPath f tol maxstep start path ∧
      (∀ st ∈ path, 0 < st.1 * duration) ∧ |(path.map Prod.fst).sum| ≤ |duration| ∧ (tr.warning = none → (path.map Prod.fst).sum = duration) := by
  have h := R.traces k tr hk
  rw [hd, ht, hm] at h
  obtain ⟨path, h1⟩ := C81_trace L.model hP a.confined f hf _ _ duration tol maxstep hd0 ht0 hm0 _ (fun n p => by
    cases interrupt k n with
    | none => exact .inl rfl
    | some e => exact .inr ⟨e, rfl⟩) tr h
  exact ⟨_, path, rfl, h1⟩

/-- C81: end to end. All traces of all realizations logged by a call that returns, with finite regular arguments, lead upstream through the model of their realization. Example: `Props/Examples.lean`. -/
theorem C81_call (a : PyArgs) (n : Inputs) (env : CallEnv) (v : PyVal) (hd : a.Denotes n) (hr : n.Regular) (hp : n.run.pDist.Pos)
    (hs : 1 < n.nrealizations → n.Spread ∧ ∀ i j, 0 ≤ env.run.u i j ∧ env.run.u i j < 1) (h : (oneka a env).ending = .returns v)
    (duration tol maxstep : ℝ) (h1 : n.run.duration = .fin duration) (h2 : n.run.tol = .fin tol) (h3 : n.run.maxstep = .fin maxstep) :
    ∃ (k : ℕ) (t : SWell), n.run.target = k ∧ n.run.wells[k]? = some t ∧ ∀ L ∈ realizations (oneka a env).events, ∀ f, L.model.Upstream n.run.confined f →
      ∀ (j : ℕ) (tr : Trace XR), L.traces[j]? = some tr →
        ∃ start path, start = (t.xw + (t.rw + 1) * Real.cos (2 * Real.pi * j / n.run.npaths), t.yw + (t.rw + 1) * Real.sin (2 * Real.pi * j / n.run.npaths)) ∧
          tr.vertices = (start :: path.map Prod.snd).map floats ∧ DPPath f tol maxstep start path ∧
          (∀ st ∈ path, 0 < st.1 * duration) ∧ |(path.map Prod.fst).sum| ≤ |duration| ∧ (tr.warning = none → (path.map Prod.fst).sum = duration) := by
  obtain ⟨-, -, ha, -⟩ := returned_course h
  have hd0 : duration ≠ 0 := by
    obtain ⟨x, hx, hx0⟩ := ha.duration
    rw [hd.duration, h1] at hx
    rintro rfl
    exact hx0 (Option.some.inj hx).symm
  have ht0 : 0 < tol := by
    obtain ⟨x, hx, hx0⟩ := ha.tol
    rw [hd.tol, h2] at hx
    obtain rfl := Option.some.inj hx
    exact (XR.fin_lt _ _).mp hx0
  have hm0 : 0 < maxstep := by
    obtain ⟨x, hx, hx0⟩ := ha.maxstep
    rw [hd.maxstep, h3] at hx
    obtain rfl := Option.some.inj hx
    exact (XR.fin_lt _ _).mp hx0
  by_cases hn : 1 < n.nrealizations
  · obtain ⟨-, -, obs, k, t, -, -, -, -, hk, ht, -, hL, -⟩ := C68_stochastic a n env v hd hn h (fun _ => none)
    refine ⟨k, t, hk, ht, fun L hmem f hf j tr hj => ?_⟩
    obtain ⟨i, hi, rfl⟩ := List.mem_iff_getElem.mp hmem
    have R := hL i _ (List.getElem?_eq_getElem hi)
    obtain ⟨hsp, hu⟩ := hs hn
    have pos : ∀ {w : PyVal} {d : Dist} {lb ub : XR} {m : ℕ} {x : ℝ}, w.DistIn lb ub → w.Means d → ¬ d.Pointlike → d.Pos → d.sample (env.run.u i m) = .ok x → 0 < x := by
      intro w d lb ub m x hw hm hpt hpos hx
      obtain ⟨x', e, hx'⟩ := sample_ok hw hm hpt (hu i m).1 (hu i m).2
      rw [e] at hx
      obtain rfl := Except.ok.inj hx
      exact hx' hpos
    exact C81_realization R h1 h2 h3 hd0 ht0 hm0 ⟨pos ha.cDist hd.cDist hsp.1 hr.1 R.conductivity, pos ha.pDist hd.pDist hsp.2.1 hp R.porosity,
      pos ha.tDist hd.tDist hsp.2.2.1 hr.2.1 R.thickness⟩ f hf j tr hj
  · obtain ⟨-, -, obs, k, t, L, -, -, -, -, hk, ht, hL, R, -⟩ := C68_deterministic a n env v hd (by omega) h (fun _ => none)
    refine ⟨k, t, hk, ht, fun L' hmem f hf j tr hj => ?_⟩
    rw [hL, List.mem_singleton] at hmem
    subst hmem
    have pos : ∀ {w : PyVal} {d : Dist} {lb ub : XR} {x : ℝ}, w.DistIn lb ub → w.Means d → d.Pos → d.mean = .ok x → 0 < x := by
      intro w d lb ub x hw hm hpos hx
      obtain ⟨x', e, hx'⟩ := mean_ok hw hm
      rw [e] at hx
      obtain rfl := Except.ok.inj hx
      exact hx' hpos
    exact C81_realization R h1 h2 h3 hd0 ht0 hm0 ⟨pos ha.cDist hd.cDist hr.1 R.conductivity, pos ha.pDist hd.pDist hp R.porosity,
      pos ha.tDist hd.tDist hr.2.1 R.thickness⟩ f hf j tr hj

end Oneka
