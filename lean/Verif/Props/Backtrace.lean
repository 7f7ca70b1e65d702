import Verif.Lemmas.Embed
import Verif.Lemmas.Uniform
import Verif.Lemmas.Adaptive
import Verif.Lemmas.Trees

/-!
# C17–C26: the backtrace integrator

`computeBacktrace … = some r` reads "the call returns"; `= none` reads "the call never returns". `r.vertices` is the
returned list, `r.warning` the time in the "terminated prematurely" log message, if there is one. `r.steps` is a ghost record of the
accepted steps, used only for velocity functions that may answer differently each time they are asked; for
steady velocity functions the same is said without it, through `DPPath` (`Verif/Spec/RK.lean`).
The velocity function is `feval : ℕ → point → value or exception`, its first argument counting the calls, so it may be stateful, fail
at any call, or stand for a user interrupt at any call.
-/

namespace Oneka

/-! ## Programs used in the examples -/

/-- rotation about the origin -/
def rotation : ℝ × ℝ → ℝ × ℝ := fun p => (-p.2, p.1)

/-- rotation, failing in the half plane x < 0 -/
noncomputable def brokenRotation : ℕ → ℝ × ℝ → Except PyErr (ℝ × ℝ) :=
  fun _ p => if p.1 < 0 then .error .aquiferError else .ok (rotation p)

theorem brokenRotation_computes : Computes brokenRotation rotation := by
  intro n p v h
  unfold brokenRotation at h
  split_ifs at h
  exact (Except.ok.inj h).symm

theorem rotation_growth (n : ℕ) (p v : ℝ × ℝ) (h : steady rotation n p = .ok v) : ‖v‖ ≤ 0 + 1 * ‖p‖ := by
  obtain rfl := Except.ok.inj h
  simp only [rotation, Prod.norm_def, norm_neg, zero_add, one_mul]
  rw [max_comm]

theorem tol_ok : (10/9 : ℝ)^5 * EPS < 1 ∧ 10/9 * (EPS : ℝ) < 10 := by
  rw [EPS_real]; norm_num

/-! ## C17 -/

/-- C17: whenever the call returns, the list starts with the starting point; if the very first evaluation
raises, it returns just the starting point; no exception leaves the call (the result type has none). -/
theorem C17_start {F : Type} [Add F] [Sub F] [Mul F] [Div F] [LT F] [DecidableLT F] [PyMath F]
    (xs ys duration tol maxstep : F) (feval : ℕ → F × F → Except PyErr (F × F)) :
    (∀ r, computeBacktrace xs ys duration tol maxstep feval = some r → r.vertices.head? = some (xs, ys)) ∧
    (∀ e, feval 0 (xs, ys) = .error e → ∃ r, computeBacktrace xs ys duration tol maxstep feval = some r ∧
      r.vertices = [(xs, ys)]) := by
  refine ⟨fun r h => by rw [trace_vertices h]; rfl, fun e he => ?_⟩
  refine ⟨⟨[(xs, ys)], [], some (PyMath.q 0)⟩, ?_, rfl⟩
  unfold computeBacktrace; rw [he]

/-- a call that fails in its first evaluation, and one that returns -/
example : ∃ e, brokenRotation 0 (-1, 0) = .error e := ⟨.aquiferError, if_pos (by norm_num)⟩

/-! ## C18 -/

/-- C18: consecutive vertices are closer than `maxstep`, and every accepted step had an error estimate below
`tol`; the vertices after the first are exactly those of the accepted steps. -/
theorem C18_steps (xs ys duration tol maxstep : ℝ) (feval : ℕ → ℝ × ℝ → Except PyErr (ℝ × ℝ)) (r : Trace ℝ)
    (h : computeBacktrace xs ys duration tol maxstep feval = some r) :
    r.vertices.IsChain (fun a b => Real.sqrt ((b.1 - a.1) ^ 2 + (b.2 - a.2) ^ 2) < maxstep) ∧
    (∀ st ∈ r.steps, st.est < tol) ∧ r.vertices.tail = r.steps.map Accepted.vertex := by
  obtain ⟨h1, h2⟩ := trace_chain h
  refine ⟨?_, h2, by rw [trace_vertices h]; rfl⟩
  simpa only [norm2_euclid, euclid] using h1

/-- C18 for a (possibly failing) program of a steady velocity: the path is a chain of Dormand–Prince steps whose
order-5 and order-4 results differ by less than `tol` and which are shorter than `maxstep`. -/
theorem C18_steady (f : ℝ × ℝ → ℝ × ℝ) (xs ys duration tol maxstep : ℝ) (feval : ℕ → ℝ × ℝ → Except PyErr (ℝ × ℝ))
    (hc : Computes feval f) (r : Trace ℝ) (h : computeBacktrace xs ys duration tol maxstep feval = some r) :
    ∃ path, r.vertices = (xs, ys) :: path.map Prod.snd ∧ DPPath f tol maxstep (xs, ys) path := by
  refine ⟨r.steps.map Accepted.move, ?_, trace_path hc h⟩
  rw [trace_vertices h, List.map_map]
  rfl

example : ∃ r, computeBacktrace 1 0 100 1 10 (steady rotation) = some r :=
  terminates le_rfl zero_le_one rotation_growth tol_ok.1 tol_ok.2

/-! ## C19 -/

/-- C19 for a (possibly failing) program of a steady velocity: the returned path is a chain of Dormand–Prince
steps, all in the direction of `duration`, that together never pass it; if no premature end was logged they sum to
exactly `duration`, otherwise to the logged time, which is short of it. -/
theorem C19_duration (f : ℝ × ℝ → ℝ × ℝ) (xs ys duration tol maxstep : ℝ)
    (feval : ℕ → ℝ × ℝ → Except PyErr (ℝ × ℝ)) (hc : Computes feval f) (hd : duration ≠ 0) (htol : 0 < tol)
    (hmax : 0 < maxstep) (r : Trace ℝ) (h : computeBacktrace xs ys duration tol maxstep feval = some r) :
    ∃ path, r.vertices = (xs, ys) :: path.map Prod.snd ∧ DPPath f tol maxstep (xs, ys) path ∧
      (∀ st ∈ path, 0 < st.1 * duration) ∧ |(path.map Prod.fst).sum| ≤ |duration| ∧
      (r.warning = none → (path.map Prod.fst).sum = duration) ∧
      (∀ t, r.warning = some t → t = (path.map Prod.fst).sum ∧ |t| < |duration|) := by
  obtain ⟨a, b, c, d⟩ := trace_time hd htol hmax h
  have e : (r.steps.map Accepted.move).map Prod.fst = r.steps.map Accepted.dt := by rw [List.map_map]; rfl
  refine ⟨r.steps.map Accepted.move, ?_, trace_path hc h, ?_, by rw [e]; exact b, by rw [e]; exact c, by rw [e]; exact d⟩
  · rw [trace_vertices h, List.map_map]; rfl
  · intro st hst
    obtain ⟨s, hs, rfl⟩ := List.mem_map.mp hst
    exact a s hs

/-- C19: without failing evaluations there is no warning, so the duration is covered exactly. -/
theorem C19_complete (f : ℝ × ℝ → ℝ × ℝ) (xs ys duration tol maxstep : ℝ) (hd : duration ≠ 0) (htol : 0 < tol)
    (hmax : 0 < maxstep) (r : Trace ℝ) (h : computeBacktrace xs ys duration tol maxstep (steady f) = some r) :
    r.warning = none ∧ ∃ path, r.vertices = (xs, ys) :: path.map Prod.snd ∧ DPPath f tol maxstep (xs, ys) path ∧
      (∀ st ∈ path, 0 < st.1 * duration) ∧ (path.map Prod.fst).sum = duration := by
  have hw := trace_total_nowarn (fun n p => ⟨f p, rfl⟩) h
  obtain ⟨path, h1, h2, h3, -, h5, -⟩ :=
    C19_duration f xs ys duration tol maxstep (steady f) (fun n p v hv => (Except.ok.inj hv).symm) hd htol hmax r h
  exact ⟨hw, path, h1, h2, h3, h5 hw⟩

/-- C19 for arbitrary (stateful, failing) velocity functions, about the recorded step sizes. -/
theorem C19_any_velocity (xs ys duration tol maxstep : ℝ) (feval : ℕ → ℝ × ℝ → Except PyErr (ℝ × ℝ))
    (hd : duration ≠ 0) (htol : 0 < tol) (hmax : 0 < maxstep) (r : Trace ℝ)
    (h : computeBacktrace xs ys duration tol maxstep feval = some r) :
    (∀ st ∈ r.steps, 0 < st.dt * duration) ∧ |(r.steps.map Accepted.dt).sum| ≤ |duration| ∧
    ((∀ n p, ∃ v, feval n p = .ok v) → (r.steps.map Accepted.dt).sum = duration) := by
  obtain ⟨a, b, c, -⟩ := trace_time hd htol hmax h
  exact ⟨a, b, fun ht => c (trace_total_nowarn ht h)⟩

example : Computes brokenRotation rotation ∧ Computes (steady rotation) rotation :=
  ⟨brokenRotation_computes, fun _ _ _ hv => (Except.ok.inj hv).symm⟩

/-- A zero duration returns the starting point only. -/
theorem C19_zero_duration (xs ys tol maxstep : ℝ) (feval : ℕ → ℝ × ℝ → Except PyErr (ℝ × ℝ)) (r : Trace ℝ)
    (h : computeBacktrace xs ys 0 tol maxstep feval = some r) : r.vertices = [(xs, ys)] := by
  rw [trace_vertices h, trace_zero_duration h]; rfl

/-! ## C20 -/

/-- C20: if the velocity grows at most linearly with the distance (in particular if it is bounded: `L = 0`), and `tol` and
`maxstep` exceed `(10/9)^5·EPS` and `(10/9)·EPS`, the call returns. No continuity is needed; the function may be stateful
and may raise. (`‖·‖` is the max norm of the plane.) -/
theorem C20_terminates (xs ys duration tol maxstep M L : ℝ) (feval : ℕ → ℝ × ℝ → Except PyErr (ℝ × ℝ))
    (hM : 0 ≤ M) (hL : 0 ≤ L) (hgrow : ∀ n p v, feval n p = .ok v → ‖v‖ ≤ M + L * ‖p‖)
    (htol : (10/9)^5 * (2:ℝ)^(-52 : ℤ) < tol) (hmax : (10/9) * (2:ℝ)^(-52 : ℤ) < maxstep) :
    ∃ r, computeBacktrace xs ys duration tol maxstep feval = some r := by
  have e : (2:ℝ)^(-52 : ℤ) = EPS := by rw [EPS_real]; norm_num
  rw [e] at htol hmax
  exact terminates hM hL hgrow htol hmax

example : ∃ r, computeBacktrace 3 4 (-365.25) 1 10 (steady rotation) = some r :=
  C20_terminates _ _ _ _ _ 0 1 _ le_rfl zero_le_one rotation_growth (by norm_num) (by norm_num)

/-! ## C21 -/

/-- C21, the part that holds: over the extended numbers, for finite arguments, the call returns if the velocity function
maps finite points to finite velocities growing at most linearly (or raises), and `tol`, `maxstep` are above the machine-epsilon scale. Missing:
everything else, where the claim is false (the next two theorems). -/
theorem C21_terminates_partial (xs ys duration tol maxstep M L : ℝ) (feval : ℕ → XR × XR → Except PyErr (XR × XR))
    (hM : 0 ≤ M) (hL : 0 ≤ L)
    (hgrow : ∀ n (x y : ℝ), (∃ e, feval n (.fin x, .fin y) = .error e) ∨
      ∃ u v : ℝ, feval n (.fin x, .fin y) = .ok (.fin u, .fin v) ∧ max |u| |v| ≤ M + L * max |x| |y|)
    (htol : (10/9)^5 * (2:ℝ)^(-52 : ℤ) < tol) (hmax : (10/9) * (2:ℝ)^(-52 : ℤ) < maxstep) :
    ∃ r, computeBacktrace (.fin xs) (.fin ys) (.fin duration) (.fin tol) (.fin maxstep) feval = some r := by
  have key : ∀ n (p : ℝ × ℝ), ∃ r : Except PyErr (ℝ × ℝ), feval n (emb p) = r.map emb ∧
      ∀ v, r = .ok v → ‖v‖ ≤ M + L * ‖p‖ := by
    intro n p
    rcases hgrow n p.1 p.2 with ⟨e, he⟩ | ⟨u, v, huv, hb⟩
    · exact ⟨.error e, he, fun v hv => by simp at hv⟩
    · refine ⟨.ok (u, v), huv, fun w hw => ?_⟩
      rw [← Except.ok.inj hw]
      simpa [Prod.norm_def] using hb
  choose fe h1 h2 using key
  obtain ⟨r, hr⟩ := C20_terminates xs ys duration tol maxstep M L fe hM hL h2 htol hmax
  refine ⟨r.emb, ?_⟩
  rw [computeBacktrace_embed h1 (le_of_lt (lt_trans (by positivity) htol)), hr]
  rfl

/-- C21 fails: for a particle at rest, the thresholds of C20 are sharp. With `0 < tol < (10/9)^5·EPS` (or `0 < maxstep < (10/9)·EPS`) the call
never returns once the duration is long enough, even though the velocity is zero everywhere. -/
theorem C21_fails_below_machine_epsilon (tol maxstep : ℝ) (htol : 0 < tol) (hmax : 0 < maxstep)
    (hsmall : tol < (10/9)^5 * (2:ℝ)^(-52 : ℤ) ∨ maxstep < (10/9) * (2:ℝ)^(-52 : ℤ)) :
    ∃ D0 : ℝ, ∀ duration xs ys, D0 ≤ |duration| →
      computeBacktrace xs ys duration tol maxstep (steady (fun _ => 0)) = none := by
  have e : (2:ℝ)^(-52 : ℤ) = EPS := by rw [EPS_real]; norm_num
  rw [e] at hsmall
  exact diverges_small htol hmax hsmall

example : (0 : ℝ) < 10 ^ (-16 : ℤ) ∧ (10 : ℝ) ^ (-16 : ℤ) < (10/9)^5 * (2:ℝ)^(-52 : ℤ) := by norm_num

/-- C21 fails: if the velocity at the starting point has a NaN component, and the velocity function does not raise at NaN
locations, the call never returns, whatever the tolerances. -/
theorem C21_fails_for_nan_velocity (xs ys duration tol maxstep : XR) (feval : ℕ → XR × XR → Except PyErr (XR × XR))
    (k1 : XR × XR) (hfirst : feval 0 (xs, ys) = .ok k1) (hnan : k1.1 = .nan ∨ k1.2 = .nan)
    (hquiet : ∀ n p, (p.1 = .nan ∨ p.2 = .nan) → ∃ v, feval n p = .ok v)
    (hd : (.fin 0 : XR) < PyMath.abs duration) :
    computeBacktrace xs ys duration tol maxstep feval = none :=
  diverges_nan hquiet hfirst hnan hd

/-- the function 0/0 in both components -/
example : ((.fin 0 : XR) / .fin 0 = .nan) ∧ (.fin 0 : XR) < PyMath.abs (.fin 3650) := by
  constructor
  · show XR.div (.fin 0) (.fin 0) = .nan
    simp [XR.div, XR.infOf]
  · show (0:ℝ) < |3650|
    norm_num

/-! ## C22 -/

/-- C22: tracing for `-duration` along `-f` is tracing for `duration` along `f`: the one call returns iff the other does, and with the same
vertices. -/
theorem C22_reverse (xs ys duration tol maxstep : ℝ) (feval : ℕ → ℝ × ℝ → Except PyErr (ℝ × ℝ)) :
    (computeBacktrace xs ys (-duration) tol maxstep feval).map Trace.vertices =
      (computeBacktrace xs ys duration tol maxstep (fun n p => (feval n p).map (fun v => -v))).map Trace.vertices := by
  have h := computeBacktrace_neg xs ys duration tol maxstep (FEval.neg feval)
  rw [FEval.neg_neg] at h
  rw [h, Option.map_map]
  rfl

/-! ## C23 -/

/-- C23: uniform flow is traced exactly: the call returns, and the vertices are `start + θ·duration·v` for an increasing list
of `θ` from 0 to 1. -/
theorem C23_uniform_flow (v : ℝ × ℝ) (xs ys duration tol maxstep : ℝ) (hd : duration ≠ 0)
    (htol : (10/9)^5 * (2:ℝ)^(-52 : ℤ) < tol) (hmax : (10/9) * (2:ℝ)^(-52 : ℤ) < maxstep) :
    ∃ (r : Trace ℝ) (θs : List ℝ), computeBacktrace xs ys duration tol maxstep (steady (fun _ => v)) = some r ∧
      r.vertices = θs.map (fun θ => ((xs, ys) : ℝ × ℝ) + (θ * duration) • v) ∧
      θs.head? = some 0 ∧ θs.getLast? = some 1 ∧ θs.Pairwise (· < ·) := by
  obtain ⟨r, hr⟩ := C20_terminates xs ys duration tol maxstep ‖v‖ 0 (steady (fun _ => v)) (norm_nonneg _) le_rfl
    (fun n p w hw => by rw [← Except.ok.inj hw]; simp) htol hmax
  obtain ⟨-, path, h1, h2, h3, h4⟩ := C19_complete (fun _ => v) xs ys duration tol maxstep hd
    (lt_trans (by positivity) htol) (lt_trans (by positivity) hmax) r hr
  set l := path.map Prod.fst with hl
  have hl' : ∀ h ∈ l, 0 < h * duration := by
    intro h hh
    obtain ⟨st, hst, rfl⟩ := List.mem_map.mp hh
    exact h3 st hst
  refine ⟨r, (List.scanl (· + ·) 0 l).map (fun t => t / duration), hr, ?_, ?_, ?_, ?_⟩
  · rw [h1, uniform_path (q0 := (xs, ys)) path (xs, ys) 0 h2 (by simp), List.map_map]
    refine List.map_congr_left fun t _ => ?_
    simp only [Function.comp]
    rw [div_mul_cancel₀ t hd]
  · cases l <;> simp
  · rw [List.getLast?_map, scanl_last, h4]
    simp [hd]
  · rw [List.pairwise_map]
    refine (scanl_pairwise l 0 duration hl').imp ?_
    intro a b hab
    rcases lt_or_gt_of_ne hd with h | h
    · rw [div_lt_div_right_of_neg h]; nlinarith
    · rw [div_lt_div_iff_of_pos_right h]; nlinarith

example : (10/9)^5 * (2:ℝ)^(-52 : ℤ) < 1 ∧ (10/9) * (2:ℝ)^(-52 : ℤ) < (10 : ℝ) := by norm_num

/-! ## C24 -/

/-- C24: the weights satisfy all order conditions through order 5, the comparison weights all through order 4; neither
satisfies one order more, so the error estimate is not identically zero to leading order. -/
theorem C24_order :
    (∀ τ : RTree, τ.order ≤ 5 → OrderCondition dpA dp5 τ) ∧ (∀ τ : RTree, τ.order ≤ 4 → OrderCondition dpA dp4 τ) ∧
    (∃ τ : RTree, τ.order = 6 ∧ ¬ OrderCondition dpA dp5 τ) ∧ (∃ τ : RTree, τ.order = 5 ∧ ¬ OrderCondition dpA dp4 τ) :=
  ⟨dp5_order, dp4_order, dp5_not_order6, dp4_not_order5⟩

/-- C24: for a steady velocity the call returns the start and the accepted steps of adaptive integration with that pair (beginning with a step of a tenth of a day), and returns nothing else;
it returns if and only if that integration comes to an end. -/
theorem C24_code_is_method (f : ℝ × ℝ → ℝ × ℝ) (xs ys duration tol maxstep : ℝ) (vs : List (ℝ × ℝ)) :
    (∃ r, computeBacktrace xs ys duration tol maxstep (steady f) = some r ∧ r.vertices = vs) ↔
    ∃ path, Adaptive f tol maxstep duration 0 (1/10 * Real.sign duration) (xs, ys) path ∧ vs = (xs, ys) :: path.map Prod.snd := by
  have e : computeBacktrace xs ys duration tol maxstep (steady f) =
      tloop ⟨duration, tol, maxstep, steady f⟩ ⟨0, 1/10 * Real.sign duration, (xs, ys), f (xs, ys), 1, [(xs, ys)], []⟩ := by
    rw [computeBacktrace_ok _ _ _ _ _ _ (f (xs, ys)) rfl]
    simp
  rw [e]
  constructor
  · rintro ⟨r, h, rfl⟩
    obtain ⟨k, hk⟩ := (tloop_eq_some _ _ _).mp h
    exact tfuel_adaptive f tol maxstep duration k _ rfl r hk
  · rintro ⟨path, h, rfl⟩
    exact adaptive_tloop f tol maxstep duration _ _ _ path h 1 [(xs, ys)] []

/-- rotation, for a tenth of a day: one step -/
example : ∃ path, Adaptive rotation 1 10 (1/10) 0 (1/10 * Real.sign (1/10)) (1, 0) path := by
  obtain ⟨r, h⟩ : ∃ r, computeBacktrace 1 0 (1/10) 1 10 (steady rotation) = some r :=
    terminates le_rfl zero_le_one rotation_growth tol_ok.1 tol_ok.2
  obtain ⟨path, h, -⟩ := (C24_code_is_method rotation 1 0 (1/10) 1 10 r.vertices).mp ⟨r, h, rfl⟩
  exact ⟨path, h⟩

/-- C24: on a linear field (any real vector space) a step is the exponential series through degree 5, plus a term of
degree 6. -/
theorem C24_linear {V : Type} [AddCommGroup V] [Module ℝ V] (A : V →ₗ[ℝ] V) (h : ℝ) (y : V) :
    rkStep A dpA dp5 h y = (∑ k ∈ Finset.range 6, (h ^ k / (k.factorial : ℝ)) • (A ^ k) y) + (h ^ 6 / 600) • (A ^ 6) y := by
  rw [dp5_linear]
  simp only [Finset.sum_range_succ, Finset.sum_range_zero, pow_succ, pow_zero, Module.End.mul_apply, Module.End.one_apply,
    Nat.factorial]
  push_cast
  module

example : (RTree.node [.node [.node []], .node []]).order = 4 := by decide +kernel

/-! ## C25 -/

/-- C25: if some calls raise that did not before, the new trace is a prefix of the old one; and if a given call
always raises (the user interrupts), the trace ends, whether or not the uninterrupted one would have. -/
theorem C25_prefix {F : Type} [Add F] [Sub F] [Mul F] [Div F] [LT F] [DecidableLT F] [PyMath F]
    (xs ys duration tol maxstep : F) (feval feval' : ℕ → F × F → Except PyErr (F × F))
    (hraise : ∀ n p, feval' n p = feval n p ∨ ∃ e, feval' n p = .error e) :
    (∀ r r', computeBacktrace xs ys duration tol maxstep feval = some r →
      computeBacktrace xs ys duration tol maxstep feval' = some r' → r'.vertices <+: r.vertices) ∧
    (∀ N, (∀ p, ∃ e, feval' N p = .error e) → ∃ r', computeBacktrace xs ys duration tol maxstep feval' = some r') :=
  ⟨fun _ _ h h' => interrupted_prefix hraise h h', fun _ hN => interrupted_terminates hN _ _ _ _ _⟩

example : ∀ n p, brokenRotation n p = steady rotation n p ∨ ∃ e, brokenRotation n p = .error e := by
  intro n p
  unfold brokenRotation
  split_ifs
  · exact Or.inr ⟨_, rfl⟩
  · exact Or.inl rfl

/-! ## C26 -/

/-- C26: with a finite starting point every returned vertex is finite, whatever values (finite, inf or NaN) the velocity function
returns and whatever the other parameters are. -/
theorem C26_finite (xs ys : ℝ) (duration tol maxstep : XR) (feval : ℕ → XR × XR → Except PyErr (XR × XR)) (r : Trace XR)
    (h : computeBacktrace (.fin xs) (.fin ys) duration tol maxstep feval = some r) :
    ∀ v ∈ r.vertices, ∃ x y : ℝ, v = (.fin x, .fin y) := by
  intro v hv
  obtain ⟨h1, h2⟩ := vertices_finite (xs := .fin xs) (ys := .fin ys) trivial trivial h v hv
  obtain ⟨a, b⟩ := v
  cases a <;> cases b <;> first | exact h1.elim | exact h2.elim | exact ⟨_, _, rfl⟩

/-- On finite data the extended interpretation is the real one, so C17–C25 speak about the same traces as C26. -/
theorem C26_agrees_with_reals (xs ys duration tol maxstep : ℝ) (htol : 0 ≤ tol)
    (feval : ℕ → ℝ × ℝ → Except PyErr (ℝ × ℝ)) (feval' : ℕ → XR × XR → Except PyErr (XR × XR))
    (hext : ∀ n x y, feval' n (.fin x, .fin y) = (feval n (x, y)).map (fun v => (.fin v.1, .fin v.2))) :
    (computeBacktrace (.fin xs) (.fin ys) (.fin duration) (.fin tol) (.fin maxstep) feval').map Trace.vertices =
      (computeBacktrace xs ys duration tol maxstep feval).map
        (fun r => r.vertices.map (fun v => (.fin v.1, .fin v.2))) := by
  rw [computeBacktrace_embed (fe := feval) (fun n p => hext n p.1 p.2) htol, Option.map_map]
  rfl

/-- a trace that meets a NaN on its way and returns (the second evaluation raises) -/
example : ∃ r, computeBacktrace (F := XR) (.fin 0) (.fin 0) (.fin 1) (.fin 1) (.fin 1)
    (fun n _ => if n = 0 then .ok (.nan, .pinf) else .error .aquiferError) = some r :=
  interrupted_terminates (N := 1) (fun _ => ⟨_, rfl⟩) _ _ _ _ _

/-! ## C79 -/

/-- C79: a trial that is not accepted is repeated with a step of the same direction that is at least a tenth shorter; after an accepted step the next trial is at most nine times as long. -/
theorem C79_control (f : ℝ × ℝ → ℝ × ℝ) (tol maxstep h : ℝ) (p : ℝ × ℝ) (htol : 0 < tol) (hmax : 0 < maxstep) :
    (∃ c, 0 < c ∧ c ≤ 9 ∧ proposal f tol maxstep h p = c * h) ∧
    (¬ (localError f h p < tol ∧ euclid p (rkStep f dpA dp5 h p) < maxstep) → ∃ c, 0 < c ∧ c ≤ 9/10 ∧ proposal f tol maxstep h p = c * h) :=
  proposal_control f tol maxstep h p htol hmax

/-- C79: with a steady velocity, a returning trace uses up the duration in steps of its direction; each gives the next vertex by the Dormand–Prince formula, passes both tests, and is at most
nine times as long as the one before; the first is at most a tenth of a day. -/
theorem C79_steps (f : ℝ × ℝ → ℝ × ℝ) (xs ys duration tol maxstep : ℝ) (hD : duration ≠ 0) (htol : 0 < tol) (hmax : 0 < maxstep) (r : Trace ℝ)
    (h : computeBacktrace xs ys duration tol maxstep (steady f) = some r) :
    ∃ hs : List ℝ, hs.length + 1 = r.vertices.length ∧ hs.sum = duration ∧ (∀ h ∈ hs, 0 < h * duration) ∧ (∀ h, hs.head? = some h → |h| ≤ 1/10) ∧
      hs.IsChain (fun a b => |b| ≤ 9 * |a|) ∧
      ∀ (k : ℕ) (p q : ℝ × ℝ) (h : ℝ), r.vertices[k]? = some p → r.vertices[k+1]? = some q → hs[k]? = some h →
        q = rkStep f dpA dp5 h p ∧ localError f h p < tol ∧ euclid p q < maxstep := by
  obtain ⟨path, ha, hv⟩ := (C24_code_is_method f xs ys duration tol maxstep r.vertices).mp ⟨r, h, rfl⟩
  have hs : Real.sign duration = |duration|⁻¹ * duration := by
    rcases lt_or_gt_of_ne hD with h | h
    · rw [Real.sign_of_neg h, abs_of_neg h]; field_simp
    · rw [Real.sign_of_pos h, abs_of_pos h]; field_simp
  have hpos : 0 < |duration| := abs_pos.mpr hD
  obtain ⟨s1, s2, s3, s4, s5⟩ := adaptive_steps hD htol hmax ha 0 (1/10 * |duration|⁻¹) (by simp)
    (by rw [hs]; ring) le_rfl zero_le_one (by positivity)
  refine ⟨path.map Prod.fst, by rw [hv]; simp, by simpa using s2, s1, ?_, s4, ?_⟩
  · intro h hh
    have := s3 h hh
    rwa [hs, abs_mul, abs_mul, abs_inv, abs_abs, inv_mul_cancel₀ hpos.ne', mul_one, abs_of_pos (by norm_num : (0:ℝ) < 1/10)] at this
  · rw [hv]
    exact s5

/-- rotation for ten years -/
example : ∃ r, computeBacktrace 1 0 3650 1 10 (steady rotation) = some r := terminates le_rfl zero_le_one rotation_growth tol_ok.1 tol_ok.2

/-- C24: so on a linear field every vertex follows from the one before by the exponential series through degree 5, plus a term of degree 6. -/
theorem C24_linear_trace (A : ℝ × ℝ →ₗ[ℝ] ℝ × ℝ) (xs ys duration tol maxstep : ℝ) (hD : duration ≠ 0) (htol : 0 < tol) (hmax : 0 < maxstep) (r : Trace ℝ)
    (h : computeBacktrace xs ys duration tol maxstep (steady A) = some r) (k : ℕ) (p q : ℝ × ℝ) (hp : r.vertices[k]? = some p) (hq : r.vertices[k+1]? = some q) :
    ∃ h : ℝ, q = (∑ k ∈ Finset.range 6, (h ^ k / (k.factorial : ℝ)) • (A ^ k) p) + (h ^ 6 / 600) • (A ^ 6) p := by
  obtain ⟨hs, h1, -, -, -, -, h2⟩ := C79_steps A xs ys duration tol maxstep hD htol hmax r h
  have hk : k < hs.length := by
    have := (List.getElem?_eq_some_iff.mp hq).1
    omega
  exact ⟨hs[k], by rw [(h2 k p q _ hp hq (List.getElem?_eq_getElem hk)).1, C24_linear]⟩

/-- C79: a complete trace has a number `n` of segments such that 9ⁿ ≥ 1 + 80 |duration|, whatever the velocity and however lenient the tolerances. -/
theorem C79_vertices (xs ys duration tol maxstep : ℝ) (feval : ℕ → ℝ × ℝ → Except PyErr (ℝ × ℝ)) (r : Trace ℝ) (htol : 0 < tol) (hmax : 0 < maxstep)
    (h : computeBacktrace xs ys duration tol maxstep feval = some r) (hw : r.warning = none) :
    80 * |duration| + 1 ≤ 9 ^ (r.vertices.length - 1) := by
  have hl : r.vertices.length - 1 = r.steps.length := by rw [trace_vertices h]; simp
  rw [hl]
  rcases lt_trichotomy duration 0 with hd | hd | hd
  · have h' : computeBacktrace xs ys (-duration) tol maxstep (FEval.neg feval) = some r.neg := by
      rw [computeBacktrace_neg, h]; rfl
    have := growth_pos (by linarith : 0 < -duration) htol hmax h' (by simp [Trace.neg, hw])
    rw [abs_of_neg hd]
    simpa [Trace.neg] using this
  · subst hd
    simp only [abs_zero, mul_zero, zero_add]
    exact one_le_pow₀ (by norm_num)
  · rw [abs_of_pos hd]
    exact growth_pos hd htol hmax h hw

/-- rotation for ten years: at least seven vertices -/
example : ∃ r, computeBacktrace 1 0 3650 1 10 (steady rotation) = some r ∧ 7 ≤ r.vertices.length := by
  obtain ⟨r, h⟩ : ∃ r, computeBacktrace 1 0 3650 1 10 (steady rotation) = some r := terminates le_rfl zero_le_one rotation_growth tol_ok.1 tol_ok.2
  refine ⟨r, h, ?_⟩
  have := C79_vertices 1 0 3650 1 10 _ r one_pos (by norm_num) h (C19_complete rotation 1 0 3650 1 10 (by norm_num) one_pos (by norm_num) r h).1
  by_contra hlt
  have h5 : (9 : ℝ) ^ (r.vertices.length - 1) ≤ 9 ^ 5 := pow_le_pow_right₀ (by norm_num) (by omega)
  rw [abs_of_pos (by norm_num)] at this
  linarith

end Oneka
