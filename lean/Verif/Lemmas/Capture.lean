import Verif.Model.Capturezone
import Verif.Lemmas.TraceInv
import Verif.Lemmas.Refine
import Verif.Lemmas.Embed

set_option linter.unusedSectionVars false

namespace Oneka
open PField

/-- The calls that one capture-zone computation makes on the field. -/
def captureEvents (ts : List (Trace XR)) (umbra weight : ℝ) : List (Event ℝ) :=
  ts.map (fun t => Event.track t.path umbra) ++ [Event.register weight]

/-- The `i`-th starting point on the circle around the target. -/
noncomputable def startAt (xt yt rt θ : ℝ) : ℝ × ℝ := ((rt + 1) * Real.cos θ + xt, (rt + 1) * Real.sin θ + yt)

/-- The vertices of a trace from a finite point are finite. -/
theorem path_vertices {xs ys : ℝ} {d tol ms : XR} {fe : ℕ → XR × XR → Except PyErr (XR × XR)} {t : Trace XR}
    (h : computeBacktrace (.fin xs) (.fin ys) d tol ms fe = some t) :
    t.vertices = t.path.map (fun p => (.fin p.1, .fin p.2)) := by
  have hv := vertices_finite (xs := .fin xs) (ys := .fin ys) trivial trivial h
  unfold Trace.path
  rw [List.map_map]
  conv_lhs => rw [← List.map_id t.vertices]
  refine List.map_congr_left fun v hmem => ?_
  obtain ⟨h1, h2⟩ := hv v hmem
  obtain ⟨a, b⟩ := v
  cases a <;> cases b <;> first | rfl | exact h1.elim | exact h2.elim

theorem captureLoop_spec {xt yt rt u : ℝ} {d tol ms : XR} {fe : ℕ → ℕ → XR × XR → Except PyErr (XR × XR)} (θs : List ℝ) :
    ∀ (i : ℕ) (f : PField ℝ) (acc : List (Trace XR)) (r : CZResult), f.WF →
      captureLoop xt yt rt d u tol ms fe θs i f acc = some r →
      ∃ ts, r.traces = acc ++ ts ∧ r.outcome = .ok () ∧ ts.length = θs.length ∧ r.field.WF ∧ StepInv f r.field ∧
        (θs ≠ [] ∨ f.body ≠ none → r.field.body ≠ none) ∧
        f.run ((ts.map fun t => Event.track t.path u).map Event.call) = some r.field ∧
        ∀ k θ t, θs[k]? = some θ → ts[k]? = some t →
          computeBacktrace (.fin (startAt xt yt rt θ).1) (.fin (startAt xt yt rt θ).2) d tol ms (fe (i + k)) = some t := by
  induction θs with
  | nil =>
    intro i f acc r hf h
    obtain rfl := Option.some.inj h
    exact ⟨[], by simp, rfl, rfl, hf, .refl hf, fun h => h.resolve_left (by simp), rfl, by simp⟩
  | cons θ θs ih =>
    intro i f acc r hf h
    unfold captureLoop at h
    cases hb : computeBacktrace (.fin ((rt + 1) * Real.cos θ + xt)) (.fin ((rt + 1) * Real.sin θ + yt)) d tol ms (fe i) with
    | none => rw [hb] at h; simp at h
    | some t =>
      rw [hb] at h
      have hv := trace_vertices hb
      have hne : t.path.map Prod.fst ≠ [] := by unfold Trace.path; rw [hv]; simp
      obtain ⟨f1, e1, v, -⟩ := rasterize_view f hf (t.path.map Prod.fst) (t.path.map Prod.snd) u hne (by simp)
      simp only [e1] at h
      obtain ⟨ts, a1, a2, a3, a4, a5, a6, a7, a8⟩ := ih (i+1) f1 (acc ++ [t]) r v.wf h
      refine ⟨t :: ts, by rw [a1]; simp, a2, by simp [a3], a4, .trans ⟨v.wf, v.dx, v.dy, v.nodes, v.lattice⟩ a5,
        fun _ => a6 (Or.inr v.body), ?_, ?_⟩
      · simp only [List.map_cons, Event.call, run, step, e1]
        exact a7
      · intro k θ' t' hk ht
        cases k with
        | zero =>
          obtain rfl : θ = θ' := by simpa using hk
          obtain rfl : t = t' := by simpa using ht
          exact hb
        | succ k =>
          have := a8 k θ' t' (by simpa using hk) (by simpa using ht)
          rwa [show i + 1 + k = i + (k + 1) by ring] at this

theorem captureLoop_terminates {xt yt rt u : ℝ} {d tol ms : XR} {fe : ℕ → ℕ → XR × XR → Except PyErr (XR × XR)} (θs : List ℝ) :
    ∀ (i : ℕ) (f : PField ℝ) (acc : List (Trace XR)), f.WF →
      (∀ k θ, θs[k]? = some θ →
        ∃ t, computeBacktrace (.fin (startAt xt yt rt θ).1) (.fin (startAt xt yt rt θ).2) d tol ms (fe (i + k)) = some t) →
      ∃ r, captureLoop xt yt rt d u tol ms fe θs i f acc = some r := by
  induction θs with
  | nil => intro i f acc _ _; exact ⟨_, rfl⟩
  | cons θ θs ih =>
    intro i f acc hf h
    obtain ⟨t, ht⟩ := h 0 θ rfl
    have hv := trace_vertices ht
    have hne : t.path.map Prod.fst ≠ [] := by unfold Trace.path; rw [hv]; simp
    obtain ⟨f1, e1, v, -⟩ := rasterize_view f hf (t.path.map Prod.fst) (t.path.map Prod.snd) u hne (by simp)
    obtain ⟨r, hr⟩ := ih (i+1) f1 (acc ++ [t]) v.wf (fun k θ' hk => by
      have := h (k+1) θ' (by simpa using hk)
      rwa [show i + (k + 1) = i + 1 + k by ring] at this)
    refine ⟨r, ?_⟩
    unfold captureLoop
    have ht' : computeBacktrace (.fin ((rt + 1) * Real.cos θ + xt)) (.fin ((rt + 1) * Real.sin θ + yt)) d tol ms (fe i) = some t := ht
    rw [ht']
    simp only [e1]
    exact hr

theorem startAngles_get (n : ℕ) {θs : List ℝ} (h : startAngles n = .ok θs) :
    θs.length = n ∧ ∀ k < n, θs[k]? = some ((k : ℝ) * (2 * Real.pi / n)) := by
  unfold startAngles at h
  rw [if_neg (by omega)] at h
  obtain rfl := Except.ok.inj h
  refine ⟨by simp, fun k hk => ?_⟩
  simp [hk]

/-- A capture-zone computation that returns has traced `npaths` paths and then behaves like the corresponding history of
calls on the field. -/
theorem capture_spec {xt yt rt u w : ℝ} {d tol ms : XR} {fe : ℕ → ℕ → XR × XR → Except PyErr (XR × XR)} {n : ℕ} {f : PField ℝ}
    (hf : f.WF) (hb : f.body ≠ none ∨ 0 < n) {r : CZResult}
    (h : computeCapturezone xt yt rt n d f u w tol ms fe = some r) :
    r.outcome = .ok () ∧ r.traces.length = n ∧
      f.run ((captureEvents r.traces u w).map Event.call) = some r.field ∧ r.field.body ≠ none ∧
      ∀ (k : ℕ) (t : Trace XR), r.traces[k]? = some t →
        computeBacktrace (.fin (startAt xt yt rt ((k:ℝ) * (2 * Real.pi / n))).1) (.fin (startAt xt yt rt ((k:ℝ) * (2 * Real.pi / n))).2)
          d tol ms (fe k) = some t := by
  unfold computeCapturezone at h
  cases ha : startAngles n with
  | error e =>
    unfold startAngles at ha
    rw [if_neg (by omega)] at ha
    simp at ha
  | ok θs =>
    obtain ⟨hl, hg⟩ := startAngles_get n ha
    rw [ha] at h
    simp only at h
    cases hc : captureLoop xt yt rt d u tol ms fe θs 0 f [] with
    | none => rw [hc] at h; simp at h
    | some c =>
      obtain ⟨ts, a1, a2, a3, a4, a5, a6, a7, a8⟩ := captureLoop_spec θs 0 f [] c hf hc
      obtain ⟨cf, co, ct⟩ := c
      simp only at a1 a2 a4 a6 a7
      subst a2
      simp only [List.nil_append] at a1
      subst a1
      have hbody : cf.body ≠ none := a6 (by
        rcases hb with hb | hb
        · exact Or.inr hb
        · left; intro e; rw [e] at hl; simp at hl; omega)
      obtain ⟨f', e1, wf', -, -, -, -, -, -, hl'⟩ := register_view cf a4 hbody w
      rw [hc] at h
      simp only [e1] at h
      obtain rfl := Option.some.inj h
      refine ⟨rfl, by simp only; omega, ?_, ?_, ?_⟩
      · unfold captureEvents
        rw [List.map_append, run_append, a7]
        simp [Event.call, run, step, e1, lift]
      · obtain ⟨b, hb⟩ := Option.ne_none_iff_exists'.mp hbody
        obtain ⟨b', hb', -⟩ := hl' b hb
        simp only; rw [hb']; simp
      · intro k t hk
        have hkn : k < n := by
          have := (List.getElem?_eq_some_iff.mp hk).1
          simp only at this; omega
        have := a8 k _ t (hg k hkn) hk
        simpa using this

/-- It returns if all traces do. -/
theorem capture_terminates {xt yt rt u w : ℝ} {d tol ms : XR} {fe : ℕ → ℕ → XR × XR → Except PyErr (XR × XR)} {n : ℤ} {f : PField ℝ}
    (hf : f.WF)
    (h : ∀ k θ, ∃ t, computeBacktrace (.fin (startAt xt yt rt θ).1) (.fin (startAt xt yt rt θ).2) d tol ms (fe k) = some t) :
    ∃ r, computeCapturezone xt yt rt n d f u w tol ms fe = some r := by
  unfold computeCapturezone
  cases ha : startAngles n with
  | error e => exact ⟨_, rfl⟩
  | ok θs =>
    obtain ⟨c, hc⟩ := captureLoop_terminates (xt := xt) (yt := yt) (rt := rt) (d := d) (u := u) (tol := tol) (ms := ms)
      (fe := fe) θs 0 f [] hf (fun k θ _ => h _ θ)
    simp only [hc]
    obtain ⟨cf, co, ct⟩ := c
    cases co with
    | error e => exact ⟨_, rfl⟩
    | ok _ => simp only; cases cf.register w <;> exact ⟨_, rfl⟩

theorem registered_tracks (ts : List (Trace XR)) (u w : ℝ) (p : List (List (ℝ × ℝ) × ℝ)) (es : List (Event ℝ)) :
    registered (captureEvents ts u w ++ es) p = ⟨p ++ ts.map (fun t => (t.path, u)), w⟩ :: registered es [] := by
  unfold captureEvents
  induction ts generalizing p with
  | nil => simp [registered]
  | cons t ts ih =>
    simp only [List.map_cons, List.cons_append, registered]
    rw [ih]
    simp

theorem pending_tracks (ts : List (Trace XR)) (u w : ℝ) (p : List (List (ℝ × ℝ) × ℝ)) (es : List (Event ℝ)) :
    pending (captureEvents ts u w ++ es) p = pending es [] := by
  unfold captureEvents
  induction ts generalizing p with
  | nil => simp [pending]
  | cons t ts ih =>
    simp only [List.map_cons, List.cons_append, pending]
    rw [ih]

end Oneka
