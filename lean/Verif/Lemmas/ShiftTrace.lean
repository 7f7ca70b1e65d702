import Verif.Lemmas.ShiftField
import Verif.Lemmas.Diverge

/-!
# Backtraces and capture zones elsewhere
-/

namespace Oneka

variable {s : ℝ × ℝ}

namespace XR

theorem shift_add (x y : XR) (u : ℝ) : x + fin u + y = x + y + fin u := by
  cases x <;> cases y <;> first | rfl | (show fin _ = fin _; congr 1; ring)

theorem shift_sub (x y : XR) (u : ℝ) : (x + fin u) - (y + fin u) = x - y := by
  cases x <;> cases y <;> first | rfl | (show fin _ = fin _; congr 1; ring)

theorem shift_sub_fin (x : XR) (w u : ℝ) : (x + fin u) - fin (w + u) = x - fin w := shift_sub x (fin w) u

theorem shift_back (x : XR) (u : ℝ) : x + fin u + fin (-u) = x := by
  cases x <;> first | rfl | (show fin _ = fin _; congr 1; ring)

end XR

theorem shiftX_add (p q : XR × XR) : shiftX s p + q = shiftX s (p + q) := Prod.ext (XR.shift_add _ _ _) (XR.shift_add _ _ _)

theorem shiftX_sub (p q : XR × XR) : shiftX s p - shiftX s q = p - q := Prod.ext (XR.shift_sub _ _ _) (XR.shift_sub _ _ _)

theorem shiftX_back (p : XR × XR) : shiftX (-s.1, -s.2) (shiftX s p) = p := Prod.ext (XR.shift_back _ _) (XR.shift_back _ _)

/-- the velocity function `g` at the moved point is the velocity function `f` -/
def Moved (s : ℝ × ℝ) (f g : ℕ → XR × XR → Except PyErr (XR × XR)) : Prop := ∀ n p, g n (shiftX s p) = f n p

theorem shiftX_neg (p : XR × XR) : shiftX s (shiftX (-s.1, -s.2) p) = p := by
  have := shiftX_back (s := (-s.1, -s.2)) p
  simpa using this

theorem Moved.back {f g : ℕ → XR × XR → Except PyErr (XR × XR)} (h : Moved s f g) : Moved (-s.1, -s.2) g f := by
  intro n p
  rw [← h, shiftX_neg]

theorem trial_shift {f g : ℕ → XR × XR → Except PyErr (XR × XR)} (h : Moved s f g) (n : ℕ) (xy k1 : XR × XR) (dt : XR) :
    trial g n (shiftX s xy) k1 dt = (trial f n xy k1 dt).map fun r => (shiftX s r.1, r.2) := by
  unfold trial
  simp only [shiftX_add, h _ _, shiftX_sub]
  simp only [bind, Except.bind]
  repeat' first | rfl | split

theorem Trace.shift_back (r : Trace XR) : (r.shift s).shift (-s.1, -s.2) = r := by
  cases r
  simp only [Trace.shift, List.map_map, Function.comp_def, shiftX_back, List.map_id']

theorem traceLoop_shift_some {f g : ℕ → XR × XR → Except PyErr (XR × XR)} (h : Moved s f g) (D tol M : XR) (t dt : XR) (xy k1 : XR × XR) (n : ℕ) (vs : List (XR × XR)) (ss : List (Accepted XR)) (r : Trace XR)
    (hr : traceLoop D tol M f t dt xy k1 n vs ss = some r) :
    traceLoop D tol M g t dt (shiftX s xy) k1 n (vs.map (shiftX s)) (ss.map fun a => { a with vertex := shiftX s a.vertex }) = some (r.shift s) := by
  refine traceLoop.partial_correctness D tol M f
    (fun t dt xy k1 n vs ss r => traceLoop D tol M g t dt (shiftX s xy) k1 n (vs.map (shiftX s)) (ss.map fun a => { a with vertex := shiftX s a.vertex }) = some (r.shift s)) ?_ t dt xy k1 n vs ss r hr
  intro loop ih t dt xy k1 n vs ss r hr
  rw [traceLoop]
  rw [trial_shift h]
  split_ifs at hr ⊢ with c
  · cases e : trial f n xy k1 (clipDt D t dt) with
    | error x =>
      rw [e] at hr
      cases hr
      rfl
    | ok o =>
      obtain ⟨xyt, k2, est, ds⟩ := o
      rw [e] at hr
      simp only [Except.map] at hr ⊢
      split_ifs at hr ⊢ with c2
      · have := ih _ _ _ _ _ _ _ _ hr
        simpa only [List.map_append, List.map_cons, List.map_nil] using this
      · exact ih _ _ _ _ _ _ _ _ hr
  · cases hr
    rfl

theorem backtrace_shift_some {f g : ℕ → XR × XR → Except PyErr (XR × XR)} (h : Moved s f g) (D tol M xs ys : XR) (r : Trace XR) (hr : computeBacktrace xs ys D tol M f = some r) :
    computeBacktrace (xs + .fin s.1) (ys + .fin s.2) D tol M g = some (r.shift s) := by
  unfold computeBacktrace at hr ⊢
  rw [show g 0 (xs + .fin s.1, ys + .fin s.2) = f 0 (xs, ys) from h 0 (xs, ys)]
  cases e : f 0 (xs, ys) with
  | error x =>
    rw [e] at hr
    cases hr
    rfl
  | ok k1 =>
    rw [e] at hr
    exact traceLoop_shift_some h D tol M _ _ (xs, ys) k1 1 [(xs, ys)] [] r hr

theorem backtrace_shift {f g : ℕ → XR × XR → Except PyErr (XR × XR)} (h : Moved s f g) (D tol M xs ys : XR) :
    computeBacktrace (xs + .fin s.1) (ys + .fin s.2) D tol M g = (computeBacktrace xs ys D tol M f).map (Trace.shift s) := by
  cases e : computeBacktrace xs ys D tol M f with
  | some r => exact backtrace_shift_some h D tol M xs ys r e
  | none =>
    cases e' : computeBacktrace (xs + .fin s.1) (ys + .fin s.2) D tol M g with
    | none => rfl
    | some r =>
      have := backtrace_shift_some h.back D tol M _ _ r e'
      simp only [XR.shift_back, e] at this
      cases this

theorem path_shift (r : Trace XR) (hr : ∀ v ∈ r.vertices, v.1.IsFin ∧ v.2.IsFin) : (r.shift s).path = r.path.map fun p => (p.1 + s.1, p.2 + s.2) := by
  unfold Trace.path Trace.shift
  simp only [List.map_map]
  refine List.map_congr_left fun v hv => ?_
  obtain ⟨h1, h2⟩ := hr v hv
  obtain ⟨a, b⟩ := v
  cases a <;> cases b <;> first | rfl | exact h1.elim | exact h2.elim

/-- the result of a capture zone elsewhere -/
noncomputable def CZResult.shift (s : ℝ × ℝ) (r : CZResult) : CZResult := ⟨r.field.shift s, r.outcome, r.traces.map (Trace.shift s)⟩

theorem start_shift (a b u : ℝ) : XR.fin (a + (b + u)) = XR.fin (a + b) + .fin u := by rw [XR.fin_add, add_assoc]

theorem path_fst (r : Trace XR) (hr : ∀ v ∈ r.vertices, v.1.IsFin ∧ v.2.IsFin) : (r.shift s).path.map Prod.fst = (r.path.map Prod.fst).map (· + s.1) := by
  rw [path_shift r hr, List.map_map, List.map_map]
  rfl

theorem path_snd (r : Trace XR) (hr : ∀ v ∈ r.vertices, v.1.IsFin ∧ v.2.IsFin) : (r.shift s).path.map Prod.snd = (r.path.map Prod.snd).map (· + s.2) := by
  rw [path_shift r hr, List.map_map, List.map_map]
  rfl

theorem captureLoop_shift {f g : ℕ → ℕ → XR × XR → Except PyErr (XR × XR)} (h : ∀ i, Moved s (f i) (g i)) (x y r : ℝ) (D : XR) (u : ℝ) (tol M : XR) (l : List ℝ) (i : ℕ) (p : PField ℝ) (acc : List (Trace XR)) :
    captureLoop (x + s.1) (y + s.2) r D u tol M g l i (p.shift s) (acc.map (Trace.shift s)) = (captureLoop x y r D u tol M f l i p acc).map (CZResult.shift s) := by
  induction l generalizing i p acc with
  | nil => rfl
  | cons θ l ih =>
    simp only [captureLoop, start_shift, backtrace_shift (h i)]
    cases e : computeBacktrace (.fin ((r + 1) * Real.cos θ + x)) (.fin ((r + 1) * Real.sin θ + y)) D tol M (f i) with
    | none => rfl
    | some t =>
      have ht := vertices_finite (xs := .fin _) (ys := .fin _) trivial trivial e
      simp only [Option.map_some, path_fst t ht, path_snd t ht, rasterize_shift]
      cases p.rasterize (t.path.map Prod.fst) (t.path.map Prod.snd) u with
      | none => rfl
      | some o =>
        obtain ⟨p', o⟩ := o
        cases o with
        | error e => simp [CZResult.shift]
        | ok _ =>
          have := ih (i + 1) p' (acc ++ [t])
          rw [List.map_append] at this
          exact this

theorem completedTraces_shift {f g : ℕ → ℕ → XR × XR → Except PyErr (XR × XR)} (h : ∀ i, Moved s (f i) (g i)) (x y r : ℝ) (D : XR) (u : ℝ) (tol M : XR) (l : List ℝ) (i : ℕ) (p : PField ℝ) :
    completedTraces (x + s.1) (y + s.2) r D u tol M g l i (p.shift s) = (completedTraces x y r D u tol M f l i p).map (Trace.shift s) := by
  induction l generalizing i p with
  | nil => rfl
  | cons θ l ih =>
    simp only [completedTraces, start_shift, backtrace_shift (h i)]
    cases e : computeBacktrace (.fin ((r + 1) * Real.cos θ + x)) (.fin ((r + 1) * Real.sin θ + y)) D tol M (f i) with
    | none => rfl
    | some t =>
      have ht := vertices_finite (xs := .fin _) (ys := .fin _) trivial trivial e
      simp only [Option.map_some, path_fst t ht, path_snd t ht, rasterize_shift]
      cases p.rasterize (t.path.map Prod.fst) (t.path.map Prod.snd) u with
      | none => rfl
      | some o =>
        obtain ⟨p', o⟩ := o
        cases o with
        | error e => rfl
        | ok _ =>
          show t.shift s :: _ = t.shift s :: _
          rw [ih]

theorem capturezone_shift {f g : ℕ → ℕ → XR × XR → Except PyErr (XR × XR)} (h : ∀ i, Moved s (f i) (g i)) (x y r : ℝ) (n : ℤ) (D : XR) (p : PField ℝ) (u w : ℝ) (tol M : XR) :
    computeCapturezone (x + s.1) (y + s.2) r n D (p.shift s) u w tol M g = (computeCapturezone x y r n D p u w tol M f).map (CZResult.shift s) := by
  unfold computeCapturezone
  cases startAngles n with
  | error e => rfl
  | ok θs =>
    have := captureLoop_shift h x y r D u tol M θs 0 p []
    rw [List.map_nil] at this
    simp only [this]
    cases captureLoop x y r D u tol M f θs 0 p [] with
    | none => rfl
    | some c =>
      obtain ⟨p', o, ts⟩ := c
      cases o with
      | error e => rfl
      | ok _ =>
        simp only [Option.map_some, CZResult.shift, register_shift]
        cases p'.register w <;> rfl

theorem endlessTraces_shift {f g : ℕ → ℕ → XR × XR → Except PyErr (XR × XR)} (h : ∀ i, Moved s (f i) (g i)) (x y r : ℝ) (n : ℤ) (D : XR) (p : PField ℝ) (u : ℝ) (tol M : XR) :
    endlessTraces (x + s.1) (y + s.2) r n D (p.shift s) u tol M g = (endlessTraces x y r n D p u tol M f).map (Trace.shift s) := by
  unfold endlessTraces
  cases startAngles n with
  | error e => rfl
  | ok θs => exact completedTraces_shift h x y r D u tol M θs 0 p

end Oneka
