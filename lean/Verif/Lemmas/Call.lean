import Verif.Lemmas.Oneka
import Verif.Props.Runs
import Verif.Props.Utilities
import Verif.Props.Visualize

/-!
# Lemmas about the computations of a call
-/

namespace Oneka

theorem mapOpt_iff {α β : Type} {f : α → Option β} : ∀ {l : List α} {r : List β},
    mapOpt f l = some r ↔ List.Forall₂ (fun x y => f x = some y) l r
  | [], r => by cases r <;> simp [mapOpt]
  | x :: l, r => by
    rw [mapOpt]
    cases hx : f x with
    | none => cases r <;> simp [hx]
    | some y =>
      cases hl : mapOpt f l with
      | none =>
        cases r with
        | nil => simp
        | cons z r =>
          simp only [List.forall₂_cons, reduceCtorEq, false_iff, not_and]
          intro _ h
          rw [mapOpt_iff.mpr h] at hl
          simp at hl
      | some s =>
        cases r with
        | nil => simp
        | cons z r =>
          simp only [Option.some.injEq, List.cons.injEq, List.forall₂_cons, hx]
          rw [← mapOpt_iff, hl]
          simp

theorem real?_iff {v : PyVal} {x : ℝ} : v.real? = some x ↔ v.IsReal x := by
  unfold PyVal.real? PyVal.IsReal
  rcases h : v.num with _ | (_ | _ | _ | _) <;> simp

theorem int?_iff {v : PyVal} {n : ℤ} : v.int? = some n ↔ v.IsInteger n := by
  unfold PyVal.int? PyVal.IsInteger
  cases v with
  | int m => simp
  | bool b => cases b <;> simp [Bool.toInt, eq_comm]
  | _ => simp

theorem dist?_iff {v : PyVal} {d : Dist} : v.dist? = some d ↔ v.Means d := by
  unfold PyVal.dist? PyVal.Means
  cases v with
  | tuple l =>
    cases d with
    | const c => simp [PyVal.IsReal, PyVal.num]
    | tuple r => simp [mapOpt_iff, real?_iff]
  | _ =>
    cases d <;> simp [real?_iff]

theorem swell?_iff {v : PyVal} {w : SWell} : v.swell? = some w ↔ v.MeansWell w := by
  have key : ∀ x y r q : PyVal, (match x.real?, y.real?, r.real?, q.dist? with
      | some x, some y, some r, some q => some (⟨x, y, r, q⟩ : SWell)
      | _, _, _, _ => none) = some w ↔ x.IsReal w.xw ∧ y.IsReal w.yw ∧ r.IsReal w.rw ∧ q.Means w.q := by
    intro x y r q
    rw [← real?_iff, ← real?_iff, ← real?_iff, ← dist?_iff]
    cases x.real? <;> cases y.real? <;> cases r.real? <;> cases q.dist? <;> simp
    cases w; simp
  unfold PyVal.swell? PyVal.MeansWell
  split
  · rename_i x y r q
    refine (key _ _ _ _).trans ?_
    constructor
    · intro h; exact ⟨x, y, r, q, .inl rfl, h⟩
    · rintro ⟨x', y', r', q', h | h, h'⟩ <;> simp at h
      obtain ⟨rfl, rfl, rfl, rfl⟩ := h
      exact h'
  · rename_i x y r q
    refine (key _ _ _ _).trans ?_
    constructor
    · intro h; exact ⟨x, y, r, q, .inr rfl, h⟩
    · rintro ⟨x', y', r', q', h | h, h'⟩ <;> simp at h
      obtain ⟨rfl, rfl, rfl, rfl⟩ := h
      exact h'
  · rename_i h1 h2
    simp only [reduceCtorEq, false_iff]
    rintro ⟨x, y, r, q, h | h, -⟩
    · exact h1 _ _ _ _ h
    · exact h2 _ _ _ _ h

theorem obs?_iff {v : PyVal} {o : Obs} : v.obs? = some o ↔ v.MeansObs o := by
  have key : ∀ x y r q : PyVal, (match x.real?, y.real?, r.real?, q.real? with
      | some x, some y, some r, some q => some (⟨x, y, r, q⟩ : Obs)
      | _, _, _, _ => none) = some o ↔ x.IsReal o.x ∧ y.IsReal o.y ∧ r.IsReal o.z ∧ q.IsReal o.std := by
    intro x y r q
    rw [← real?_iff, ← real?_iff, ← real?_iff, ← real?_iff]
    cases x.real? <;> cases y.real? <;> cases r.real? <;> cases q.real? <;> simp
    cases o; simp
  unfold PyVal.obs? PyVal.MeansObs
  split
  · rename_i x y r q
    refine (key _ _ _ _).trans ?_
    constructor
    · intro h; exact ⟨x, y, r, q, .inl rfl, h⟩
    · rintro ⟨x', y', r', q', h | h, h'⟩ <;> simp at h
      obtain ⟨rfl, rfl, rfl, rfl⟩ := h
      exact h'
  · rename_i x y r q
    refine (key _ _ _ _).trans ?_
    constructor
    · intro h; exact ⟨x, y, r, q, .inr rfl, h⟩
    · rintro ⟨x', y', r', q', h | h, h'⟩ <;> simp at h
      obtain ⟨rfl, rfl, rfl, rfl⟩ := h
      exact h'
  · rename_i h1 h2
    simp only [reduceCtorEq, false_iff]
    rintro ⟨x, y, r, q, h | h, -⟩
    · exact h1 _ _ _ _ h
    · exact h2 _ _ _ _ h

theorem elems?_iff {v : PyVal} {l : List PyVal} : v.elems? = some l ↔ v = .list l := by
  cases v <;> simp [PyVal.elems?]

theorem bool?_iff {v : PyVal} {b : Bool} : v.bool? = some b ↔ v = .bool b := by
  cases v <;> simp [PyVal.bool?]

theorem inputs_of_denotes {a : PyArgs} {n : Inputs} (h : a.Denotes n) : a.inputs = some n := by
  obtain ⟨h1, h2, h3, h4, h5, h6, h7, h8, ⟨wl, h9, h9'⟩, ⟨ol, h10, h10'⟩, h11, h12, h13, h14, h15, h16, h17⟩ := h
  unfold PyArgs.inputs
  have hw : mapOpt PyVal.swell? wl = some n.run.wells := mapOpt_iff.mpr (h9'.imp fun _ _ h => swell?_iff.mpr h)
  have ho : mapOpt PyVal.obs? ol = some n.run.obs := mapOpt_iff.mpr (h10'.imp fun _ _ h => obs?_iff.mpr h)
  rw [int?_iff.mpr h1, int?_iff.mpr h2, h3, int?_iff.mpr h4, real?_iff.mpr h5, dist?_iff.mpr h6, dist?_iff.mpr h7, dist?_iff.mpr h8,
    elems?_iff.mpr h9, elems?_iff.mpr h10, real?_iff.mpr h11, real?_iff.mpr h12, real?_iff.mpr h13, real?_iff.mpr h14, bool?_iff.mpr h15, h16, h17]
  simp only [Option.bind_eq_bind, Option.bind_some, hw, ho]

theorem inputs_denotes {a : PyArgs} {n : Inputs} (h : a.inputs = some n) : a.Denotes n := by
  unfold PyArgs.inputs at h
  obtain ⟨t, h1, h⟩ := Option.bind_eq_some_iff.mp h
  obtain ⟨np, h2, h⟩ := Option.bind_eq_some_iff.mp h
  obtain ⟨d, h3, h⟩ := Option.bind_eq_some_iff.mp h
  obtain ⟨nr, h4, h⟩ := Option.bind_eq_some_iff.mp h
  obtain ⟨b, h5, h⟩ := Option.bind_eq_some_iff.mp h
  obtain ⟨c, h6, h⟩ := Option.bind_eq_some_iff.mp h
  obtain ⟨p, h7, h⟩ := Option.bind_eq_some_iff.mp h
  obtain ⟨th, h8, h⟩ := Option.bind_eq_some_iff.mp h
  obtain ⟨wl, h9, h⟩ := Option.bind_eq_some_iff.mp h
  obtain ⟨w, h9', h⟩ := Option.bind_eq_some_iff.mp h
  obtain ⟨ol, h10, h⟩ := Option.bind_eq_some_iff.mp h
  obtain ⟨o, h10', h⟩ := Option.bind_eq_some_iff.mp h
  obtain ⟨bu, h11, h⟩ := Option.bind_eq_some_iff.mp h
  obtain ⟨sp, h12, h⟩ := Option.bind_eq_some_iff.mp h
  obtain ⟨um, h13, h⟩ := Option.bind_eq_some_iff.mp h
  obtain ⟨sm, h14, h⟩ := Option.bind_eq_some_iff.mp h
  obtain ⟨co, h15, h⟩ := Option.bind_eq_some_iff.mp h
  obtain ⟨tl, h16, h⟩ := Option.bind_eq_some_iff.mp h
  obtain ⟨ma, h17, h⟩ := Option.bind_eq_some_iff.mp h
  obtain rfl := Option.some.inj h
  exact ⟨int?_iff.mp h1, int?_iff.mp h2, h3, int?_iff.mp h4, real?_iff.mp h5, dist?_iff.mp h6, dist?_iff.mp h7, dist?_iff.mp h8,
    ⟨wl, elems?_iff.mp h9, (mapOpt_iff.mp h9').imp fun _ _ h => swell?_iff.mp h⟩,
    ⟨ol, elems?_iff.mp h10, (mapOpt_iff.mp h10').imp fun _ _ h => obs?_iff.mp h⟩, real?_iff.mp h11, real?_iff.mp h12, real?_iff.mp h13,
    real?_iff.mp h14, bool?_iff.mp h15, h16, h17⟩

theorem integer_unique {v : PyVal} {m n : ℤ} (h : v.IsInteger m) (h' : v.IsInteger n) : m = n := by
  rw [← int?_iff] at h h'
  rw [h] at h'
  exact Option.some.inj h'

theorem number_real {v : PyVal} {x : ℝ} {p : XR → Prop} (h : v.NumberWith p) (h' : v.IsReal x) : p (.fin x) := by
  obtain ⟨y, hy, hp⟩ := h
  unfold PyVal.IsReal at h'
  rw [hy] at h'
  obtain rfl := Option.some.inj h'
  exact hp

/-- What acceptance says about the numbers. -/
theorem accepted_inputs {a : PyArgs} {n : Inputs} (ha : Acceptable a) (h : a.Denotes n) :
    (∃ (k : ℕ) (t : SWell), n.run.target = k ∧ n.run.wells[k]? = some t) ∧ 0 < n.run.npaths ∧ 0 < n.run.spacing ∧ 0 < n.run.umbra ∧
      0 < n.smooth ∧ 0 < n.buffer ∧ 7 ≤ n.run.obs.length := by
  obtain ⟨ws, hws, -, k, hk, hk0, hk1⟩ := ha.wells
  obtain ⟨l, hl, hf⟩ := h.wells
  obtain rfl : ws = l := by rw [hws] at hl; simpa using hl
  have hlen := hf.length_eq
  have hkt : k = n.run.target := integer_unique hk h.target
  obtain ⟨os, hos, hos7, -⟩ := ha.observations
  obtain ⟨l', hl', hf'⟩ := h.observations
  obtain rfl : os = l' := by rw [hos] at hl'; simpa using hl'
  refine ⟨⟨k.toNat, n.run.wells[k.toNat]'(by omega), by omega, List.getElem?_eq_getElem _⟩, ?_, ?_, ?_, ?_, ?_, ?_⟩
  · rcases ha.npaths with ⟨m, hm, h0⟩ | hb
    · have := integer_unique (m := m) (.inl hm) h.npaths; omega
    · have := integer_unique (m := 1) (.inr ⟨true, hb, rfl⟩) h.npaths; omega
  · exact number_real ha.spacing h.spacing
  · exact number_real ha.umbra h.umbra
  · exact number_real ha.smooth h.smooth
  · exact number_real ha.buffer h.buffer
  · have := hf'.length_eq; omega

/-! ## Logging -/

/-- The log of accepted arguments with an integer number of realizations. -/
noncomputable def fullLog (a : PyArgs) (stochastic : Bool) (ws os : List PyVal) : List LogLine :=
  banner ++ [.value "project name" a.projectname, .value "run time" a.runtime, .value "target" a.target, .value "npaths" a.npaths,
    .value "duration" a.duration,
    .value (if stochastic then "nrealizations STOCHASTIC" else "nrealizations DETERMINISTIC") a.nrealizations,
    .value "base" a.base, .value "c_dist" a.cDist, .value "p_dist" a.pDist, .value "t_dist" a.tDist, .value "buffer" a.buffer,
    .value "spacing" a.spacing, .value "umbra" a.umbra, .value "smooth" a.smooth, .value "confined" a.confined, .value "tol" a.tol,
    .value "maxstep" a.maxstep, .text "\n", .value "stochastic_wells" (.int ws.length)] ++ ws.map (.value "    ") ++
  [.text "\n", .value "observations" (.int os.length)] ++ os.map (.value "    ") ++ [.text "\n"]

theorem formatF_number {v : PyVal} {p : XR → Prop} (h : v.NumberWith p) : formatF v = .ok () := by
  obtain ⟨x, hx, -⟩ := h
  cases v <;> simp [PyVal.num] at hx <;> rfl

theorem formatD_integer {v : PyVal} {n : ℤ} (h : v.IsInteger n) : formatD v = .ok () := by
  rcases h with rfl | ⟨b, rfl, -⟩ <;> rfl

theorem integer_num {v : PyVal} {n : ℤ} (h : v.IsInteger n) : v.num = some (.fin n) := by
  rcases h with rfl | ⟨b, rfl, rfl⟩
  · rfl
  · cases b <;> simp [PyVal.num, Bool.toInt]

theorem log_accepted {a : PyArgs} (ha : Acceptable a) {n : ℤ} (hn : a.nrealizations.IsInteger n) :
    ∃ ws os, a.wells = .list ws ∧ a.observations = .list os ∧
      logTheRun a = ⟨(fullLog a (decide (1 < n)) ws os).map .log, .returns ()⟩ := by
  obtain ⟨ws, hws, -, k, hk, -⟩ := ha.wells
  obtain ⟨os, hos, -⟩ := ha.observations
  refine ⟨ws, os, hws, hos, ?_⟩
  have hnp : formatD a.npaths = .ok () := by
    rcases ha.npaths with ⟨m, hm, -⟩ | hb
    · exact formatD_integer (n := m) (.inl hm)
    · exact formatD_integer (n := 1) (.inr ⟨true, hb, rfl⟩)
  have hlt : PyVal.lt (.int 1) a.nrealizations = .ok (decide (1 < n)) := by
    unfold PyVal.lt
    rw [integer_num hn]
    simp only [PyVal.num]
    congr 1
    rw [decide_eq_decide, XR.fin_lt]
    norm_cast
  have ht : formatD a.target = .ok () := formatD_integer (n := k) hk
  unfold logTheRun logD logF logV
  rw [hlt, ht, hnp, formatD_integer hn, formatF_number ha.duration, formatF_number ha.base, formatF_number ha.buffer, formatF_number ha.spacing,
    formatF_number ha.umbra, formatF_number ha.tol, formatF_number ha.maxstep, hws, hos]
  simp only [Prog.bind_def, Prog.andThen, Prog.infos, Prog.info, Prog.emit, Prog.lift, logSeq]
  simp [fullLog, banner]

end Oneka
