import Verif.Lemmas.Run
import Verif.Lemmas.Reach
import Verif.Spec.RunReach

set_option linter.unusedSectionVars false

namespace Oneka
open PField Aquifer

section
variable {K : Type} [Field K] [LinearOrder K] [IsStrictOrderedRing K] [FloorRing K]

/-- the tracks `ts` drawn one after the other -/
def drawnFrom (u : K) : List (K × K) → List (List (K × K)) → List (Drawn K)
  | _, [] => []
  | s, vs :: ts => ⟨vs, u, s ++ vs⟩ :: drawnFrom u (s ++ vs) ts

theorem drawnGroups_tracks (u w : K) (ts : List (List (K × K))) (s : List (K × K)) (p : List (Drawn K)) (es : List (Event K)) :
    drawnGroups ((ts.map fun vs => Event.track vs u) ++ [Event.register w] ++ es) s p =
      (p ++ drawnFrom u s ts, w) :: drawnGroups es (s ++ ts.flatten) [] := by
  induction ts generalizing s p with
  | nil => simp [drawnGroups, drawnFrom]
  | cons vs ts ih =>
    simp only [List.map_cons, List.cons_append, drawnGroups]
    rw [ih]
    simp [drawnFrom]

theorem records_drawnFrom (xo yo dx dy u X Y : K) (ts : List (List (K × K))) (s : List (K × K)) :
    Records xo yo dx dy (drawnFrom u s ts) X Y ↔ RecordsInOrder xo yo dx dy s u ts X Y := by
  induction ts generalizing s with
  | nil => simp [Records, RecordsInOrder, drawnFrom]
  | cons vs ts ih =>
    have h0 : Records xo yo dx dy (drawnFrom u s (vs :: ts)) X Y ↔
        (NearTrack vs u X Y ∧ Reached xo yo dx dy (s ++ vs) X Y) ∨ Records xo yo dx dy (drawnFrom u (s ++ vs) ts) X Y := by
      unfold Records
      simp [drawnFrom]
    rw [h0, ih]
    clear h0
    constructor
    · rintro (⟨h1, h2⟩ | ⟨before, t, after, rfl, h1, h2⟩)
      · exact ⟨[], vs, ts, rfl, h1, by simpa using h2⟩
      · exact ⟨vs :: before, t, after, rfl, h1, by simpa using h2⟩
    · rintro ⟨before, t, after, e, h1, h2⟩
      cases before with
      | nil =>
        simp only [List.nil_append, List.cons.injEq] at e
        obtain ⟨rfl, rfl⟩ := e
        exact Or.inl ⟨h1, by simpa using h2⟩
      | cons v before =>
        simp only [List.cons_append, List.cons.injEq] at e
        obtain ⟨rfl, rfl⟩ := e
        exact Or.inr ⟨before, t, after, rfl, h1, by simpa using h2⟩

end

/-- the calls a run makes on its field -/
def runEvents (u : ℝ) (log : List RealizationLog) : List (Event ℝ) := log.flatMap fun L => captureEvents L.traces u 1

theorem captureEvents_paths (L : RealizationLog) (u : ℝ) :
    captureEvents L.traces u 1 = (L.paths.map fun vs => Event.track vs u) ++ [Event.register 1] := by
  unfold captureEvents RealizationLog.paths
  simp [Function.comp_def]

theorem realize_run {a : RunArgs} {la : LinAlg} {t : SWell} {q : Dist → ℕ → Except PyErr ℝ}
    {coefs : (Fin 6 → ℝ) → Matrix (Fin 6) (Fin 6) ℝ → Except PyErr (Fin 6 → ℝ)} {recharge : (Fin 6 → ℝ) → ℝ}
    {interrupt : ℕ → ℕ → Option PyErr} {f f' : PField ℝ} {l : List RealizationLog} (hf : f.WF) (hb : f.body ≠ none)
    (h : realize a la t q coefs recharge interrupt f = some (.ok f', l)) :
    ∃ L, l = [L] ∧ f.run ((captureEvents L.traces a.umbra 1).map Event.call) = some f' ∧ (∀ vs ∈ L.paths, vs ≠ []) ∧
      f'.WF ∧ f'.body ≠ none := by
  unfold realize at h
  split at h <;> [simp at h; skip]
  rename_i mo hmo
  split at h
  · simp at h
  rename_i mo' ev cov hfit
  split at h <;> [simp at h; skip]
  rename_i c hc
  simp only at h
  split at h <;> [simp at h; skip]
  rename_i r hr
  simp only [Option.some.injEq, Prod.mk.injEq] at h
  obtain ⟨ho, rfl⟩ := h
  have hout : r.outcome = .ok () := by
    cases hro : r.outcome with
    | ok _ => rfl
    | error e => rw [hro] at ho; simp [Except.map] at ho
  rw [hout] at ho
  obtain rfl := Except.ok.inj ho
  obtain ⟨hn, hr'⟩ := capture_toNat hr hout
  obtain ⟨-, hlen, hrun, hb', htr⟩ := capture_spec hf (Or.inl hb) hr'
  obtain ⟨hw, hinv⟩ := capture_weight hf hb hr'
  refine ⟨_, rfl, hrun, ?_, hinv.wf, hb'⟩
  intro vs hvs
  obtain ⟨t, ht, rfl⟩ := List.mem_map.mp hvs
  obtain ⟨k, hk, rfl⟩ := List.mem_iff_getElem.mp ht
  unfold Trace.path
  rw [trace_vertices (htr k _ (List.getElem?_eq_getElem hk))]
  simp

theorem loop_run {a : RunArgs} {env : Env} {t : SWell} : ∀ (k i : ℕ) (f : PField ℝ) (acc : List RealizationLog) (r : RunResult)
    (f' : PField ℝ), f.WF → f.body ≠ none → stochasticLoop a env t k i f acc = some r → r.outcome = .ok f' →
    ∃ ls, r.log = acc ++ ls ∧ f.run ((runEvents a.umbra ls).map Event.call) = some f' ∧ ∀ L ∈ ls, ∀ vs ∈ L.paths, vs ≠ [] := by
  intro k
  induction k with
  | zero =>
    intro i f acc r f' hf hb h ho
    obtain rfl := Option.some.inj h
    obtain rfl := Except.ok.inj ho
    exact ⟨[], by simp, rfl, by simp⟩
  | succ k ih =>
    intro i f acc r f' hf hb h ho
    unfold stochasticLoop at h
    split at h
    · simp at h
    · obtain rfl := Option.some.inj h
      simp at ho
    · rename_i f1 l hreal
      obtain ⟨L, rfl, r1, v1, wf1, b1⟩ := realize_run hf hb hreal
      obtain ⟨ls, e1, e2, e3⟩ := ih (i+1) f1 _ r f' wf1 b1 h ho
      refine ⟨L :: ls, by rw [e1]; simp, ?_, ?_⟩
      · unfold runEvents
        rw [List.flatMap_cons, List.map_append, run_append, r1]
        exact e2
      · intro L' hL'
        rcases List.mem_cons.mp hL' with rfl | hL'
        · exact v1
        · exact e3 L' hL'

theorem runEvents_valid {u : ℝ} (hu : 0 ≤ u) {ls : List RealizationLog} (h : ∀ L ∈ ls, ∀ vs ∈ L.paths, vs ≠ []) :
    ∀ e ∈ runEvents u ls, e.Valid := by
  intro e he
  obtain ⟨L, hL, he⟩ := List.mem_flatMap.mp he
  rw [captureEvents_paths] at he
  rcases List.mem_append.mp he with he | he
  · obtain ⟨vs, hvs, rfl⟩ := List.mem_map.mp he
    exact ⟨h L hL vs hvs, hu⟩
  · obtain rfl := List.mem_singleton.mp he
    trivial

theorem runEvents_points (u : ℝ) (ls : List RealizationLog) : (runEvents u ls).flatMap Event.points = allVertices ls := by
  unfold runEvents allVertices
  rw [List.flatMap_assoc]
  congr 1
  funext L
  rw [captureEvents_paths, List.flatMap_append]
  simp only [List.flatMap_map, Event.points, List.flatMap_cons, List.flatMap_nil, List.append_nil]
  induction L.paths with
  | nil => rfl
  | cons v vs ih => simp

theorem runEvents_pending (u : ℝ) (ls : List RealizationLog) : ∀ s, drawnPending (runEvents u ls) s [] = [] := by
  have tracks : ∀ (ts : List (List (ℝ × ℝ))) (s : List (ℝ × ℝ)) (p : List (Drawn ℝ)) (es : List (Event ℝ)),
      drawnPending ((ts.map fun vs => Event.track vs u) ++ [Event.register 1] ++ es) s p = drawnPending es (s ++ ts.flatten) [] := by
    intro ts
    induction ts with
    | nil => intro s p es; simp [drawnPending]
    | cons v ts ih =>
      intro s p es
      simp only [List.map_cons, List.cons_append, drawnPending]
      rw [ih]
      simp
  induction ls with
  | nil => intro s; rfl
  | cons L ls ih =>
    intro s
    unfold runEvents
    rw [List.flatMap_cons, captureEvents_paths, tracks]
    exact ih _

open Classical in
theorem runEvents_weight (xo yo d u X Y : ℝ) (ls : List RealizationLog) : ∀ s,
    recordedWeight xo yo d d (drawnGroups (runEvents u ls) s []) X Y =
      ((List.range ls.length).countP fun i => ∃ L, ls[i]? = some L ∧
        RecordsInOrder xo yo d d (s ++ allVertices (ls.take i)) u L.paths X Y) := by
  induction ls with
  | nil => intro s; simp [runEvents, drawnGroups, recordedWeight]
  | cons L ls ih =>
    intro s
    unfold runEvents
    rw [List.flatMap_cons, captureEvents_paths, drawnGroups_tracks]
    have := ih (s ++ L.paths.flatten)
    unfold runEvents at this
    unfold recordedWeight at this ⊢
    rw [List.map_cons, List.sum_cons, this, List.length_cons, List.range_succ_eq_map, List.countP_cons, List.countP_map]
    simp only [List.nil_append, records_drawnFrom]
    have e1 : (∃ L', (L :: ls)[0]? = some L' ∧ RecordsInOrder xo yo d d (s ++ allVertices ((L :: ls).take 0)) u L'.paths X Y) ↔
        RecordsInOrder xo yo d d s u L.paths X Y := by
      simp [allVertices]
    have e2 : ∀ i, (∃ L', (L :: ls)[i + 1]? = some L' ∧
          RecordsInOrder xo yo d d (s ++ allVertices ((L :: ls).take (i + 1))) u L'.paths X Y) ↔
        ∃ L', ls[i]? = some L' ∧ RecordsInOrder xo yo d d (s ++ L.paths.flatten ++ allVertices (ls.take i)) u L'.paths X Y := by
      intro i
      simp [allVertices]
    simp only [Function.comp_def, Nat.succ_eq_add_one, e1, e2, decide_eq_true_eq]
    by_cases hr : RecordsInOrder xo yo d d s u L.paths X Y
    · simp only [if_pos hr]; push_cast; ring
    · simp only [if_neg hr]; push_cast; ring

end Oneka
