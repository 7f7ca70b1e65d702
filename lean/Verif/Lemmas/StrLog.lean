import Verif.Lemmas.StrDigits
import Verif.Lemmas.Call
import Verif.Lemmas.PropsReport
import Verif.Props.Report

/-!
# The messages about the arguments
-/

namespace Oneka

/-- the single message of an entry about the arguments -/
noncomputable def oneText (pr : Printer) : LogLine → List Char
  | .text s => s.toList
  | .value label v => valueText pr label v
  | _ => []

theorem logText_plain (pr : Printer) (st : Bool) (L : List LogLine) (hL : ∀ l ∈ L, (∃ s, l = .text s) ∨ ∃ s v, l = .value s v) (es : List Effect) :
    logText pr st 0 (L.map .log ++ es) = L.map (oneText pr) ++ logText pr st 0 es := by
  induction L with
  | nil => rfl
  | cons l L ih =>
    have := ih fun l hl => hL l (by simp [hl])
    rcases hL l (by simp) with ⟨s, rfl⟩ | ⟨s, v, rfl⟩
    · simp only [List.map_cons, List.cons_append, logText, LogLine.messages, LogLine.realized, this]; rfl
    · simp only [List.map_cons, List.cons_append, logText, LogLine.messages, LogLine.realized, this]; rfl

/-- the scalar arguments and the number of wells -/
noncomputable def scalarTexts (pr : Printer) (a : PyArgs) (st : Bool) (ws : List PyVal) : List (List Char) :=
  [valueText pr "project name" a.projectname, valueText pr "run time" a.runtime, valueText pr "target" a.target, valueText pr "npaths" a.npaths, valueText pr "duration" a.duration,
    valueText pr (if st then "nrealizations STOCHASTIC" else "nrealizations DETERMINISTIC") a.nrealizations, valueText pr "base" a.base, valueText pr "c_dist" a.cDist,
    valueText pr "p_dist" a.pDist, valueText pr "t_dist" a.tDist, valueText pr "buffer" a.buffer, valueText pr "spacing" a.spacing, valueText pr "umbra" a.umbra,
    valueText pr "smooth" a.smooth, valueText pr "confined" a.confined, valueText pr "tol" a.tol, valueText pr "maxstep" a.maxstep, "\n".toList,
    valueText pr "stochastic_wells" (.int ws.length)]

theorem callText_arguments {a : PyArgs} (ha : Acceptable a) {k : ℤ} (hk : a.nrealizations.IsInteger k) (pr : Printer) (n : Inputs) (env : CallEnv) {ws os : List PyVal} (hw : a.wells = .list ws)
    (ho : a.observations = .list os) :
    ∃ rest, callText pr a n env = banner.map (oneText pr) ++ (scalarTexts pr a (decide (1 < k)) ws ++ (ws.map (valueText pr "    ") ++
      (["\n".toList, valueText pr "observations" (.int os.length)] ++ (os.map (valueText pr "    ") ++ rest)))) := by
  obtain ⟨ws', os', hw', ho', hl⟩ := log_accepted ha hk
  rw [hw] at hw'
  rw [ho] at ho'
  cases hw'
  cases ho'
  have key : ∃ es, (oneka a env).events = (logTheRun a).events ++ es := by
    rcases course a env with ⟨e, h1, -⟩ | ⟨e, -, h1, h⟩ | ⟨e, -, h1, -, h⟩ | ⟨-, h1, -, h⟩ | ⟨f, e, -, h1, -, -, h⟩ | ⟨f, e, -, h1, -, -, -, h⟩ | ⟨f, -, h1, -, -, -, h⟩
    · exact absurd ha h1
    · rw [hl] at h1; simp at h1
    all_goals
      rw [h]
      simp only [List.append_assoc]
      exact ⟨_, rfl⟩
  obtain ⟨es, he⟩ := key
  refine ⟨"\n".toList :: logText pr (decide (1 < n.nrealizations)) 0 es, ?_⟩
  unfold callText
  rw [he, hl, logText_plain]
  · simp [fullLog, scalarTexts, oneText]
    rfl
  · intro l hl
    simp only [fullLog, banner, List.mem_append, List.mem_cons, List.mem_map, List.not_mem_nil, or_false] at hl
    aesop

theorem number_numeric {v : PyVal} {q : XR → Prop} (h : v.NumberWith q) : v.Numeric := by
  obtain ⟨x, hx, -⟩ := h
  cases v with
  | bool b => exact .bool b
  | int n => exact .int n
  | float x => exact .float x
  | _ => simp [PyVal.num] at hx

theorem num_numeric {v : PyVal} {x : XR} (h : v.num = some x) : v.Numeric := number_numeric (q := fun _ => True) ⟨x, h, trivial⟩

theorem dist_numeric {v : PyVal} {lb ub : XR} (h : v.DistIn lb ub) : v.Numeric := by
  rcases h with h | ⟨a, b, x, y, hv, ha, hb, -⟩ | ⟨a, m, b, x, c, y, hv, ha, hm, hb, -⟩
  · exact number_numeric h
  · have : ∀ v ∈ [a, b], v.Numeric := by
      intro v hv
      simp only [List.mem_cons, List.not_mem_nil, or_false] at hv
      rcases hv with rfl | rfl
      · exact num_numeric ha
      · exact num_numeric hb
    rcases hv with rfl | rfl
    · exact .tuple _ this
    · exact .list _ this
  · have : ∀ v ∈ [a, m, b], v.Numeric := by
      intro v hv
      simp only [List.mem_cons, List.not_mem_nil, or_false] at hv
      rcases hv with rfl | rfl | rfl
      · exact num_numeric ha
      · exact num_numeric hm
      · exact num_numeric hb
    rcases hv with rfl | rfl
    · exact .tuple _ this
    · exact .list _ this

theorem four_numeric {v x y z s : PyVal} (hv : v = .tuple [x, y, z, s] ∨ v = .list [x, y, z, s]) (hx : x.Numeric) (hy : y.Numeric) (hz : z.Numeric) (hs : s.Numeric) : v.Numeric := by
  have : ∀ v ∈ [x, y, z, s], v.Numeric := by
    intro v hv
    simp only [List.mem_cons, List.not_mem_nil, or_false] at hv
    rcases hv with rfl | rfl | rfl | rfl <;> assumption
  rcases hv with rfl | rfl
  · exact .tuple _ this
  · exact .list _ this

theorem well_numeric {v : PyVal} (h : v.IsWell) : v.Numeric := by
  obtain ⟨x, y, r, q, hv, hx, hy, hr, hq⟩ := h
  exact four_numeric hv (number_numeric hx) (number_numeric hy) (number_numeric hr) (dist_numeric hq)

theorem obs_numeric {v : PyVal} (h : v.IsObs) : v.Numeric := by
  obtain ⟨x, y, z, s, hv, hx, hy, hz, hs⟩ := h
  exact four_numeric hv (number_numeric hx) (number_numeric hy) (number_numeric hz) (number_numeric hs)

theorem str_numeric (p : PyText) {v : PyVal} (h : v.Numeric) : p.str v = p.repr v := by cases h <;> rfl

theorem str_injective {p : PyText} (hp : p.Faithful) {v w : PyVal} (hv : v.Numeric) (mv : v.Machine) (hw : w.Numeric) (mw : w.Machine) (h : p.str v = p.str w) : v = w := by
  rw [str_numeric p hv, str_numeric p hw] at h
  exact repr_injective hp hv mv hw mw h

theorem intVal_integer {v : PyVal} {k : ℤ} (hv : v.IsInteger k) : intVal v = intDigits k := by
  rcases hv with rfl | ⟨b, rfl, rfl⟩
  · rfl
  · cases b <;> rfl

theorem same_integer {v w : PyVal} (hv : ∃ k, v.IsInteger k) (hw : ∃ k, w.IsInteger k) (h : intVal v = intVal w) : v.SameInteger w := by
  obtain ⟨k, hk⟩ := hv
  obtain ⟨k', hk'⟩ := hw
  rw [intVal_integer hk, intVal_integer hk'] at h
  have := intDigits_inj h
  subst this
  exact ⟨k, hk, hk'⟩

theorem fixed_chars (k : ℕ) (x : ℝ) : ∀ c ∈ fixed k x, c.isDigit = true ∨ c = '.' ∨ c = '-' := by
  intro c hc
  unfold fixed at hc
  rw [List.mem_append] at hc
  rcases hc with hc | hc
  · unfold signChars at hc
    split_ifs at hc with h1
    · simp at hc; simp [hc]
    · rename_i h; cases h
    · simp at hc
  · rcases fixedDigits_chars _ _ c hc with h | h <;> simp [h]

theorem fixed_no_n (x : ℝ) : 'n' ∉ fixed 2 x := by
  intro h
  rcases fixed_chars 2 x _ h with h | h | h <;> revert h <;> decide

theorem near_of_text {v w : PyVal} {q q' : XR → Prop} (hv : v.NumberWith q) (hw : w.NumberWith q') (h : fixedVal v = fixedVal w) : v.Near (1 / 100) w := by
  obtain ⟨x, hx, -⟩ := hv
  obtain ⟨y, hy, -⟩ := hw
  unfold fixedVal at h
  rw [hx, hy] at h
  cases x with
  | fin x =>
    cases y with
    | fin y =>
      left
      refine ⟨x, y, hx, hy, ?_⟩
      simp only at h
      obtain ⟨r, h1, h2⟩ := shows_two x
      obtain ⟨r', h3, h4⟩ := shows_two y
      rw [h, h3] at h1
      have e : r' = r := Option.some.inj h1
      rw [e] at h4
      have t := abs_sub_le x r y
      rw [abs_sub_comm x r] at t
      linarith
    | pinf => exact absurd (show 'n' ∈ fixed 2 x by simp only at h; rw [h]; decide) (fixed_no_n x)
    | ninf => exact absurd (show 'n' ∈ fixed 2 x by simp only at h; rw [h]; decide) (fixed_no_n x)
    | nan => exact absurd (show 'n' ∈ fixed 2 x by simp only at h; rw [h]; decide) (fixed_no_n x)
  | pinf =>
    cases y with
    | fin y => exact absurd (show 'n' ∈ fixed 2 y by simp only at h; rw [← h]; decide) (fixed_no_n y)
    | pinf => exact .inr ⟨_, hx, hy⟩
    | ninf => simp at h
    | nan => simp at h
  | ninf =>
    cases y with
    | fin y => exact absurd (show 'n' ∈ fixed 2 y by simp only at h; rw [← h]; decide) (fixed_no_n y)
    | pinf => simp at h
    | ninf => exact .inr ⟨_, hx, hy⟩
    | nan => simp at h
  | nan =>
    cases y with
    | fin y => exact absurd (show 'n' ∈ fixed 2 y by simp only at h; rw [← h]; decide) (fixed_no_n y)
    | pinf => simp at h
    | ninf => simp at h
    | nan => exact .inr ⟨_, hx, hy⟩

theorem before_blank {w w' s s' : List Char} (hw : ' ' ∉ w) (hw' : ' ' ∉ w') (h : w ++ ' ' :: s = w' ++ ' ' :: s') : w = w' := by
  induction w generalizing w' with
  | nil =>
    cases w' with
    | nil => rfl
    | cons c t => simp at h; simp [← h.1] at hw'
  | cons c t ih =>
    cases w' with
    | nil => simp at h; simp [h.1] at hw
    | cons c' t' =>
      simp only [List.cons_append, List.cons.injEq] at h
      rw [h.1, ih (fun hh => hw (by simp [hh])) (fun hh => hw' (by simp [hh])) h.2]

theorem intDigits_no_blank (n : ℤ) : ' ' ∉ intDigits n := by
  intro h
  rcases intDigits_chars n _ h with h | h <;> revert h <;> decide

theorem map_injOn {α β : Type} {f : α → β} : ∀ {l l' : List α}, (∀ v ∈ l, ∀ w ∈ l', f v = f w → v = w) → l.map f = l'.map f → l = l'
  | [], [], _, _ => rfl
  | [], _ :: _, _, h => by simp at h
  | _ :: _, [], _, h => by simp at h
  | v :: l, w :: l', hf, h => by
    simp only [List.map_cons, List.cons.injEq] at h
    rw [hf v (by simp) w (by simp) h.1, map_injOn (fun v hv w hw => hf v (by simp [hv]) w (by simp [hw])) h.2]

end Oneka
