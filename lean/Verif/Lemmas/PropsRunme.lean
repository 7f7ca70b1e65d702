import Verif.Lemmas.Runme
import Verif.Lemmas.DataSets
import Verif.Props.Causes
import Verif.Props.Report
import Verif.Props.Examples

/-!
# Lemmas for Props/Runme.lean
-/

namespace Oneka

/-- a call of `main` that reached `oneka` changes the archives like `oneka` -/
theorem main_archives {name : String} {env : MainEnv} {m : String → Option PyVal} {a : PyArgs} (hm : env.modules name = .found m)
    (ha : moduleArgs m env.asctime = .ok a) (hl : env.logError = none) (w : World) :
    (w.afterMain name env).archives = (oneka a env.call).events.foldl Effect.apply w.archives := by
  have hp := (moduleArgs_ok ha).2.1
  have key : ∀ (es : List Effect) (p : PyVal), ((startActs p env ++ es.map Act.effect).foldl Act.apply w).archives = es.foldl Effect.apply w.archives := by
    intro es p
    have hs : ((startActs p env).foldl Act.apply w).archives = w.archives := by simp only [startActs, List.foldl_cons, List.foldl_nil, Act.apply]
    rw [List.foldl_append, (effects_world es _).1, hs]
  unfold World.afterMain World.after
  simp only [List.foldl_cons, List.foldl_nil, Step.apply]
  rcases main_course name env with ⟨h, -⟩ | ⟨e, h, -⟩ | ⟨m', h', ⟨h, -⟩ | ⟨p, -, ⟨e, h, -⟩ | ⟨-, ⟨e, h, -⟩ | ⟨a', h0, ⟨v, -, h⟩ | ⟨e, -, h⟩ | ⟨-, h⟩⟩⟩⟩⟩
  · rw [hm] at h; simp at h
  · rw [hm] at h; simp at h
  all_goals obtain rfl : m = m' := by rw [hm] at h'; exact Import.found.inj h'
  · rw [h] at hp; simp at hp
  · rw [hl] at h; simp at h
  · rw [ha] at h; simp at h
  all_goals obtain rfl : a = a' := by rw [ha] at h0; exact Except.ok.inj h0
  · rw [h]
    have hsd : ∀ w : World, ((shutdown env).foldl Act.apply w).archives = w.archives := fun w => by
      simp only [shutdown, List.foldl_cons, List.foldl_nil, Act.apply]
    rw [List.foldl_append, hsd]
    exact key _ p
  · rw [h]; exact key _ p
  · rw [h]; exact key _ p

/-- a run that returns has written its archive -/
theorem main_returns {name : String} {env : MainEnv} {m : String → Option PyVal} (h : (runMain name env).ending = .returns ()) (hm : env.modules name = .found m) :
    env.logError = none ∧ ∃ a v, moduleArgs m env.asctime = .ok a ∧ (oneka a env.call).ending = .returns v := by
  rcases main_course name env with ⟨h1, -⟩ | ⟨e, h1, -⟩ | ⟨m', h', ⟨-, h1⟩ | ⟨p, -, ⟨e, -, h1⟩ | ⟨hl, ⟨e, -, h1⟩ | ⟨a, ha, ⟨v, hv, -⟩ | ⟨e, -, h1⟩ | ⟨-, h1⟩⟩⟩⟩⟩
  · rw [hm] at h1; simp at h1
  · rw [hm] at h1; simp at h1
  · rw [h1] at h; simp at h
  · rw [h1] at h; simp at h
  · rw [h1] at h; simp at h
  · obtain rfl : m = m' := by rw [hm] at h'; exact Import.found.inj h'
    exact ⟨hl, a, v, ha, hv⟩
  · rw [h1] at h; simp at h
  · rw [h1] at h; simp at h

/-- a logged value is an entry of the log -/
theorem logged_mem {es : List Effect} {label : String} {v : PyVal} (h : (label, v) ∈ logged es) : LogLine.value label v ∈ es.filterMap Effect.entry? := by
  unfold logged at h
  rw [List.mem_filterMap] at h ⊢
  obtain ⟨e, he, h⟩ := h
  refine ⟨e, he, ?_⟩
  split at h <;> simp_all [Effect.entry?]

theorem entries_eq {name : String} {env : MainEnv} {m : String → Option PyVal} {a : PyArgs} (hm : env.modules name = .found m)
    (ha : moduleArgs m env.asctime = .ok a) (hl : env.logError = none) :
    (runMain name env).Opens env.logTime.logName ∧ (oneka a env.call).events.filterMap Effect.entry? <+: (runMain name env).entries := by
  have hent : ∀ es : List Effect, (es.map Act.effect).filterMap Act.entry? = es.filterMap Effect.entry? := by
    intro es
    rw [List.filterMap_map]
    rfl
  have hp := (moduleArgs_ok ha).2.1
  have hs : ∀ p, (startActs p env).filterMap Act.entry? = [] := fun p => rfl
  rcases main_course name env with ⟨h, -⟩ | ⟨e, h, -⟩ | ⟨m', h', ⟨h, -⟩ | ⟨p, -, ⟨e, h, -⟩ | ⟨-, ⟨e, h, -⟩ | ⟨a', h0, ⟨v, -, h⟩ | ⟨e, -, h⟩ | ⟨-, h⟩⟩⟩⟩⟩
  · rw [hm] at h; simp at h
  · rw [hm] at h; simp at h
  all_goals obtain rfl : m = m' := by rw [hm] at h'; exact Import.found.inj h'
  · rw [h] at hp; simp at hp
  · rw [hl] at h; simp at h
  · rw [ha] at h; simp at h
  all_goals
    obtain rfl : a = a' := by rw [ha] at h0; exact Except.ok.inj h0
    rw [h]
    refine ⟨by simp [MainRun.Opens, startActs], ?_⟩
    unfold MainRun.entries
    simp only [List.filterMap_append, hent, hs, List.nil_append]
    first | exact List.prefix_append _ _ | exact List.prefix_rfl

theorem opened_log {name : String} {env : MainEnv} (w : World) (ho : (runMain name env).Opens env.logTime.logName) {l : LogLine} (hl : l ∈ (runMain name env).entries) :
    l ∈ (w.afterMain name env).log env.logTime.logName := by
  rcases main_world name env w with ⟨-, h2, -⟩ | ⟨-, -, h3⟩
  · exact absurd ho (h2 _)
  · rw [h3]
    refine List.mem_append_right _ (List.mem_flatMap.mpr ⟨l, hl, ?_⟩)
    rw [List.mem_replicate]
    refine ⟨?_, rfl⟩
    rw [List.count_append, List.count_singleton]
    simp

/-- the acts that open the log file -/
theorem start_world (w : World) (p : PyVal) (env : MainEnv) : ((startActs p env).foldl Act.apply w).archives = w.archives ∧
    ∀ f, ((startActs p env).foldl Act.apply w).log f = w.log f := by
  constructor
  · simp only [startActs, List.foldl_cons, List.foldl_nil, Act.apply]
  · intro f
    simp only [startActs, List.foldl_cons, List.foldl_nil, Act.apply, World.log]
    split <;> simp

theorem separate_appended {runs : List (String × MainEnv)} {f : String} (h : ∀ r ∈ runs, ¬ (runMain r.1 r.2).Opens f) (c : ℕ) : appended f c (separately runs) = [] := by
  induction runs generalizing c with
  | nil => simp [separately, appended]
  | cons r runs ih =>
    have hc : separately (r :: runs) = .restart :: .main r.1 r.2 :: separately runs := rfl
    rw [hc]
    simp only [appended, if_neg (h r List.mem_cons_self), flatMap_zero, List.nil_append]
    exact ih (fun r' hr' => h r' (List.mem_cons_of_mem _ hr')) _

theorem logName_injective {s t : DateTime} (hs : s.Valid) (ht : t.Valid) (h : s.logName = t.logName) : s = t := by
  have h1 : s.stamp = t.stamp := by
    unfold DateTime.logName at h
    have := String.ofList_injective h
    simpa using this
  exact archiveName_inj hs ht (by unfold DateTime.archiveName; rw [h1])

theorem opens_iff {name : String} {env : MainEnv} {f : String} (h : (runMain name env).Opens f) : f = env.logTime.logName := by
  rcases main_world name env ⟨fun _ => none, fun _ => none, []⟩ with ⟨-, h2, -⟩ | ⟨-, h2, -⟩
  · exact absurd h (h2 _)
  · exact (h2 f).mp h

theorem data_supplies (d : DataSet) (t : String) : Supplies d.attrs t (d.args t) := by constructor <;> rfl

theorem data_args (d : DataSet) (t : String) : moduleArgs d.attrs t = .ok (d.args t) := rfl

section

variable {p : String × DataSet} {env : MainEnv} (hp : p ∈ shipped) (hm : env.modules p.1 = .found p.2.attrs) (hl : env.logError = none)

include hp hm hl

/-- C78: a run of a shipped data module ends like the call of `oneka`; it is accepted. -/
theorem shipped_ending : Acceptable (p.2.args env.asctime) ∧
    (∀ e, (runMain p.1 env).ending = .raises e → (oneka (p.2.args env.asctime) env.call).ending = .raises e) ∧
    ((runMain p.1 env).ending = .diverges → (oneka (p.2.args env.asctime) env.call).ending = .diverges) ∧
    ∀ v, (oneka (p.2.args env.asctime) env.call).ending = .returns v → (runMain p.1 env).ending = .returns () := by
  obtain ⟨c, hc⟩ := shipped_good p hp
  refine ⟨p.2.acceptable hc _, ?_⟩
  have hpn : p.2.attrs "PROJECTNAME" = some (.str p.2.projectname) := rfl
  rcases main_course p.1 env with ⟨h, -⟩ | ⟨e, h, -⟩ | ⟨m', h', ⟨h, -⟩ | ⟨_, -, ⟨e, h, -⟩ | ⟨-, ⟨e, h, -⟩ | ⟨a', h0, ⟨v, hv, h⟩ | ⟨e, hv, h⟩ | ⟨hv, h⟩⟩⟩⟩⟩
  · rw [hm] at h; simp at h
  · rw [hm] at h; simp at h
  all_goals obtain rfl : p.2.attrs = m' := by rw [hm] at h'; exact Import.found.inj h'
  · rw [hpn] at h; simp at h
  · rw [hl] at h; simp at h
  · rw [data_args] at h; simp at h
  all_goals
    obtain rfl : p.2.args env.asctime = a' := by rw [data_args] at h0; exact Except.ok.inj h0
    rw [h]
    simp [hv]

end

end Oneka
