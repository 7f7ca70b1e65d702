import Verif.Lemmas.ShiftCompute
import Verif.Lemmas.Returned
import Verif.Lemmas.PropsOneka

/-!
# Calls elsewhere
-/

namespace Oneka

variable {s : ℝ × ℝ}

theorem figures_shift (l : List Effect) : figures (l.map (Effect.shift s)) = (figures l).map (Figure.shift s) := by
  unfold figures
  rw [List.filterMap_map, List.map_filterMap]
  congr 1
  funext e
  cases e with
  | log l => cases l <;> rfl
  | _ => rfl

theorem decileLines_shift (l : List Effect) : decileLines (l.map (Effect.shift s)) = decileLines l := by
  unfold decileLines
  rw [List.filterMap_map]
  congr 1
  funext e
  cases e with
  | log l => cases l <;> rfl
  | _ => rfl

theorem areas_shift (l : List Effect) : areas (l.map (Effect.shift s)) = areas l := by
  unfold areas
  rw [List.filterMap_map]
  congr 1
  funext e
  cases e with
  | log l => cases l <;> rfl
  | _ => rfl

theorem acreages_shift (l : List Effect) : acreages (l.map (Effect.shift s)) = acreages l := by
  unfold acreages
  rw [List.filterMap_map]
  congr 1
  funext e
  cases e with
  | log l => cases l <;> rfl
  | _ => rfl

theorem realizations_shift (l : List Effect) : realizations (l.map (Effect.shift s)) = (realizations l).map (RealizationLog.shift s) := by
  unfold realizations
  rw [List.filterMap_map, List.map_filterMap]
  congr 1
  funext e
  cases e with
  | log l => cases l <;> rfl
  | _ => rfl

theorem summaries_shift (l : List Effect) : summaries (l.map (Effect.shift s)) = (summaries l).map (shiftColumns s) := by
  unfold summaries
  rw [List.filterMap_map, List.map_filterMap]
  congr 1
  funext e
  cases e with
  | log l => cases l <;> rfl
  | _ => rfl

theorem filterLines_shift (l : List Effect) : filterLines (l.map (Effect.shift s)) = (filterLines l).map (FilterLine.shift s) := by
  unfold filterLines
  rw [List.filterMap_map, List.map_filterMap]
  congr 1
  funext e
  cases e with
  | log l => cases l <;> rfl
  | _ => rfl

/-- what an accepted call with finite numbers does -/
theorem call_eq {a : PyArgs} {n : Inputs} (ha : Acceptable a) (hd : a.Denotes n) (env : CallEnv) :
    ∃ pre, PlainLog pre ∧ oneka a env = (⟨pre, .returns ()⟩ >>= fun _ => compute n env >>= fun f => dumpOneka a f env >>= fun _ => Prog.emit .shown >>= fun _ => pure .none) := by
  obtain ⟨ws, os, -, -, hl⟩ := log_accepted ha hd.nrealizations
  refine ⟨(fullLog a (decide (1 < n.nrealizations)) ws os).map .log, fullLog_effects, ?_⟩
  rw [oneka_eq, Prog.lift_ok (validate_ok.mpr ha), hl]
  unfold stage
  rw [inputs_of_denotes hd]

/-- the events of a call that concern neither the arguments nor the archive -/
theorem call_parts {a : PyArgs} {n : Inputs} (ha : Acceptable a) (hd : a.Denotes n) (env : CallEnv) :
    ∃ pre post, PlainLog pre ∧ (oneka a env).events = pre ++ (compute n env).events ++ post ∧ (∀ e ∈ post, (∃ x, e = .opened x) ∨ (∃ x d, e = .wrote x d) ∨ e = .shown) ∧
      (oneka a env).ending = match (compute n env).ending with
        | .raises e => .raises e
        | .diverges => .diverges
        | .returns _ =>
          match env.openError with
          | some e => .raises e
          | none =>
            match env.writeError with
            | some e => .raises e
            | none => .returns .none := by
  obtain ⟨pre, hp, h⟩ := call_eq ha hd env
  rw [h]
  cases he : (compute n env).ending with
  | raises e =>
    refine ⟨pre, [], hp, ?_, by simp, ?_⟩ <;> rw [Prog.bind_ret rfl, Prog.bind_raise he] <;> simp
  | diverges =>
    refine ⟨pre, [], hp, ?_, by simp, ?_⟩ <;> rw [Prog.bind_ret rfl, Prog.bind_div he] <;> simp
  | returns f =>
    rw [Prog.bind_ret rfl, Prog.bind_ret he]
    unfold dumpOneka
    cases env.openError with
    | some e =>
      refine ⟨pre, [], hp, ?_, by simp, ?_⟩ <;> simp only [] <;> rw [Prog.bind_raise rfl] <;> simp
    | none =>
      cases env.writeError with
      | some e =>
        refine ⟨pre, [.opened env.now.archiveName], hp, ?_, by simp, ?_⟩ <;> simp only [] <;> rw [Prog.bind_raise rfl]
        simp
      | none =>
        refine ⟨pre, [.opened env.now.archiveName, .wrote env.now.archiveName (archiveDict a f), .shown], hp, ?_, by simp, ?_⟩ <;> simp only [] <;> rw [Prog.bind_ret rfl, Prog.bind_ret rfl]
        · simp [Prog.emit, pure, Prog.bind_def, Prog.andThen]
        · rfl

theorem collect_parts {β : Type} {φ : Effect → Option β} {pre mid post : List Effect} (hpre : pre.filterMap φ = []) (hpost : ∀ e ∈ post, (∃ x, e = .opened x) ∨ (∃ x d, e = .wrote x d) ∨ e = .shown)
    (h1 : ∀ x, φ (.opened x) = none) (h2 : ∀ x d, φ (.wrote x d) = none) (h3 : φ .shown = none) : (pre ++ mid ++ post).filterMap φ = mid.filterMap φ := by
  have : post.filterMap φ = [] := by
    refine List.filterMap_eq_nil_iff.mpr fun e he => ?_
    rcases hpost e he with ⟨x, rfl⟩ | ⟨x, d, rfl⟩ | rfl
    · exact h1 x
    · exact h2 x d
    · exact h3
  rw [List.filterMap_append, List.filterMap_append, hpre, this, List.nil_append, List.append_nil]

/-- the figures and the numbers in the log are those of the computation -/
theorem call_collected {a : PyArgs} {n : Inputs} (ha : Acceptable a) (hd : a.Denotes n) (env : CallEnv) :
    figures (oneka a env).events = figures (compute n env).events ∧ decileLines (oneka a env).events = decileLines (compute n env).events ∧
    areas (oneka a env).events = areas (compute n env).events ∧ acreages (oneka a env).events = acreages (compute n env).events ∧
    realizations (oneka a env).events = realizations (compute n env).events ∧ summaries (oneka a env).events = summaries (compute n env).events ∧
    filterLines (oneka a env).events = filterLines (compute n env).events := by
  obtain ⟨pre, post, hp, he, hpost, -⟩ := call_parts ha hd env
  rw [he]
  exact ⟨collect_parts (figures_plain hp) hpost (fun _ => rfl) (fun _ _ => rfl) rfl, collect_parts (decileLines_plain hp) hpost (fun _ => rfl) (fun _ _ => rfl) rfl,
    collect_parts (areas_plain hp) hpost (fun _ => rfl) (fun _ _ => rfl) rfl, collect_parts (acreages_plain hp) hpost (fun _ => rfl) (fun _ _ => rfl) rfl,
    collect_parts (realizations_plain hp) hpost (fun _ => rfl) (fun _ _ => rfl) rfl, collect_parts (summaries_plain hp) hpost (fun _ => rfl) (fun _ _ => rfl) rfl,
    collect_parts (filterLines_plain hp) hpost (fun _ => rfl) (fun _ _ => rfl) rfl⟩

/-- the archived field is the computed one -/
theorem call_field {a : PyArgs} {n : Inputs} {env : CallEnv} {v : PyVal} (hd : a.Denotes n) (h : (oneka a env).ending = .returns v) (fs : Files) :
    ∃ d f, (compute n env).ending = .returns f ∧ loadOneka ((oneka a env).events.foldl Effect.apply fs) env.now.archiveName = .ok d ∧ d.get "pfield" = some (.field f) := by
  obtain ⟨-, f, -, -, hs, -, -, he⟩ := returned_course h
  have hq := quiet_both a env
  unfold stage at hs
  rw [inputs_of_denotes hd] at hs
  refine ⟨archiveDict a f, f, hs, ?_, rfl⟩
  rw [he]
  simp only
  rw [returned_files hq]
  unfold loadOneka
  simp

end Oneka
