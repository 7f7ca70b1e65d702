import Verif.Lemmas.Repro
import Verif.Props.Reach
import Verif.Props.Oneka

/-!
# C139: what the result of a call depends on
-/

namespace Oneka

/-- **C139** for all accepted calls: two calls that pose the same problem, with the same random numbers, end in the same way (they return, raise the same exception, or run forever), and find the same: the same summary of the
observations, realization by realization the same models, fits and traces, the same areas. Their figures are the same, except for how smooth the probabilities are drawn; and equal, if both smooth them alike.
The name of the project, the stated time, the clock, the buffer, the observations that were not retained, `smooth`, and how the numbers are written (integers or floats, tuples or lists) have no influence. -/
theorem C139_result (a a' : PyArgs) (n n' : Inputs) (env env' : CallEnv) (ha : Acceptable a) (ha' : Acceptable a') (hd : a.Denotes n) (hd' : a'.Denotes n') (hs : n.SameProblem n')
    (he : env.SameChance env') :
    (oneka a' env').ending = (oneka a env).ending ∧ findings (oneka a' env').events = findings (oneka a env).events ∧
    List.Forall₂ Figure.Alike (figures (oneka a env).events) (figures (oneka a' env').events) ∧
    (env'.gaussian = env.gaussian → n'.smooth = n.smooth → figures (oneka a' env').events = figures (oneka a env).events) := by
  obtain ⟨⟨k, t, hk, ht⟩, -⟩ := accepted_inputs ha hd
  obtain ⟨c1, c2, c3, c4⟩ := compute_same (env' := env') hk ht hs he.run
  obtain ⟨e1, e2, e3⟩ := call_of_stage env ha hd
  obtain ⟨e1', e2', e3'⟩ := call_of_stage env' ha' hd'
  rw [e1, e1', e2, e2', e3, e3', c1, he.openError, he.writeError]
  exact ⟨rfl, c2, c3, c4⟩

/-- **C139** for the archives: two returning calls that pose the same problem, with the same random numbers, archive the same field. -/
theorem C139_archived (a a' : PyArgs) (n n' : Inputs) (env env' : CallEnv) (v v' : PyVal) (hd : a.Denotes n) (hd' : a'.Denotes n') (h : (oneka a env).ending = .returns v)
    (h' : (oneka a' env').ending = .returns v') (hs : n.SameProblem n') (he : env'.run = env.run) (fs fs' : Files) :
    ∃ (d d' : Dict) (f : PField ℝ), loadOneka ((oneka a env).events.foldl Effect.apply fs) env.now.archiveName = .ok d ∧ d.get "pfield" = some (.field (.field f)) ∧
      loadOneka ((oneka a' env').events.foldl Effect.apply fs') env'.now.archiveName = .ok d' ∧ d'.get "pfield" = some (.field (.field f)) := by
  obtain ⟨hn, hr, hf⟩ := hs
  rcases returned_cases hd h with ⟨h1, obs, cols, r, f, pl, im, lines, H⟩ | ⟨h1, obs, cols, r, f, pl, H⟩
  · rcases returned_cases hd' h' with ⟨-, obs', cols', r', f', pl', im', lines', H'⟩ | ⟨h2, -⟩
    swap
    · omega
    obtain ⟨d, hd1, hd2⟩ := archived_field h H.archived fs
    obtain ⟨d', hd1', hd2'⟩ := archived_field h' H'.archived fs'
    obtain rfl : obs' = obs := Except.ok.inj (H'.filtered.symm.trans (hf.trans H.filtered))
    have e := H'.run
    rw [hn, run_with hr, he] at e
    obtain rfl : r' = r := Option.some.inj (e.symm.trans H.run)
    obtain rfl : f' = f := Except.ok.inj (H'.outcome.symm.trans H.outcome)
    exact ⟨d, d', f', hd1, hd2, hd1', hd2'⟩
  · rcases returned_cases hd' h' with ⟨h2, -⟩ | ⟨-, obs', cols', r', f', pl', H'⟩
    · omega
    obtain ⟨d, hd1, hd2⟩ := archived_field h H.archived fs
    obtain ⟨d', hd1', hd2'⟩ := archived_field h' H'.archived fs'
    obtain rfl : obs' = obs := Except.ok.inj (H'.filtered.symm.trans (hf.trans H.filtered))
    have e := H'.run
    rw [run_with hr, he] at e
    obtain rfl : r' = r := Option.some.inj (e.symm.trans H.run)
    obtain rfl : f' = f := Except.ok.inj (H'.outcome.symm.trans H.outcome)
    exact ⟨d, d', f', hd1, hd2, hd1', hd2'⟩

end Oneka
