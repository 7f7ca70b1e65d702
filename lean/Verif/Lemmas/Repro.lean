import Verif.Spec.Repro
import Verif.Lemmas.Returned

/-!
# What the result of a call depends on
-/

namespace Oneka

/-- how a call ends after its computations ended with `s` -/
def callEnding (s : Ending FieldVal) (o w : Option PyErr) : Ending PyVal :=
  match s with
  | .raises e => .raises e
  | .diverges => .diverges
  | .returns _ =>
    match o with
    | some e => .raises e
    | none =>
      match w with
      | some e => .raises e
      | none => .returns .none

theorem findings_append (l l' : List Effect) : findings (l ++ l') = findings l ++ findings l' := List.filterMap_append

theorem findings_plain {es : List Effect} (h : PlainLog es) : findings es = [] := by
  refine List.filterMap_eq_nil_iff.mpr fun e he => ?_
  rcases h e he with ⟨t, rfl⟩ | ⟨t, v, rfl⟩ <;> rfl

theorem findings_filterEvents (n : Inputs) : findings (filterEvents n) = [] := by
  unfold findings filterEvents
  rw [List.filterMap_map, List.filterMap_map]
  exact List.filterMap_eq_nil_iff.mpr fun _ _ => rfl

theorem call_of_stage {a : PyArgs} {n : Inputs} (env : CallEnv) (ha : Acceptable a) (hd : a.Denotes n) :
    (oneka a env).ending = callEnding (compute n env).ending env.openError env.writeError ∧ findings (oneka a env).events = findings (compute n env).events ∧
      figures (oneka a env).events = figures (compute n env).events := by
  have hst : stage a env = compute n env := by unfold stage; rw [inputs_of_denotes hd]
  obtain ⟨ws, os, -, -, hlog⟩ := log_accepted ha hd.nrealizations
  have hp := fullLog_effects (a := a) (s := decide (1 < n.nrealizations)) (ws := ws) (os := os)
  rw [← hst]
  rcases course a env with ⟨e, h1, h2, h3⟩ | ⟨e, h1, h2, h3⟩ | ⟨e, h1, h2, h3, h4⟩ | ⟨h1, h2, h3, h4⟩ | ⟨f, e, h1, h2, h3, h4, h5⟩ |
    ⟨f, e, h1, h2, h3, h4, h5, h6⟩ | ⟨f, h1, h2, h3, h4, h5, h6⟩
  · exact absurd ha h1
  · rw [hlog] at h2; simp at h2
  · refine ⟨by rw [h4, h3]; rfl, ?_, ?_⟩
    · rw [h4, hlog]; simp only [findings_append, findings_plain hp, List.nil_append]
    · rw [h4, hlog]; simp only [figures_append, figures_plain hp, List.nil_append]
  · refine ⟨by rw [h4, h3]; rfl, ?_, ?_⟩
    · rw [h4, hlog]; simp only [findings_append, findings_plain hp, List.nil_append]
    · rw [h4, hlog]; simp only [figures_append, figures_plain hp, List.nil_append]
  · refine ⟨by rw [h5, h3, h4]; rfl, ?_, ?_⟩
    · rw [h5, hlog]; simp only [findings_append, findings_plain hp, List.nil_append]
    · rw [h5, hlog]; simp only [figures_append, figures_plain hp, List.nil_append]
  · refine ⟨by rw [h6, h3, h4, h5]; rfl, ?_, ?_⟩
    · rw [h6, hlog]; simp only [findings_append, findings_plain hp, List.nil_append]; simp [findings]
    · rw [h6, hlog]; simp only [figures_append, figures_plain hp, List.nil_append]; simp [figures]
  · refine ⟨by rw [h6, h3, h4, h5]; rfl, ?_, ?_⟩
    · rw [h6, hlog]; simp only [findings_append, findings_plain hp, List.nil_append]; simp [findings]
    · rw [h6, hlog]; simp only [figures_append, figures_plain hp, List.nil_append]; simp [figures]

theorem run_with {r r' : RunArgs} (h : { r' with obs := [] } = { r with obs := [] }) (obs : List Obs) : { r' with obs := obs } = { r with obs := obs } := by
  cases r
  cases r'
  simp only [RunArgs.mk.injEq] at h ⊢
  tauto

theorem plot_alike {g g' : Grid ℝ → ℝ → Grid ℝ} {t : ℤ} {ws : List SWell} {obs : List Obs} {f : PField ℝ} {s s' : ℝ} {pl : ProbabilityPlot}
    (h : createProbabilityPlot g t ws obs f s = .ok pl) :
    ∃ pl', createProbabilityPlot g' t ws obs f s' = .ok pl' ∧ pl'.x = pl.x ∧ pl'.y = pl.y ∧ pl'.marks = pl.marks ∧ (g' = g → s' = s → pl' = pl) := by
  unfold createProbabilityPlot at h ⊢
  cases hb : f.body with
  | none => rw [hb] at h; simp at h
  | some b =>
    rw [hb] at h
    simp only at h ⊢
    by_cases h0 : b.totalWeight ≤ 0
    · rw [if_pos h0] at h; simp at h
    rw [if_neg h0] at h ⊢
    cases hm : markers t ws obs with
    | error e => rw [hm] at h; simp at h
    | ok m =>
      rw [hm] at h
      simp only [Except.ok.injEq] at h
      subst h
      refine ⟨_, rfl, rfl, rfl, rfl, fun h1 h2 => ?_⟩
      rw [h1, h2]

theorem compute_same {n n' : Inputs} {env env' : CallEnv} {k : ℕ} {t : SWell} (hk : n.run.target = k) (ht : n.run.wells[k]? = some t) (hs : n.SameProblem n')
    (he : env'.run = env.run) :
    (compute n' env').ending = (compute n env).ending ∧ findings (compute n' env').events = findings (compute n env).events ∧
      List.Forall₂ Figure.Alike (figures (compute n env).events) (figures (compute n' env').events) ∧
      (env'.gaussian = env.gaussian → n'.smooth = n.smooth → figures (compute n' env').events = figures (compute n env).events) := by
  obtain ⟨hn, hr, hf⟩ := hs
  have hf' : filterObs n'.run.obs n'.wellfield n'.buffer = filterObs n.run.obs n.wellfield n.buffer := hf
  cases ho : filterObs n.run.obs n.wellfield n.buffer with
  | error e =>
    rw [ho] at hf'
    rw [compute_unfiltered ho, compute_unfiltered hf', findings_filterEvents, findings_filterEvents, figures_filterEvents, figures_filterEvents]
    exact ⟨rfl, rfl, .nil, fun _ _ => rfl⟩
  | ok obs =>
    rw [ho] at hf'
    have erun : theRun n' env' obs = theRun n env obs := by unfold theRun; rw [hn, run_with hr, he]
    have eend : theEndless n' env' obs = theEndless n env obs := by unfold theEndless; rw [hn, run_with hr, he]
    have et : n'.run.target = n.run.target := by have := run_with hr []; injection this
    have ew : n'.run.wells = n.run.wells := by have := run_with hr []; injection this
    have es : n'.run.spacing = n.run.spacing := by have := run_with hr []; injection this
    have alike1 : ∀ f : Figure, f.Alike f := fun f => by cases f <;> simp [Figure.Alike]
    have fpre : ∀ (m : Inputs) (cols : List ColumnStats), findings (preLog m cols) = [.summary cols] := fun m cols => by
      unfold preLog; rw [findings_append, findings_filterEvents]; simp [findings]
    have gpre : ∀ (m : Inputs) (cols : List ColumnStats), figures (preLog m cols) = [] := fun m cols => by
      unfold preLog; rw [figures_append, figures_filterEvents]; simp [figures]
    rcases computed env ho hk ht with ⟨h6, c⟩ | ⟨cols, h6, hc, hrun, c⟩ | ⟨cols, r, e, h6, hc, hrun, hout, c⟩ |
      ⟨cols, r, f, pl, im, lines, h6, hc, h1, hrun, hout, -, -, hpl, him, hli, c⟩ | ⟨cols, r, f, pl, h6, hc, h1, hrun, hout, -, -, hpl, c⟩
    · rw [c, compute_few hf' h6, findings_filterEvents, findings_filterEvents, figures_filterEvents, figures_filterEvents]
      exact ⟨rfl, rfl, .nil, fun _ _ => rfl⟩
    · rw [c, compute_none hf' h6 hc (erun.trans hrun), eend]
      have ef : ∀ L, findings (preLog n' cols ++ L) = findings (preLog n cols ++ L) := fun L => by rw [findings_append, findings_append, fpre, fpre]
      have eg : ∀ L, figures (preLog n' cols ++ L) = figures (preLog n cols ++ L) := fun L => by rw [figures_append, figures_append, gpre, gpre]
      simp only [List.append_assoc]
      rw [ef, eg]
      exact ⟨trivial, rfl, List.forall₂_same.mpr fun f _ => alike1 f, fun _ _ => rfl⟩
    · rw [c, compute_error hf' h6 hc (erun.trans hrun) hout]
      have ef : ∀ L, findings (preLog n' cols ++ L) = findings (preLog n cols ++ L) := fun L => by rw [findings_append, findings_append, fpre, fpre]
      have eg : ∀ L, figures (preLog n' cols ++ L) = figures (preLog n cols ++ L) := fun L => by rw [figures_append, figures_append, gpre, gpre]
      simp only [List.append_assoc]
      rw [ef, eg]
      exact ⟨trivial, rfl, List.forall₂_same.mpr fun f _ => alike1 f, fun _ _ => rfl⟩
    · obtain ⟨pl', p1, p2, p3, p4, p5⟩ := plot_alike (g' := env'.gaussian) (s' := n'.smooth) hpl
      rw [← et, ← ew] at p1
      rw [c, compute_stochastic hf' h6 hc (by omega) (erun.trans hrun) hout p1 (es ▸ him) hli]
      refine ⟨rfl, ?_, ?_, ?_⟩
      · simp only [findings_append, fpre]; rfl
      all_goals simp only [figures_append, gpre, figures_lines, figures_runLog]
      · simpa [figures, decileHeader, Figure.Alike] using ⟨p2, p3, p4⟩
      · intro h1 h2
        rw [p5 h1 h2]
    · rw [c, compute_deterministic hf' h6 hc (by omega) (erun.trans hrun) hout (by rw [et, ew]; exact hpl)]
      have ef : ∀ L, findings (preLog n' cols ++ L) = findings (preLog n cols ++ L) := fun L => by rw [findings_append, findings_append, fpre, fpre]
      have eg : ∀ L, figures (preLog n' cols ++ L) = figures (preLog n cols ++ L) := fun L => by rw [figures_append, figures_append, gpre, gpre]
      simp only [List.append_assoc]
      rw [ef, eg]
      exact ⟨trivial, rfl, List.forall₂_same.mpr fun f _ => alike1 f, fun _ _ => rfl⟩

end Oneka
