import Verif.Lemmas.PropsUnusable

/-!
# Arguments that are accepted although they are of no use (C86)
-/

namespace Oneka

open PField

/-! ## C86: the fit -/

/-- C86: an observation without uncertainty, or exactly at a well, or a model without conductivity or thickness makes the fit of a model with wells fail with a LinAlgError (if `lstsq` does not accept inf
and NaN), and the model is unchanged. Example: `Props/Examples.lean`. -/
theorem C86_fit (la : LinAlg) (hst : la.Strict) (m : Aquifer ℝ) (obs : List Obs) (xo yo : ℝ) (hw : m.wells ≠ []) (hz : ∀ o ∈ obs, m.base < o.z)
    (h : ∃ o ∈ obs, o.std = 0 ∨ m.conductivity = 0 ∨ m.thickness = 0 ∨ ∃ w ∈ m.wells, (o.x, o.y) = (w.xw, w.yw)) :
    m.fitRegionalFlow la obs xo yo = (m, .error .linAlgError) := by
  obtain ⟨rows, hrows⟩ := m.constructFit_returns xo yo obs fun o ho => ⟨hz o ho, .inl hw⟩
  obtain ⟨o, ho, h⟩ := h
  obtain ⟨r, hr, hro⟩ := Aquifer.constructFit_rows hrows o ho
  obtain ⟨r', hr', hnf⟩ := m.fitRow_nonfinite xo yo o (hz o ho) hw (by
    rcases h with h | h | h | ⟨w, hw, e⟩
    · exact .inl (Aquifer.potentialStd_zero (hz o ho) (.inl h))
    · exact .inl (Aquifer.potentialStd_zero (hz o ho) (.inr (.inl h)))
    · exact .inl (Aquifer.potentialStd_zero (hz o ho) (.inr (.inr h)))
    · exact .inr fun hoff => hoff w hw e)
  obtain rfl : r = r' := by rw [hro] at hr'; exact Except.ok.inj hr'
  unfold Aquifer.fitRegionalFlow Aquifer.computeFit
  rw [hrows]
  simp only [hst rows ⟨r, hr, hnf⟩]

/-- C86: without wells the same happens with a ZeroDivisionError. -/
theorem C86_no_wells (la : LinAlg) (m : Aquifer ℝ) (obs : List Obs) (xo yo : ℝ) (hw : m.wells = []) (hz : ∀ o ∈ obs, m.base < o.z)
    (h : ∃ o ∈ obs, o.std = 0 ∨ m.conductivity = 0 ∨ m.thickness = 0) : m.fitRegionalFlow la obs xo yo = (m, .error .zeroDivisionError) := by
  obtain ⟨o, ho, h⟩ := h
  unfold Aquifer.fitRegionalFlow
  rw [m.constructFit_division xo yo obs hw hz ⟨o, ho, Aquifer.potentialStd_zero (hz o ho) h⟩]

/-- an observation without uncertainty, for a model without wells -/
example : (plain.fitRegionalFlow perfect [⟨3, 0, 30, 1⟩, ⟨1, 0, 31, 0⟩] 0 0).2 = .error .zeroDivisionError := by
  rw [C86_no_wells perfect plain _ 0 0 rfl (by simp [plain]) ⟨⟨1, 0, 31, 0⟩, by simp, .inl rfl⟩]

/-- an observation at a well, for a model with a well that is switched off -/
example : (({ plain with wells := [⟨1, 0, 0.25, 0⟩] } : Aquifer ℝ).fitRegionalFlow perfect sixObs 0 0).2 = .error .linAlgError := by
  have := C86_fit perfect perfect_strict { plain with wells := [⟨1, 0, 0.25, 0⟩] } sixObs 0 0 (by simp) (fun o ho => (sixObs_usable o ho).1)
    ⟨⟨1, 0, 31, 1⟩, by simp [sixObs], .inr (.inr (.inr ⟨_, List.mem_singleton.mpr rfl, rfl⟩))⟩
  exact congrArg Prod.snd this

/-! ## C86: the traces -/

/-- C86: with zero porosity no trace makes a single step: it has only its starting point (if the velocity cannot be computed), or it never ends; and with `confined` it never ends. -/
theorem C86_trace (m : Aquifer ℝ) (hp : m.porosity = 0) (confined : Bool) (x y duration : ℝ) (hd : duration ≠ 0) (tol maxstep : XR) :
    (∀ tr, computeBacktrace (.fin x) (.fin y) (.fin duration) tol maxstep (fun _ => m.toX.reverseVelocity confined) = some tr → tr.vertices = [(.fin x, .fin y)]) ∧
    (confined = true → computeBacktrace (.fin x) (.fin y) (.fin duration) tol maxstep (fun _ => m.toX.reverseVelocity confined) = none) := by
  have hD : (.fin 0 : XR) < PyMath.abs (.fin duration) := by
    show (0:ℝ) < |duration|
    exact abs_pos.mpr hd
  simp only [Aquifer.reverseVelocity_eq]
  constructor
  · intro tr h
    cases hv : m.toX.backVelocity confined (.fin x, .fin y) with
    | error e =>
      unfold computeBacktrace at h
      simp only [hv] at h
      obtain rfl := Option.some.inj h
      rfl
    | ok k1 => exact (trace_stuck (fe := fun _ => m.toX.backVelocity confined) hv (Aquifer.backVelocity_nonfin hp hv) hD h).1
  · rintro rfl
    obtain ⟨v, hv⟩ := reverseVelocity_confined m.toX (.fin x, .fin y)
    exact trace_endless (fun _ p => reverseVelocity_confined _ p) hv (Aquifer.backVelocity_nonfin hp hv) hD

/-- an aquifer without pores -/
example : ({ plain with porosity := 0 } : Aquifer ℝ).porosity = 0 ∧ (3650:ℝ) ≠ 0 := ⟨rfl, by norm_num⟩

/-! ## C86: calls -/

section

variable {a : PyArgs} {n : Inputs} {env : CallEnv} (ha : Acceptable a) (hd : a.Denotes n)

include ha hd

/-- C86: a standard deviation of zero among several duplicates makes the call fail with a ZeroDivisionError, whatever else is given. Example: `Props/Examples.lean`. -/
theorem C86_duplicates (kept : List Obs) (gs : List (List Obs)) (hk : IsKept n.run.obs (n.run.wells.map fun w => (w.xw, w.yw)) n.buffer kept) (hg : Grouping kept gs)
    (h : ∃ g ∈ gs, 1 < g.length ∧ ∃ o ∈ g, o.std = 0) : (oneka a env).ending = .raises .zeroDivisionError := by
  have hst : stage a env = compute n env := by unfold stage; rw [inputs_of_denotes hd]
  refine stage_raises ha hd ?_
  rw [hst, compute_unfiltered ((C51_error _ _ _ _ _ hk hg _).mpr ⟨rfl, h⟩)]

variable (hs : 1 < n.nrealizations → n.Spread ∧ ∀ i j, 0 ≤ env.run.u i j ∧ env.run.u i j < 1)
include hs

/-- C86: a retained observation with a standard deviation of zero, and also a conductivity or a thickness of zero, pass all checks and make the call fail with a LinAlgError (if `lstsq` does not accept inf and NaN).
Example: `Props/Examples.lean`. -/
theorem C86_zero (hst : env.run.la.Strict) (obs : List Obs) (ho : filterObs n.run.obs (n.run.wells.map fun w => (w.xw, w.yw)) n.buffer = .ok obs) (h7 : 7 ≤ obs.length)
    (hz : ∀ o ∈ obs, n.run.base < o.z) (h : (∃ o ∈ obs, o.std = 0) ∨ n.run.cDist = .const 0 ∨ n.run.tDist = .const 0) : (oneka a env).ending = .raises .linAlgError := by
  obtain ⟨⟨k, t, hk, ht⟩, hnp, hsp, -⟩ := accepted_inputs ha hd
  have hst' : stage a env = compute n env := by unfold stage; rw [inputs_of_denotes hd]
  have fit : ∀ (q : Dist → ℕ → Except PyErr ℝ) (m : Aquifer ℝ), (∀ j, q (.const 0) j = .ok 0) → drawModel { n.run with obs := obs } q = .ok m →
      (m.fitRegionalFlow env.run.la obs t.xw t.yw).2 = .error .linAlgError := by
    intro q m hq hm
    have D := drawModel_iff.mp hm
    rw [C86_fit env.run.la hst m obs t.xw t.yw (D.has_wells ht) (fun o ho => by rw [D.base]; exact hz o ho)]
    have h1 := D.conductivity
    have h2 := D.thickness
    rcases h with ⟨o, h, h0⟩ | h | h
    · exact ⟨o, h, .inl h0⟩
    · simp only [h, hq] at h1
      exact ⟨obs[0], List.getElem_mem _, .inr (.inl (Except.ok.inj h1).symm)⟩
    · simp only [h, hq] at h2
      exact ⟨obs[0], List.getElem_mem _, .inr (.inr (.inl (Except.ok.inj h2).symm))⟩
  have hrun : theRun n env obs = some ⟨.error .linAlgError, []⟩ := by
    unfold theRun
    split
    · rename_i h1
      obtain ⟨hspread, hu⟩ := hs h1
      obtain ⟨m, hm⟩ := draw_any_stochastic ha hd hspread obs (hu 0)
      obtain ⟨j, hj⟩ : ∃ j : ℕ, n.nrealizations = (j + 1 : ℕ) := ⟨n.nrealizations.toNat - 1, by omega⟩
      rw [hj]
      exact stochastic_fit_error (a := { n.run with obs := obs }) hk ht hsp hm (fit _ m (fun _ => rfl) hm)
    · obtain ⟨m, hm⟩ := draw_any_deterministic ha hd obs
      exact deterministic_fit_error (a := { n.run with obs := obs }) hk ht hsp hm (fit _ m (fun _ => rfl) hm)
  obtain ⟨cols, hcol, -⟩ := summary_ok (obs := obs) (by rintro rfl; simp at h7)
  refine stage_raises ha hd ?_
  rw [hst', compute_error ho (by omega) hcol hrun rfl]

/-- C86: a porosity of zero passes all checks as well, but the call never ends, if `confined` is set, nothing else is wrong, and nobody interrupts it. Example: `Props/Examples.lean`. -/
theorem C86_porosity (hla : env.run.la.Correct) (hc : env.run.la.Converges) (hK : n.run.cDist.Pos) (hT : n.run.tDist.Pos) (hstd : ∀ o ∈ n.run.obs, 0 < o.std) (obs : List Obs)
    (ho : filterObs n.run.obs (n.run.wells.map fun w => (w.xw, w.yw)) n.buffer = .ok obs) (h7 : 7 ≤ obs.length) (hz : ∀ o ∈ obs, n.run.base < o.z) (hcon : ¬ OnOneConic obs)
    (hm : 1 < n.nrealizations → ∀ ev cov, ∃ c, env.run.mvn 0 ev cov = .ok c) (hcf : n.run.confined = true) (d : ℝ) (hdur : n.run.duration = .fin d)
    (hi : ∀ m, env.run.interrupt 0 0 m = none) (hp : n.run.pDist = .const 0) : (oneka a env).ending = .diverges := by
  obtain ⟨⟨k, t, hk, ht⟩, hnp, hsp, -, -, hbuf, -⟩ := accepted_inputs ha hd
  have hstd' := retained_std ho hstd
  have hst : stage a env = compute n env := by unfold stage; rw [inputs_of_denotes hd]
  have hdpos : (.fin 0 : XR) < PyMath.abs n.run.duration := by
    obtain ⟨x, hx, hx0⟩ := ha.duration
    rw [hd.duration] at hx
    rw [hdur] at hx ⊢
    show (0:ℝ) < |d|
    refine abs_pos.mpr ?_
    rintro rfl
    exact hx0 (Option.some.inj hx).symm
  obtain ⟨f0, hf0⟩ := new_ok (x := t.xw) (y := t.yw) hsp
  have fits : ∀ (q : Dist → ℕ → Except PyErr ℝ) (m : Aquifer ℝ), drawModel { n.run with obs := obs } q = .ok m → 0 < m.conductivity → 0 < m.thickness →
      ∃ ev cov, (m.fitRegionalFlow env.run.la obs t.xw t.yw).2 = .ok (ev, cov) := by
    intro q m hm mK mT
    obtain ⟨⟨ev, cov⟩, h⟩ := (C37_degenerate env.run.la hla hc m mK mT obs t.xw t.yw fun o hmem =>
      ⟨by rw [(drawModel_iff.mp hm).base]; exact hz o hmem, hstd' o hmem, retained_off hm hbuf ho o hmem⟩).2 hcon
    exact ⟨ev, cov, h⟩
  have hrun : theRun n env obs = none := by
    unfold theRun
    split
    · rename_i h1
      obtain ⟨hspread, hu⟩ := hs h1
      obtain ⟨m, hdm⟩ := draw_any_stochastic ha hd hspread obs (hu 0)
      have D := drawModel_iff.mp hdm
      have mK : 0 < m.conductivity := by
        obtain ⟨x, hx, hx0⟩ := sample_ok ha.cDist hd.cDist hspread.1 (hu 0 n.run.wells.length).1 (hu 0 n.run.wells.length).2
        obtain rfl : x = m.conductivity := Except.ok.inj (hx.symm.trans D.conductivity)
        exact hx0 hK
      have mT : 0 < m.thickness := by
        obtain ⟨x, hx, hx0⟩ := sample_ok ha.tDist hd.tDist hspread.2.2.1 (hu 0 (n.run.wells.length + 2)).1 (hu 0 (n.run.wells.length + 2)).2
        obtain rfl : x = m.thickness := Except.ok.inj (hx.symm.trans D.thickness)
        exact hx0 hT
      have mp : m.porosity = 0 := by
        have := D.porosity
        simp only [hp] at this
        exact (Except.ok.inj this).symm
      obtain ⟨ev, cov, hfit⟩ := fits _ m hdm mK mT
      obtain ⟨c, hcf'⟩ := hm h1 ev cov
      obtain ⟨j, hj⟩ : ∃ j : ℕ, n.nrealizations = (j + 1 : ℕ) := ⟨n.nrealizations.toNat - 1, by omega⟩
      rw [hj]
      exact stochastic_hangs (a := { n.run with obs := obs }) hk ht hf0 (realize_porosity hdm mp hfit hcf' hi hcf hdpos hnp)
    · obtain ⟨m, hdm⟩ := draw_any_deterministic ha hd obs
      have D := drawModel_iff.mp hdm
      have mK : 0 < m.conductivity := by
        obtain ⟨x, hx, hx0⟩ := mean_ok ha.cDist hd.cDist
        obtain rfl : x = m.conductivity := Except.ok.inj (hx.symm.trans D.conductivity)
        exact hx0 hK
      have mT : 0 < m.thickness := by
        obtain ⟨x, hx, hx0⟩ := mean_ok ha.tDist hd.tDist
        obtain rfl : x = m.thickness := Except.ok.inj (hx.symm.trans D.thickness)
        exact hx0 hT
      have mp : m.porosity = 0 := by
        have := D.porosity
        simp only [hp] at this
        exact (Except.ok.inj this).symm
      obtain ⟨ev, cov, hfit⟩ := fits _ m hdm mK mT
      exact deterministic_hangs (a := { n.run with obs := obs }) hk ht hf0 (realize_porosity hdm mp hfit rfl hi hcf hdpos hnp)
  obtain ⟨cols, hcol, -⟩ := summary_ok (obs := obs) (by rintro rfl; simp at h7)
  have hdiv : (stage a env).ending = .diverges := by rw [hst, compute_none ho (by omega) hcol hrun]
  obtain ⟨ws, os, -, -, hl⟩ := log_accepted ha hd.nrealizations
  rcases course a env with ⟨e', h1, -⟩ | ⟨e', -, h1, -⟩ | ⟨e', -, -, h1, h2⟩ | ⟨-, -, h1, h2⟩ | ⟨f, e', -, -, h1, -⟩ | ⟨f, e', -, -, h1, -⟩ | ⟨f, -, -, h1, -⟩
  · exact absurd ha h1
  · rw [hl] at h1; simp at h1
  · rw [hdiv] at h1; simp at h1
  · rw [h2]
  all_goals rw [hdiv] at h1; simp at h1

omit ha hs in
/-- C86: and if a call with zero porosity returns, all its traces consist of their starting points. Example: `Props/Examples.lean`. -/
theorem C86_no_step (hp : n.run.pDist = .const 0) (d : ℝ) (hdur : n.run.duration = .fin d) (v : PyVal) (h : (oneka a env).ending = .returns v) :
    ∀ L ∈ realizations (oneka a env).events, ∀ tr ∈ L.traces, tr.vertices.length = 1 := by
  obtain ⟨-, -, ha, -⟩ := returned_course h
  have hdpos : (.fin 0 : XR) < PyMath.abs n.run.duration := by
    obtain ⟨x, hx, hx0⟩ := ha.duration
    rw [hd.duration] at hx
    rw [hdur] at hx ⊢
    show (0:ℝ) < |d|
    refine abs_pos.mpr ?_
    rintro rfl
    exact hx0 (Option.some.inj hx).symm
  have key : ∀ (m : Aquifer ℝ) (i : ℕ → Option PyErr) (x y : XR) (tr : Trace XR), m.porosity = 0 → computeBacktrace x y n.run.duration n.run.tol n.run.maxstep
      (fun n' p => match i n' with
        | some e => .error e
        | none => m.toX.reverseVelocity n.run.confined p) = some tr → tr.vertices.length = 1 := by
    intro m i x y tr hm h
    simp only [Aquifer.reverseVelocity_eq] at h
    cases hv : (match i 0 with
        | some e => .error e
        | none => m.toX.backVelocity n.run.confined (x, y) : Except PyErr (XR × XR)) with
    | error e =>
      unfold computeBacktrace at h
      simp only [hv] at h
      obtain rfl := Option.some.inj h
      rfl
    | ok k1 =>
      have hk : ¬ k1.1.IsFin := by
        split at hv
        · simp at hv
        · exact Aquifer.backVelocity_nonfin hm hv
      rw [(trace_stuck (fe := fun n' p => match i n' with
        | some e => .error e
        | none => m.toX.backVelocity n.run.confined p) hv hk hdpos h).1]
      rfl
  intro L hL tr htr
  obtain ⟨j, hj, rfl⟩ := List.mem_iff_getElem.mp htr
  by_cases hn : 1 < n.nrealizations
  · obtain ⟨-, -, obs, k, t, -, -, -, -, -, -, -, hR, -⟩ := C68_stochastic a n env v hd hn h (fun _ => none)
    obtain ⟨i, hi, rfl⟩ := List.mem_iff_getElem.mp hL
    have R := hR i _ (List.getElem?_eq_getElem hi)
    refine key _ _ _ _ _ ?_ (R.traces j _ (List.getElem?_eq_getElem hj))
    have := R.porosity
    simp only [hp] at this
    exact (Except.ok.inj this).symm
  · obtain ⟨-, -, obs, k, t, L', -, -, -, -, -, -, hL', R, -⟩ := C68_deterministic a n env v hd (by omega) h (fun _ => none)
    rw [hL', List.mem_singleton] at hL
    subst hL
    refine key _ _ _ _ _ ?_ (R.traces j _ (List.getElem?_eq_getElem hj))
    have := R.porosity
    simp only [hp] at this
    exact (Except.ok.inj this).symm

end

end Oneka
