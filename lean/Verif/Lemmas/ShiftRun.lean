import Verif.Lemmas.ShiftTrace

/-!
# Runs elsewhere
-/

namespace Oneka

variable {s : ℝ × ℝ}

/-- only the wells moved -/
noncomputable def Aquifer.moveWells (s : ℝ × ℝ) (m : Aquifer ℝ) : Aquifer ℝ := { m with wells := m.wells.map (Well.shift s) }

theorem potentialWells_shift (m m' : Aquifer ℝ) (hm : m'.wells = m.wells.map (Well.shift s)) (x y : XR) :
    m'.toX.potentialWells (x + .fin s.1) (y + .fin s.2) = m.toX.potentialWells x y := by
  unfold Aquifer.potentialWells Aquifer.toX
  simp only [hm, List.map_map, List.foldl_map, Function.comp_apply, Well.shift, XR.shift_sub_fin]

theorem potential_shift (m : Aquifer ℝ) (x y : XR) : (m.moved s).toX.potential (x + .fin s.1) (y + .fin s.2) = m.toX.potential x y := by
  unfold Aquifer.potential
  rw [potentialWells_shift m (m.moved s) rfl]
  simp only [Aquifer.toX, Aquifer.moved, XR.shift_sub_fin]

theorem discharge_shift (m : Aquifer ℝ) (x y : XR) : (m.moved s).toX.discharge (x + .fin s.1) (y + .fin s.2) = m.toX.discharge x y := by
  unfold Aquifer.discharge
  simp only [Aquifer.toX, Aquifer.moved, List.map_map, List.foldl_map, Function.comp_apply, Well.shift, XR.shift_sub_fin]

theorem head_shift (m : Aquifer ℝ) (x y : XR) : (m.moved s).toX.head (x + .fin s.1) (y + .fin s.2) = m.toX.head x y := by
  unfold Aquifer.head
  rw [potential_shift]
  rfl

theorem backVelocity_shift (m : Aquifer ℝ) (c : Bool) (p : XR × XR) : (m.moved s).toX.backVelocity c (shiftX s p) = m.toX.backVelocity c p := by
  unfold Aquifer.backVelocity Aquifer.velocityConfined Aquifer.velocity shiftX
  simp only [head_shift, discharge_shift]
  rfl

theorem runVelocity_shift (m : Aquifer ℝ) (c : Bool) (int : ℕ → ℕ → Option PyErr) (k : ℕ) : Moved s (runVelocity m c int k) (runVelocity (m.moved s) c int k) := by
  intro n p
  unfold runVelocity
  rw [backVelocity_shift]

theorem constructFit_shift (m : Aquifer ℝ) (xo yo : ℝ) (obs : List Obs) :
    (m.moveWells s).constructFit (xo + s.1) (yo + s.2) (obs.map (Obs.shift s)) = m.constructFit xo yo obs := by
  induction obs with
  | nil => rfl
  | cons o os ih =>
    have hrow : (m.moveWells s).fitRow (xo + s.1) (yo + s.2) (o.shift s) = m.fitRow xo yo o := by
      unfold Aquifer.fitRow
      have e1 : (m.moveWells s).fosm (o.shift s) = m.fosm o := rfl
      have e2 : (m.moveWells s).wells.isEmpty = m.wells.isEmpty := by simp [Aquifer.moveWells]
      have e3 : (m.moveWells s).toX.potentialWells (.fin (o.shift s).x) (.fin (o.shift s).y) = m.toX.potentialWells (.fin o.x) (.fin o.y) :=
        potentialWells_shift m (m.moveWells s) rfl (.fin o.x) (.fin o.y)
      have e4 : (o.shift s).x - (xo + s.1) = o.x - xo := by simp only [Obs.shift]; ring
      have e5 : (o.shift s).y - (yo + s.2) = o.y - yo := by simp only [Obs.shift]; ring
      simp only [e1, e2, e3, e4, e5]
    simp only [List.map_cons, Aquifer.constructFit, hrow, ih]

theorem drawWells_shift (q : Dist → ℕ → Except PyErr ℝ) (ws : List SWell) (j : ℕ) : drawWells q (ws.map (SWell.shift s)) j = (drawWells q ws j).map (List.map (Well.shift s)) := by
  induction ws generalizing j with
  | nil => rfl
  | cons w ws ih =>
    simp only [List.map_cons, drawWells, ih]
    have : (w.shift s).q = w.q := rfl
    rw [this]
    cases q w.q j with
    | error e => rfl
    | ok v =>
      simp only []
      cases drawWells q ws (j + 1) <;> rfl

theorem drawModel_shift (a : RunArgs) (q : Dist → ℕ → Except PyErr ℝ) : drawModel (a.shift s) q = (drawModel a q).map (Aquifer.moveWells s) := by
  unfold drawModel
  have e : (a.shift s).wells = a.wells.map (SWell.shift s) := rfl
  have e1 : (a.shift s).cDist = a.cDist := rfl
  have e2 : (a.shift s).pDist = a.pDist := rfl
  have e3 : (a.shift s).tDist = a.tDist := rfl
  have e4 : (a.shift s).base = a.base := rfl
  simp only [e, e1, e2, e3, e4, List.length_map, drawWells_shift]
  cases drawWells q a.wells 0 with
  | error e => rfl
  | ok ws =>
    simp only [Except.map]
    cases q a.cDist a.wells.length with
    | error e => rfl
    | ok c =>
      simp only []
      cases q a.pDist (a.wells.length + 1) with
      | error e => rfl
      | ok p =>
        simp only []
        cases q a.tDist (a.wells.length + 2) <;> rfl

theorem fit_shift (la : LinAlg) (m : Aquifer ℝ) (obs : List Obs) (xo yo : ℝ) :
    (∃ e, m.fitRegionalFlow la obs xo yo = (m, .error e) ∧ (m.moveWells s).fitRegionalFlow la (obs.map (Obs.shift s)) (xo + s.1) (yo + s.2) = (m.moveWells s, .error e)) ∨
    ∃ m' r, m.fitRegionalFlow la obs xo yo = (m', .ok r) ∧ (m.moveWells s).fitRegionalFlow la (obs.map (Obs.shift s)) (xo + s.1) (yo + s.2) = (m'.moved s, .ok r) := by
  unfold Aquifer.fitRegionalFlow
  rw [constructFit_shift]
  cases m.constructFit xo yo obs with
  | error e => exact Or.inl ⟨e, rfl, rfl⟩
  | ok rows =>
    simp only []
    cases Aquifer.computeFit la rows with
    | error e => exact Or.inl ⟨e, rfl, rfl⟩
    | ok r => exact Or.inr ⟨_, r, rfl, rfl⟩

theorem realize_shift (a : RunArgs) (la : LinAlg) (w : SWell) (q : Dist → ℕ → Except PyErr ℝ) (coefs : (Fin 6 → ℝ) → Matrix (Fin 6) (Fin 6) ℝ → Except PyErr (Fin 6 → ℝ))
    (rc : (Fin 6 → ℝ) → ℝ) (int : ℕ → ℕ → Option PyErr) (f : PField ℝ) :
    realize (a.shift s) la (w.shift s) q coefs rc int (f.shift s) = (realize a la w q coefs rc int f).map fun r => (r.1.map (PField.shift s), r.2.map (RealizationLog.shift s)) := by
  unfold realize
  rw [drawModel_shift]
  cases drawModel a q with
  | error e => rfl
  | ok mo =>
    simp only [Except.map]
    rcases fit_shift (s := s) la mo a.obs w.xw w.yw with ⟨e, h1, h2⟩ | ⟨m', ⟨ev, cov⟩, h1, h2⟩
    · rw [h1]
      have : (mo.moveWells s).fitRegionalFlow la (a.shift s).obs (w.shift s).xw (w.shift s).yw = _ := h2
      rw [this]
      rfl
    · rw [h1]
      have : (mo.moveWells s).fitRegionalFlow la (a.shift s).obs (w.shift s).xw (w.shift s).yw = _ := h2
      rw [this]
      simp only []
      cases coefs ev cov with
      | error e => rfl
      | ok c =>
        have hz := capturezone_shift (runVelocity_shift (s := s) { m' with coef := c } a.confined int) w.xw w.yw w.rw a.npaths a.duration f a.umbra 1 a.tol a.maxstep
        have hz' : computeCapturezone (w.shift s).xw (w.shift s).yw (w.shift s).rw (a.shift s).npaths (a.shift s).duration (f.shift s) (a.shift s).umbra 1 (a.shift s).tol (a.shift s).maxstep
          (runVelocity { m'.moved s with coef := c } (a.shift s).confined int) = _ := hz
        simp only [hz']
        cases computeCapturezone w.xw w.yw w.rw a.npaths a.duration f a.umbra 1 a.tol a.maxstep (runVelocity { m' with coef := c } a.confined int) with
        | none => rfl
        | some r =>
          obtain ⟨p, o, ts⟩ := r
          cases o <;> rfl

theorem endlessRealization_shift (a : RunArgs) (la : LinAlg) (w : SWell) (q : Dist → ℕ → Except PyErr ℝ) (coefs : (Fin 6 → ℝ) → Matrix (Fin 6) (Fin 6) ℝ → Except PyErr (Fin 6 → ℝ))
    (rc : (Fin 6 → ℝ) → ℝ) (int : ℕ → ℕ → Option PyErr) (f : PField ℝ) :
    endlessRealization (a.shift s) la (w.shift s) q coefs rc int (f.shift s) = (endlessRealization a la w q coefs rc int f).map (RealizationLog.shift s) := by
  unfold endlessRealization
  rw [drawModel_shift]
  cases drawModel a q with
  | error e => rfl
  | ok mo =>
    simp only [Except.map]
    rcases fit_shift (s := s) la mo a.obs w.xw w.yw with ⟨e, h1, h2⟩ | ⟨m', ⟨ev, cov⟩, h1, h2⟩
    · rw [h1]
      have : (mo.moveWells s).fitRegionalFlow la (a.shift s).obs (w.shift s).xw (w.shift s).yw = _ := h2
      rw [this]
      rfl
    · rw [h1]
      have : (mo.moveWells s).fitRegionalFlow la (a.shift s).obs (w.shift s).xw (w.shift s).yw = _ := h2
      rw [this]
      simp only []
      cases coefs ev cov with
      | error e => rfl
      | ok c =>
        have hz := endlessTraces_shift (runVelocity_shift (s := s) { m' with coef := c } a.confined int) w.xw w.yw w.rw a.npaths a.duration f a.umbra a.tol a.maxstep
        have hz' : endlessTraces (w.shift s).xw (w.shift s).yw (w.shift s).rw (a.shift s).npaths (a.shift s).duration (f.shift s) (a.shift s).umbra (a.shift s).tol (a.shift s).maxstep
          (runVelocity { m'.moved s with coef := c } (a.shift s).confined int) = _ := hz
        simp only [hz']
        rfl

theorem stochasticLoop_shift (a : RunArgs) (env : Env) (w : SWell) (k i : ℕ) (f : PField ℝ) (acc : List RealizationLog) :
    stochasticLoop (a.shift s) env (w.shift s) k i (f.shift s) (acc.map (RealizationLog.shift s)) = (stochasticLoop a env w k i f acc).map (RunResult.shift s) := by
  induction k generalizing i f acc with
  | zero => rfl
  | succ k ih =>
    simp only [stochasticLoop, realize_shift]
    cases realize a env.la w (fun d j => d.sample (env.u i j)) (env.mvn i) (fun c => 2 * (c 0 + c 1)) (env.interrupt i) f with
    | none => rfl
    | some r =>
      obtain ⟨o, l⟩ := r
      cases o with
      | error e => simp [RunResult.shift, Except.map]
      | ok f' =>
        have := ih (i + 1) f' (acc ++ l)
        rw [List.map_append] at this
        exact this

theorem endlessLoop_shift (a : RunArgs) (env : Env) (w : SWell) (k i : ℕ) (f : PField ℝ) :
    endlessLoop (a.shift s) env (w.shift s) k i (f.shift s) = (endlessLoop a env w k i f).map (RealizationLog.shift s) := by
  induction k generalizing i f with
  | zero => rfl
  | succ k ih =>
    simp only [endlessLoop, realize_shift, endlessRealization_shift]
    cases realize a env.la w (fun d j => d.sample (env.u i j)) (env.mvn i) (fun c => 2 * (c 0 + c 1)) (env.interrupt i) f with
    | none => rfl
    | some r =>
      obtain ⟨o, l⟩ := r
      cases o with
      | error e => rfl
      | ok f' => simp [Except.map, ih]

theorem getWell_shift (ws : List SWell) (t : ℤ) : getWell (ws.map (SWell.shift s)) t = (getWell ws t).map (SWell.shift s) := by
  unfold getWell
  simp only [List.length_map, List.getElem?_map]
  generalize (if t < 0 then t + (ws.length : ℤ) else t) = i
  split_ifs
  · rfl
  · cases ws[i.toNat]? <;> rfl

theorem createStochastic_shift (a : RunArgs) (n : ℤ) (env : Env) : createStochastic (a.shift s) n env = (createStochastic a n env).map (RunResult.shift s) := by
  unfold createStochastic
  have e : getWell (a.shift s).wells (a.shift s).target = _ := getWell_shift (s := s) a.wells a.target
  rw [e]
  cases getWell a.wells a.target with
  | error e => rfl
  | ok w =>
    have e : PField.new (a.shift s).spacing (a.shift s).spacing (some (w.shift s).xw) (some (w.shift s).yw) = _ := new_shift (s := s) a.spacing a.spacing w.xw w.yw
    simp only [Except.map, e]
    cases PField.new a.spacing a.spacing (some w.xw) (some w.yw) with
    | error e => rfl
    | ok f => exact stochasticLoop_shift a env w n.toNat 0 f []

theorem createDeterministic_shift (a : RunArgs) (env : Env) : createDeterministic (a.shift s) env = (createDeterministic a env).map (RunResult.shift s) := by
  unfold createDeterministic
  have e : getWell (a.shift s).wells (a.shift s).target = _ := getWell_shift (s := s) a.wells a.target
  rw [e]
  cases getWell a.wells a.target with
  | error e => rfl
  | ok w =>
    have e : PField.new (a.shift s).spacing (a.shift s).spacing (some (w.shift s).xw) (some (w.shift s).yw) = _ := new_shift (s := s) a.spacing a.spacing w.xw w.yw
    simp only [Except.map, e]
    cases PField.new a.spacing a.spacing (some w.xw) (some w.yw) with
    | error e => rfl
    | ok f =>
      simp only [realize_shift]
      cases realize a env.la w (fun d _ => d.mean) (fun ev _ => .ok ev) (fun c => -2 * (c 0 + c 1)) (env.interrupt 0) f with
      | none => rfl
      | some r => rfl

theorem endlessStochastic_shift (a : RunArgs) (n : ℤ) (env : Env) : endlessStochastic (a.shift s) n env = (endlessStochastic a n env).map (RealizationLog.shift s) := by
  unfold endlessStochastic
  have e : getWell (a.shift s).wells (a.shift s).target = _ := getWell_shift (s := s) a.wells a.target
  rw [e]
  cases getWell a.wells a.target with
  | error e => rfl
  | ok w =>
    have e : PField.new (a.shift s).spacing (a.shift s).spacing (some (w.shift s).xw) (some (w.shift s).yw) = _ := new_shift (s := s) a.spacing a.spacing w.xw w.yw
    simp only [Except.map, e]
    cases PField.new a.spacing a.spacing (some w.xw) (some w.yw) with
    | error e => rfl
    | ok f => exact endlessLoop_shift a env w n.toNat 0 f

theorem endlessDeterministic_shift (a : RunArgs) (env : Env) : endlessDeterministic (a.shift s) env = (endlessDeterministic a env).map (RealizationLog.shift s) := by
  unfold endlessDeterministic
  have e : getWell (a.shift s).wells (a.shift s).target = _ := getWell_shift (s := s) a.wells a.target
  rw [e]
  cases getWell a.wells a.target with
  | error e => rfl
  | ok w =>
    have e : PField.new (a.shift s).spacing (a.shift s).spacing (some (w.shift s).xw) (some (w.shift s).yw) = _ := new_shift (s := s) a.spacing a.spacing w.xw w.yw
    simp only [Except.map, e]
    cases PField.new a.spacing a.spacing (some w.xw) (some w.yw) with
    | error e => rfl
    | ok f => exact endlessRealization_shift a env.la w _ _ _ _ f

end Oneka
