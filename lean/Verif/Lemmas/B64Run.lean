import Verif.Lemmas.B64Fit
import Verif.Lemmas.FlRun
import Verif.Props.Binary64Trace

/-! # Lemmas for C126: whole runs in binary64 -/

namespace Oneka
open Aquifer

section
variable [LibM]

theorem paths_same (hl : LogAccurate) (hroot : RootAccurate) (htrig : TrigAccurate) {n : ℕ} (hn : n ≤ 2 ^ 40) (hrange : TrigRange n) {xt yt rt D tol maxstep : Fl} (hxt : xt.Ordinary) (hyt : yt.Ordinary)
    (hrt : rt.Ordinary) (hD : D.Ordinary) (hD0 : 0 < D.val) (ht : tol.Ordinary) (ht0 : 0 < tol.val) (hx : maxstep.Ordinary) (hx0 : 0 < maxstep.val) {confined : Bool} {m : Aquifer Fl} (hm : m.Ordinary)
    (hstay : ∀ θ ∈ flAngles n, ∃ Q M, StaysIn m confined (flStart xt yt rt θ) D tol maxstep Q M) :
    List.Forall₂ (PathSame xt yt rt D tol maxstep (m.to64.backVelocity confined) (m.backVelocity confined)) (zoneAngles n) (zoneAngles n) := by
  have ha := angles_same htrig hn
  rw [zoneAngles_fl]
  refine List.forall₂_iff_get.mpr ⟨ha.length_eq, fun i h1 h2 => ?_⟩
  have hi := (List.forall₂_iff_get.mp ha).2 i h1 h2
  have hmem : (flAngles n).get ⟨i, h2⟩ ∈ flAngles n := List.get_mem _ _
  obtain ⟨Q, M, s⟩ := hstay _ hmem
  obtain ⟨r, hr, hw⟩ := s.run
  obtain ⟨e1, r64, e2, e3⟩ := C118_trace hl hroot hm confined Q M s.region s.nonneg s.small _ _ D tol maxstep hD hD0 ht ht0 hx hx0 s.tol_way s.maxstep_way s.near hr hw
  obtain ⟨s1, s2⟩ := start_same hrange hxt hyt hrt hmem hi
  refine ⟨r64, r, ?_, ?_, e3.vertices, fun v hv => ?_⟩
  · rw [s1.to64, s2.to64, back_reverse]; exact e2
  · rw [zoneStart_fl, back_reverse]; exact e1
  · obtain ⟨k, w, hk⟩ := vertices_answered hw hr v hv
    obtain ⟨o1, o2, -⟩ := s.region v (within_ok hk).1
    exact ⟨o1, o2⟩

omit [LibM] in
theorem getWell_same (ws : List FlSWell) (t : ℤ) : Alike (fun b w => b = w.to64 ∧ w ∈ ws) (b64GetWell (ws.map FlSWell.to64) t) (flGetWell ws t) := by
  unfold b64GetWell flGetWell
  simp only [List.length_map]
  generalize (if t < 0 then t + (ws.length : ℤ) else t) = i
  split_ifs
  · rfl
  · rw [List.getElem?_map]
    cases h : ws[i.toNat]? with
    | none => rfl
    | some w => exact ⟨rfl, List.mem_of_getElem? h⟩

omit [LibM] in
theorem drawWells_same {q64 : B64Dist → ℕ → Except PyErr B64} {q : FlDist → ℕ → Except PyErr Fl} (ws : List FlSWell) (h : ∀ w ∈ ws, ∀ j, Alike Is64 (q64 w.q.to64 j) (q w.q j)) (j : ℕ) :
    Alike (fun b v => b = v.map fun w : Well Fl => (⟨w.xw.to64, w.yw.to64, w.rw.to64, w.qw.to64⟩ : Well B64)) (b64DrawWells q64 (ws.map FlSWell.to64) j) (flDrawWells q ws j) := by
  induction ws generalizing j with
  | nil => rfl
  | cons w ws ih =>
    have r := h w (by simp) j
    have rs := ih (fun w hw => h w (by simp [hw])) (j + 1)
    simp only [List.map_cons, b64DrawWells, flDrawWells]
    have e : w.to64.q = w.q.to64 := rfl
    rw [e]
    revert r rs
    generalize q64 _ _ = a
    generalize q _ _ = b
    generalize b64DrawWells _ _ _ = c
    generalize flDrawWells _ _ _ = d
    intro r rs
    match a, b, r with
    | .error e, .error e', g => exact g
    | .ok u, .ok v, g =>
      match c, d, rs with
      | .error e, .error e', r => exact r
      | .ok us, .ok vs, r =>
        show _ :: us = _
        rw [show us = _ from r, List.map_cons, Is64.to64 g]
        rfl

omit [LibM] in
theorem drawModel_same {a : FlRunArgs} {q64 : B64Dist → ℕ → Except PyErr B64} {q : FlDist → ℕ → Except PyErr Fl} (h : ∀ d, d.Ordinary → ∀ j, Alike Is64 (q64 d.to64 j) (q d j)) (ha : a.Ordinary) :
    Alike (fun b m => b = m.to64) (b64DrawModel a.to64 q64) (flDrawModel a q) := by
  have r := drawWells_same a.wells (fun w hw => h w.q (ha.wells w hw).2.2.2) 0
  have hc := h a.cDist ha.properties.1 a.wells.length
  have hp := h a.pDist ha.properties.2.1 (a.wells.length + 1)
  have ht := h a.tDist ha.properties.2.2 (a.wells.length + 2)
  unfold b64DrawModel flDrawModel
  have e1 : a.to64.wells = a.wells.map FlSWell.to64 := rfl
  have e2 : a.to64.cDist = a.cDist.to64 := rfl
  have e3 : a.to64.pDist = a.pDist.to64 := rfl
  have e4 : a.to64.tDist = a.tDist.to64 := rfl
  rw [e1, e2, e3, e4, List.length_map]
  have z : (0 : B64) = (0 : Fl).to64 := Is64.to64 (Same.zero (g := 0) (k := 0) (by norm_num) (by norm_num)).1
  revert r hc hp ht
  generalize b64DrawWells _ _ _ = w
  generalize flDrawWells _ _ _ = w'
  generalize q64 a.cDist.to64 _ = c
  generalize q a.cDist _ = c'
  generalize q64 a.pDist.to64 _ = p
  generalize q a.pDist _ = p'
  generalize q64 a.tDist.to64 _ = t
  generalize q a.tDist _ = t'
  intro r hc hp ht
  match w, w', r with
  | .error e, .error e', g => exact g
  | .ok ws64, .ok ws, r =>
    match c, c', hc with
    | .error e, .error e', g => exact g
    | .ok c64, .ok c, hc =>
      match p, p', hp with
      | .error e, .error e', g => exact g
      | .ok p64, .ok p, hp =>
        match t, t', ht with
        | .error e, .error e', g => exact g
        | .ok t64, .ok t, ht =>
          show (⟨a.base.to64, c64, p64, t64, ws64, 0, 0, fun _ => 0⟩ : Aquifer B64) = _
          rw [show ws64 = _ from r, Is64.to64 hc, Is64.to64 hp, Is64.to64 ht, z]
          rfl

omit [LibM] in
/-- what a drawn model is -/
theorem flDrawModel_ok {a : FlRunArgs} {q : FlDist → ℕ → Except PyErr Fl} {m : Aquifer Fl} (h : flDrawModel a q = .ok m) :
    m.base = a.base ∧ (∀ i, m.coef i = 0) ∧ m.xo = 0 ∧ m.yo = 0 ∧ m.wells.length = a.wells.length ∧
      (∀ (j : ℕ) (s : FlSWell) (v : Well Fl), a.wells[j]? = some s → m.wells[j]? = some v → v.xw = s.xw ∧ v.yw = s.yw ∧ v.rw = s.rw ∧ q s.q j = .ok v.qw) ∧
      q a.cDist a.wells.length = .ok m.conductivity ∧ q a.pDist (a.wells.length + 1) = .ok m.porosity ∧ q a.tDist (a.wells.length + 2) = .ok m.thickness := by
  unfold flDrawModel at h
  cases h1 : flDrawWells q a.wells 0 with
  | error e => rw [h1] at h; cases h
  | ok ws =>
    rw [h1] at h
    cases h2 : q a.cDist a.wells.length with
    | error e => simp only [h2] at h; cases h
    | ok c =>
      cases h3 : q a.pDist (a.wells.length + 1) with
      | error e => simp only [h2, h3] at h; cases h
      | ok p =>
        cases h4 : q a.tDist (a.wells.length + 2) with
        | error e => simp only [h2, h3, h4] at h; cases h
        | ok t =>
          simp only [h2, h3, h4] at h
          obtain rfl := Except.ok.inj h
          obtain ⟨k1, k2⟩ := flDrawWells_iff.mp h1
          refine ⟨rfl, fun _ => rfl, rfl, rfl, k1, fun j s v hs hv => ?_, rfl, rfl, rfl⟩
          have := k2 j s v hs hv
          rwa [Nat.zero_add] at this

omit [LibM] in
/-- a drawn model has ordinary sizes -/
theorem drawn_ordinary {a : FlRunArgs} (ha : a.Ordinary) {q : FlDist → ℕ → Except PyErr Fl} {m : Aquifer Fl} (h : flDrawModel a q = .ok m)
    (ho : OrdinaryDraw m.conductivity m.porosity m.thickness (m.wells.map Well.qw)) : m.Ordinary ∧ m.base.Ordinary ∧ ∀ o ∈ a.obs, m.exact.OffWells o.x.val o.y.val := by
  obtain ⟨h1, h2, h3, h4, h5, h6, -⟩ := flDrawModel_ok h
  obtain ⟨o1, o2, o3, o4⟩ := ho
  have z : (0 : Fl).Ordinary := Or.inl Fl.val_zero
  have key : ∀ v ∈ m.wells, ∃ s ∈ a.wells, v.xw = s.xw ∧ v.yw = s.yw := by
    intro v hv
    obtain ⟨j, hj⟩ := List.mem_iff_getElem?.mp hv
    have hl : j < a.wells.length := by rw [← h5]; exact (List.getElem?_eq_some_iff.mp hj).1
    have hs := List.getElem?_eq_getElem hl
    obtain ⟨k1, k2, -⟩ := h6 j _ v hs hj
    exact ⟨_, List.mem_of_getElem? hs, k1, k2⟩
  refine ⟨⟨o1, o2, o3, h3 ▸ z, h4 ▸ z, fun i => (h2 i) ▸ z, fun v hv => ?_, by rw [h5]; exact ha.number⟩, h1 ▸ ha.base, fun o ho w hw => ?_⟩
  · obtain ⟨s, hs, k1, k2⟩ := key v hv
    obtain ⟨w1, w2, -⟩ := ha.wells s hs
    exact ⟨k1 ▸ w1, k2 ▸ w2, o4 _ (List.mem_map_of_mem hv)⟩
  · obtain ⟨v, hv, rfl⟩ := List.mem_map.mp hw
    obtain ⟨s, hs, k1, k2⟩ := key v hv
    have := ha.away o ho s hs
    rw [← k1, ← k2] at this
    exact this

variable [LibObs]

/-- the model of a realization -/
theorem realization_same (hlog : LogAccurate) (hl : LibObs.Accurate) {a : FlRunArgs} (ha : a.Ordinary) {la64 : B64LinAlg} {la : FlLinAlg} (hla : la64.Extends la) {w : FlSWell} (hw : w ∈ a.wells)
    {q64 : B64Dist → ℕ → Except PyErr B64} {q : FlDist → ℕ → Except PyErr Fl} (h : ∀ d, d.Ordinary → ∀ j, Alike Is64 (q64 d.to64 j) (q d j))
    {mvn64 : (Fin 6 → B64) → Matrix (Fin 6) (Fin 6) B64 → Except PyErr (Fin 6 → B64)} {mvn : (Fin 6 → Fl) → Matrix (Fin 6) (Fin 6) Fl → Except PyErr (Fin 6 → Fl)} (hmvn : NormalExtends mvn64 mvn)
    (hd : ∀ m, flDrawModel a q = .ok m → OrdinaryDraw m.conductivity m.porosity m.thickness (m.wells.map Well.qw)) :
    Alike (fun b m => b = m.to64 ∧ ((∀ i, (m.coef i).Ordinary) → m.Ordinary)) (b64Realization a.to64 la64 w.to64 q64 mvn64) (flRealization a la w q mvn) := by
  have d := drawModel_same h ha
  unfold b64Realization flRealization
  revert d
  cases hm : flDrawModel a q with
  | error e =>
    cases b64DrawModel a.to64 q64 with
    | error e' => exact id
    | ok _ => exact fun h => h.elim
  | ok m =>
    cases b64DrawModel a.to64 q64 with
    | error e' => exact fun h => h.elim
    | ok m64 =>
      intro d
      obtain rfl : m64 = m.to64 := d
      obtain ⟨o1, o2, o3⟩ := drawn_ordinary ha hm (hd m hm)
      obtain ⟨w1, w2, -⟩ := ha.wells w hw
      obtain ⟨f1, f2⟩ := fit_same hlog hl o1 o2 hla w1 w2 a.obs ha.obs o3
      have e1 : a.to64.obs = a.obs.map FlObs.to64 := rfl
      have e2 : w.to64.xw = w.xw.to64 := rfl
      have e3 : w.to64.yw = w.yw.to64 := rfl
      simp only [e1, e2, e3]
      cases hfit : m.flFitRegionalFlow la a.obs w.xw w.yw with
      | mk m2 res =>
        rw [hfit] at f1 f2
        revert f1 f2
        generalize m.to64.b64FitRegionalFlow _ _ _ _ = s
        obtain ⟨s1, s2⟩ := s
        intro f2 f1
        obtain rfl : s1 = m2.to64 := f1
        match s2, res, hfit, f2 with
        | .error e, .error e', _, g => exact g
        | .ok (ev64, cov64), .ok (ev, cov), hfit, ⟨g1, g2⟩ =>
          have c := hmvn _ _ _ _ g1 g2
          simp only
          revert c
          generalize mvn64 _ _ = s
          generalize mvn _ _ = t
          intro c
          match s, t, c with
          | .error e, .error e', g => exact g
          | .ok c64, .ok cc, g =>
            have hm2 := flFit_ok (la := la) (m := m) (obs := a.obs) (xo := w.xw) (yo := w.yw) (ev := ev) (cov := cov) (by rw [hfit])
            rw [hfit] at hm2
            have := (Prod.mk.inj hm2).1
            subst this
            refine ⟨?_, fun hc => ?_⟩
            · rw [vec64_eq g]
              rfl
            · exact ⟨o1.conductivity, o1.porosity, o1.thickness, w1, w2, hc, o1.wells, o1.number⟩

/-- one realization -/
theorem realize_same (hlog : LogAccurate) (hroot : RootAccurate) (htrig : TrigAccurate) (hl : LibObs.Accurate) {a : FlRunArgs} (ha : a.Ordinary) (hrange : TrigRange a.npaths) {la64 : B64LinAlg} {la : FlLinAlg}
    (hla : la64.Extends la) {w : FlSWell} (hw : w ∈ a.wells)
    {q64 : B64Dist → ℕ → Except PyErr B64} {q : FlDist → ℕ → Except PyErr Fl} (h : ∀ d, d.Ordinary → ∀ j, Alike Is64 (q64 d.to64 j) (q d j))
    {mvn64 : (Fin 6 → B64) → Matrix (Fin 6) (Fin 6) B64 → Except PyErr (Fin 6 → B64)} {mvn : (Fin 6 → Fl) → Matrix (Fin 6) (Fin 6) Fl → Except PyErr (Fin 6 → Fl)} (hmvn : NormalExtends mvn64 mvn)
    (hd : ∀ m, flDrawModel a q = .ok m → OrdinaryDraw m.conductivity m.porosity m.thickness (m.wells.map Well.qw)) (hs : ∀ m, flRealization a la w q mvn = .ok m → a.Stays w m)
    {c : PField B64} {f : PField Fl} (hf : FieldSame c f) : OptAlike OutcomeSame (b64Realize a.to64 la64 w.to64 q64 mvn64 c) (flRealize a la w q mvn f) := by
  have r := realization_same hlog hl ha hla hw h hmvn hd
  unfold b64Realize flRealize
  revert r
  cases hm : flRealization a la w q mvn with
  | error e =>
    cases b64Realization a.to64 la64 w.to64 q64 mvn64 with
    | error e' => rintro rfl; exact ⟨hf, rfl⟩
    | ok _ => exact fun h => h.elim
  | ok m =>
    cases b64Realization a.to64 la64 w.to64 q64 mvn64 with
    | error e' => exact fun h => h.elim
    | ok m64 =>
      rintro ⟨rfl, r⟩
      obtain ⟨s1, s2⟩ := hs m hm
      obtain ⟨w1, w2, w3, -⟩ := ha.wells w hw
      have p := paths_same hlog hroot htrig ha.npaths hrange w1 w2 w3 ha.duration.1 ha.duration.2 ha.tol.1 ha.tol.2 ha.maxstep.1 ha.maxstep.2 (r s1) s2
      have one : ((1 : ℕ) : Fl).Ordinary := Or.inr (by rw [fl_one]; norm_num)
      have one' : ((1 : ℕ) : B64) = ((1 : ℕ) : Fl).to64 := Is64.to64 one_same.1
      have z := zone_same (x := w.xw) (y := w.yw) (r := w.rw) (D := a.duration) ha.umbra one p hf
      rw [zone_fl] at z
      simp only
      rw [one']
      exact z

theorem loop_same (hlog : LogAccurate) (hroot : RootAccurate) (htrig : TrigAccurate) (hl : LibObs.Accurate) {a : FlRunArgs} (ha : a.Ordinary) (hrange : TrigRange a.npaths) {la64 : B64LinAlg} {la : FlLinAlg}
    (hla : la64.Extends la) {w : FlSWell} (hw : w ∈ a.wells) {u : ℕ → ℕ → Fl} (hu : ∀ i j, (u i j).IsDraw)
    {mvn64 : ℕ → (Fin 6 → B64) → Matrix (Fin 6) (Fin 6) B64 → Except PyErr (Fin 6 → B64)} {mvn : ℕ → (Fin 6 → Fl) → Matrix (Fin 6) (Fin 6) Fl → Except PyErr (Fin 6 → Fl)}
    (hmvn : ∀ i, NormalExtends (mvn64 i) (mvn i)) (k i : ℕ)
    (hd : ∀ j, i ≤ j → j < i + k → ∀ m, flDrawModel a (fun d n => d.sample (u j n)) = .ok m → OrdinaryDraw m.conductivity m.porosity m.thickness (m.wells.map Well.qw))
    (hs : ∀ j, i ≤ j → j < i + k → ∀ m, flRealization a la w (fun d n => d.sample (u j n)) (mvn j) = .ok m → a.Stays w m)
    {c : PField B64} {f : PField Fl} (hf : FieldSame c f) :
    OptAlike (Alike FieldSame) (b64StochasticLoop a.to64 la64 (fun i j => (u i j).to64) mvn64 w.to64 k i c) (flStochasticLoop a la u mvn w k i f) := by
  induction k generalizing i c f with
  | zero => exact hf
  | succ k ih =>
    have r := realize_same hlog hroot htrig hl ha hrange hla hw (q64 := fun d j => d.sample (u i j).to64) (q := fun d j => d.sample (u i j))
      (fun d hd j => (sample_same hd (hu i j)).weaken fun _ _ h => h.1) (hmvn i) (hd i le_rfl (by omega)) (hs i le_rfl (by omega)) hf
    unfold b64StochasticLoop flStochasticLoop
    revert r
    generalize b64Realize _ _ _ _ _ _ = s
    generalize flRealize _ _ _ _ _ _ = t
    intro r
    match s, t, r with
    | none, none, _ => trivial
    | some (c', o), some (f', o'), ⟨r1, r2⟩ =>
      obtain rfl : o = o' := r2
      cases o with
      | error e => rfl
      | ok _ => exact ih (i + 1) (fun j h1 h2 => hd j (by omega) (by omega)) (fun j h1 h2 => hs j (by omega) (by omega)) r1

end

end Oneka
