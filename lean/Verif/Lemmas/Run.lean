import Verif.Lemmas.Capture
import Verif.Props.Capture
import Verif.Lemmas.AquiferX
import Verif.Spec.Run

set_option linter.unusedSectionVars false

namespace Oneka
open PField Aquifer

theorem run_tracks_weight (tracks : List (List (ℝ × ℝ))) (u : ℝ) : ∀ f g : PField ℝ, f.WF → (∀ vs ∈ tracks, vs ≠ []) →
    f.run ((tracks.map fun vs => Event.track vs u).map Event.call) = some g →
    (∀ X Y, g.weightAt X Y = f.weightAt X Y) ∧ g.total = f.total := by
  induction tracks with
  | nil =>
    intro f g _ _ h
    obtain rfl := Option.some.inj h
    exact ⟨fun _ _ => rfl, rfl⟩
  | cons vs tracks ih =>
    intro f g hf hne h
    obtain ⟨f1, e1, v, -⟩ := rasterize_view f hf (vs.map Prod.fst) (vs.map Prod.snd) u
      (by simpa using hne vs (by simp)) (by simp)
    simp only [List.map_cons, Event.call, run, step, e1] at h
    obtain ⟨h1, h2⟩ := ih f1 g v.wf (fun w hw => hne w (List.mem_cons_of_mem _ hw)) h
    exact ⟨fun X Y => (h1 X Y).trans (v.weight X Y), h2.trans v.total⟩

/-- whatever the umbra, one capture zone adds `w` or nothing to each node -/
theorem capture_weight {xt yt rt u w : ℝ} {d tol ms : XR} {fe : ℕ → ℕ → XR × XR → Except PyErr (XR × XR)} {n : ℕ} {f : PField ℝ}
    (hf : f.WF) (hb : f.body ≠ none) {r : CZResult}
    (h : computeCapturezone xt yt rt n d f u w tol ms fe = some r) :
    (∀ X Y, r.field.weightAt X Y = f.weightAt X Y ∨ r.field.weightAt X Y = f.weightAt X Y + w) ∧ StepInv f r.field := by
  obtain ⟨-, -, h3, -, h5⟩ := capture_spec hf (Or.inl hb) h
  obtain ⟨g0, e0, i0⟩ := run_inv ((captureEvents r.traces u w).map Event.call) f hf
  obtain rfl : r.field = g0 := by rw [h3] at e0; exact Option.some.inj e0
  refine ⟨?_, i0⟩
  unfold captureEvents at h3
  rw [List.map_append, run_append] at h3
  cases hrun : f.run ((r.traces.map fun t => Event.track t.path u).map Event.call) with
  | none => rw [hrun] at h3; simp at h3
  | some g =>
    rw [hrun] at h3
    obtain ⟨g', eg, ig⟩ := run_inv ((r.traces.map fun t => Event.track t.path u).map Event.call) f hf
    obtain rfl : g = g' := by rw [hrun] at eg; exact Option.some.inj eg
    obtain ⟨b, hb⟩ := Option.ne_none_iff_exists'.mp hb
    obtain ⟨b', hb', -⟩ := ig.lattice b hb
    obtain ⟨g2, e2, -, -, -, -, w2, -, -⟩ := register_view g ig.wf (by rw [hb']; simp) w
    simp [Event.call, run, step, e2, lift] at h3
    have hw := (run_tracks_weight (r.traces.map Trace.path) u f g hf (by
      intro vs hvs
      obtain ⟨t, ht, rfl⟩ := List.mem_map.mp hvs
      obtain ⟨k, hk, rfl⟩ := List.mem_iff_getElem.mp ht
      unfold Trace.path
      rw [trace_vertices (h5 k _ (List.getElem?_eq_getElem hk))]
      simp) (by simpa [Function.comp_def] using hrun)).1
    intro X Y
    rw [← h3, w2, hw]
    split_ifs
    · right; rfl
    · left; simp

/-- a call with `npaths < -1` raises; one with `npaths = -1` is one with `npaths = 0` -/
theorem capture_toNat {xt yt rt u w : ℝ} {d tol ms : XR} {fe : ℕ → ℕ → XR × XR → Except PyErr (XR × XR)} {n : ℤ} {f : PField ℝ}
    {r : CZResult} (h : computeCapturezone xt yt rt n d f u w tol ms fe = some r) (ho : r.outcome = .ok ()) :
    -1 ≤ n ∧ computeCapturezone xt yt rt (n.toNat : ℕ) d f u w tol ms fe = some r := by
  by_cases hn : n + 1 < 0
  · unfold computeCapturezone startAngles at h
    rw [if_pos hn] at h
    simp only [Option.some.injEq] at h
    rw [← h] at ho
    simp at ho
  · refine ⟨by omega, ?_⟩
    rw [← h]
    rcases (by omega : 0 ≤ n ∨ n = -1) with hn' | rfl
    · rw [Int.toNat_of_nonneg hn']
    · have e : startAngles ((-1 : ℤ).toNat : ℕ) = startAngles (-1) := by
        unfold startAngles
        simp [show (-1 : ℤ).toNat = 0 from rfl]
      unfold computeCapturezone
      rw [e]

theorem drawWells_ok {q : Dist → ℕ → Except PyErr ℝ} : ∀ (ws : List SWell) (j : ℕ) (r : List (Well ℝ)), drawWells q ws j = .ok r →
    r.length = ws.length ∧ ∀ (i : ℕ) (w : SWell), ws[i]? = some w → ∃ d, r[i]? = some ⟨w.xw, w.yw, w.rw, d⟩ ∧ q w.q (j + i) = .ok d := by
  intro ws
  induction ws with
  | nil => intro j r h; obtain rfl := Except.ok.inj h; simp
  | cons w ws ih =>
    intro j r h
    unfold drawWells at h
    cases hq : q w.q j with
    | error e => rw [hq] at h; simp at h
    | ok v =>
      rw [hq] at h
      simp only at h
      cases hr : drawWells q ws (j + 1) with
      | error e => rw [hr] at h; simp at h
      | ok r' =>
        rw [hr] at h
        obtain rfl := Except.ok.inj h
        obtain ⟨h1, h2⟩ := ih _ _ hr
        refine ⟨by simp [h1], fun i w' hi => ?_⟩
        cases i with
        | zero =>
          obtain rfl : w = w' := by simpa using hi
          exact ⟨v, by simp, by simpa using hq⟩
        | succ i =>
          obtain ⟨d, hd1, hd2⟩ := h2 i w' (by simpa using hi)
          exact ⟨d, by simpa using hd1, by rwa [show j + 1 + i = j + (i + 1) by ring] at hd2⟩

theorem drawModel_ok {a : RunArgs} {q : Dist → ℕ → Except PyErr ℝ} {m : Aquifer ℝ} (h : drawModel a q = .ok m) :
    m.base = a.base ∧ drawWells q a.wells 0 = .ok m.wells ∧ q a.cDist a.wells.length = .ok m.conductivity ∧
    q a.pDist (a.wells.length + 1) = .ok m.porosity ∧ q a.tDist (a.wells.length + 2) = .ok m.thickness := by
  unfold drawModel at h
  split at h <;> [simp at h; skip]
  rename_i ws h1
  split at h <;> [simp at h; skip]
  rename_i c h2
  split at h <;> [simp at h; skip]
  rename_i p h3
  split at h <;> [simp at h; skip]
  rename_i t h4
  obtain rfl := Except.ok.inj h
  exact ⟨rfl, h1, h2, h3, h4⟩

theorem drawWells_of {q : Dist → ℕ → Except PyErr ℝ} : ∀ (ws : List SWell) (j : ℕ) (r : List (Well ℝ)), r.length = ws.length →
    (∀ (i : ℕ) (w : SWell), ws[i]? = some w → ∃ d, r[i]? = some ⟨w.xw, w.yw, w.rw, d⟩ ∧ q w.q (j + i) = .ok d) → drawWells q ws j = .ok r := by
  intro ws
  induction ws with
  | nil => intro j r h _; obtain rfl := List.length_eq_zero_iff.mp h; rfl
  | cons w ws ih =>
    intro j r hl h
    cases r with
    | nil => simp at hl
    | cons r0 r =>
      obtain ⟨d, h1, h2⟩ := h 0 w (by simp)
      obtain rfl : r0 = ⟨w.xw, w.yw, w.rw, d⟩ := by simpa using h1
      unfold drawWells
      rw [show q w.q j = .ok d by simpa using h2]
      simp only
      rw [ih (j + 1) r (by simpa using hl) (fun i w' hi => by
        obtain ⟨d', h3, h4⟩ := h (i + 1) w' (by simpa using hi)
        exact ⟨d', by simpa using h3, by rwa [show j + 1 + i = j + (i + 1) by ring]⟩)]

theorem drawModel_iff {a : RunArgs} {q : Dist → ℕ → Except PyErr ℝ} {m : Aquifer ℝ} : drawModel a q = .ok m ↔ DrawnModel a q m := by
  constructor
  · intro h
    obtain ⟨h1, h2, h3, h4, h5⟩ := drawModel_ok h
    obtain ⟨w1, w2⟩ := drawWells_ok _ _ _ h2
    have h6 : (m.xo = 0 ∧ m.yo = 0) ∧ m.coef = fun _ => 0 := by
      unfold drawModel at h
      rw [h2, h3, h4, h5] at h
      have e := Except.ok.inj h
      exact ⟨⟨(congrArg Aquifer.xo e).symm, (congrArg Aquifer.yo e).symm⟩, (congrArg Aquifer.coef e).symm⟩
    exact ⟨h1, w1, fun j w hj => by simpa using w2 j w hj, h3, h4, h5, h6.1, h6.2⟩
  · intro h
    unfold drawModel
    rw [drawWells_of a.wells 0 m.wells h.wells_length (fun i w hi => by simpa using h.wells i w hi), h.conductivity, h.porosity, h.thickness]
    obtain ⟨b, c, p, t, w, xo, yo, co⟩ := m
    obtain ⟨h1, -, -, -, -, -, ⟨h2, h3⟩, h4⟩ := h
    simp only at h1 h2 h3 h4
    subst h1 h2 h3 h4
    rfl

theorem drawWells_error {q : Dist → ℕ → Except PyErr ℝ} {e : PyErr} : ∀ (ws : List SWell) (j : ℕ), drawWells q ws j = .error e →
    ∃ (i : ℕ) (w : SWell), ws[i]? = some w ∧ q w.q (j + i) = .error e := by
  intro ws
  induction ws with
  | nil => intro j h; simp [drawWells] at h
  | cons w ws ih =>
    intro j h
    unfold drawWells at h
    cases hq : q w.q j with
    | error e' =>
      rw [hq] at h
      obtain rfl : e' = e := by simpa using h
      exact ⟨0, w, by simp, by simpa using hq⟩
    | ok v =>
      rw [hq] at h
      simp only at h
      cases hr : drawWells q ws (j + 1) with
      | ok r => rw [hr] at h; simp at h
      | error e' =>
        rw [hr] at h
        obtain rfl : e' = e := by simpa using h
        obtain ⟨i, w', h1, h2⟩ := ih _ hr
        exact ⟨i + 1, w', by simpa using h1, by rwa [show j + 1 + i = j + (i + 1) by ring] at h2⟩

theorem drawModel_error {a : RunArgs} {q : Dist → ℕ → Except PyErr ℝ} {e : PyErr} (h : drawModel a q = .error e) : DrawFails a q e := by
  unfold drawModel at h
  split at h
  · rename_i e' h1
    obtain rfl : e' = e := by simpa using h
    obtain ⟨i, w, h2, h3⟩ := drawWells_error _ _ h1
    exact .inl ⟨i, w, h2, by simpa using h3⟩
  split at h
  · rename_i e' h1
    obtain rfl : e' = e := by simpa using h
    exact .inr (.inl h1)
  split at h
  · rename_i e' h1
    obtain rfl : e' = e := by simpa using h
    exact .inr (.inr (.inl h1))
  split at h
  · rename_i e' h1
    obtain rfl : e' = e := by simpa using h
    exact .inr (.inr (.inr h1))
  · simp at h

theorem DrawnModel.not_fails {a : RunArgs} {q : Dist → ℕ → Except PyErr ℝ} {m : Aquifer ℝ} {e : PyErr} (h : DrawnModel a q m) : ¬ DrawFails a q e := by
  rintro (⟨j, w, h1, h2⟩ | h2 | h2 | h2)
  · obtain ⟨d, -, h3⟩ := h.wells j w h1
    rw [h3] at h2; simp at h2
  · rw [h.conductivity] at h2; simp at h2
  · rw [h.porosity] at h2; simp at h2
  · rw [h.thickness] at h2; simp at h2

theorem DrawnModel.unique {a : RunArgs} {q : Dist → ℕ → Except PyErr ℝ} {m m' : Aquifer ℝ} (h : DrawnModel a q m) (h' : DrawnModel a q m') : m = m' := by
  have := (drawModel_iff.mpr h).symm.trans (drawModel_iff.mpr h')
  exact Except.ok.inj this

theorem constructFit_congr {m m' : Aquifer ℝ} (hb : m'.base = m.base) (hc : m'.conductivity = m.conductivity)
    (ht : m'.thickness = m.thickness) (hw : m'.wells = m.wells) (xo yo : ℝ) (obs : List Obs) :
    m'.constructFit xo yo obs = m.constructFit xo yo obs := by
  induction obs with
  | nil => rfl
  | cons o os ih =>
    have e : m'.fitRow xo yo o = m.fitRow xo yo o := by
      unfold fitRow fosm potentialWells toX
      simp only [hb, hc, ht, hw]
    unfold constructFit
    rw [e, ih]

/-- the outcome of a fit does not depend on the coefficients and the origin of the model before the fit -/
theorem fit_congr {la : LinAlg} {m m' : Aquifer ℝ} (hb : m'.base = m.base) (hc : m'.conductivity = m.conductivity)
    (ht : m'.thickness = m.thickness) (hw : m'.wells = m.wells) (xo yo : ℝ) (obs : List Obs) :
    (m'.fitRegionalFlow la obs xo yo).2 = (m.fitRegionalFlow la obs xo yo).2 := by
  unfold fitRegionalFlow
  rw [constructFit_congr hb hc ht hw]
  split
  · rfl
  · split <;> rfl

theorem fit_model {la : LinAlg} {m m' : Aquifer ℝ} {obs : List Obs} {xo yo : ℝ} {p : (Fin 6 → ℝ) × Matrix (Fin 6) (Fin 6) ℝ}
    (h : m.fitRegionalFlow la obs xo yo = (m', .ok p)) : m' = { m with xo := xo, yo := yo, coef := p.1 } := by
  unfold fitRegionalFlow at h
  split at h
  · simp at h
  · split at h
    · simp at h
    · simp only [Prod.mk.injEq, Except.ok.injEq] at h
      rw [← h.1, ← h.2]

open Classical in
/-- One realization of a run. -/
theorem realize_spec {a : RunArgs} {la : LinAlg} {t : SWell} {q : Dist → ℕ → Except PyErr ℝ}
    {coefs : (Fin 6 → ℝ) → Matrix (Fin 6) (Fin 6) ℝ → Except PyErr (Fin 6 → ℝ)} {recharge : (Fin 6 → ℝ) → ℝ}
    {interrupt : ℕ → ℕ → Option PyErr} {f f' : PField ℝ} {b : Body ℝ} {l : List RealizationLog} (hf : f.Reachable) (hb : f.body = some b)
    (hclean : ∀ X Y, ¬ f.markedAt X Y)
    (h : realize a la t q coefs recharge interrupt f = some (.ok f', l)) :
    ∃ L, l = [L] ∧ Realized a la t q coefs interrupt L ∧ L.recharge = recharge L.model.coef ∧
      f'.Reachable ∧ StepInv f f' ∧ (∀ X Y, ¬ f'.markedAt X Y) ∧
      (∀ X Y, f'.weightAt X Y = f.weightAt X Y ∨ f'.weightAt X Y = f.weightAt X Y + 1) ∧
      f'.total = f.total + 1 ∧
      (0 ≤ a.umbra → ∀ X Y, f.IsNode X Y ∨ (OnLattice b.xmin b.ymin f.deltax f.deltay X Y ∧ a.umbra ≤ f.deltax ∧ a.umbra ≤ f.deltay) →
        f'.weightAt X Y = f.weightAt X Y + if L.Captures a.umbra X Y then 1 else 0) := by
  unfold realize at h
  split at h <;> [simp at h; skip]
  rename_i mo hmo
  split at h
  · simp at h
  rename_i mo' ev cov hfit
  split at h <;> [simp at h; skip]
  rename_i c hc
  simp only at h
  split at h <;> [simp at h; skip]
  rename_i r hr
  simp only [Option.some.injEq, Prod.mk.injEq] at h
  obtain ⟨ho, rfl⟩ := h
  have hout : r.outcome = .ok () := by
    cases hro : r.outcome with
    | ok _ => rfl
    | error e => rw [hro] at ho; simp [Except.map] at ho
  rw [hout] at ho
  obtain rfl := Except.ok.inj ho
  obtain ⟨hn, hr'⟩ := capture_toNat hr hout
  have hwf := reachable_wf hf
  have hbn : f.body ≠ none := by rw [hb]; simp
  obtain ⟨-, hlen, hrun, -, htr⟩ := capture_spec hwf (Or.inl hbn) hr'
  obtain ⟨hw, hinv⟩ := capture_weight hwf hbn hr'
  obtain ⟨d1, d2, d3, d4, d5⟩ := drawModel_ok hmo
  obtain ⟨w1, w2⟩ := drawWells_ok _ _ _ d2
  have e := fit_model hfit
  subst e
  refine ⟨_, rfl, ?_, rfl, ?_, hinv, ?_, hw, ?_, ?_⟩
  · refine ⟨d1, w1, ?_, d3, d4, d5, ⟨rfl, rfl⟩, ?_, hc, hlen, ?_⟩
    · intro j w hj
      obtain ⟨d, x, y⟩ := w2 j w hj
      exact ⟨d, x, by simpa using y⟩
    · rw [← show (mo.fitRegionalFlow la a.obs t.xw t.yw).2 = .ok (ev, cov) by rw [hfit]]
      refine fit_congr ?_ ?_ ?_ ?_ _ _ _ <;> rfl
    · intro k tr hk
      have := htr k tr hk
      have e1 : (startAt t.xw t.yw t.rw ((k:ℝ) * (2 * Real.pi / (a.npaths.toNat : ℕ)))) =
          (t.xw + (t.rw + 1) * Real.cos (2 * Real.pi * k / a.npaths), t.yw + (t.rw + 1) * Real.sin (2 * Real.pi * k / a.npaths)) := by
        have hk' := (List.getElem?_eq_some_iff.mp hk).1
        have hpos : 0 ≤ a.npaths := by
          by_contra hcon
          have : a.npaths.toNat = 0 := by omega
          have hlen' : r.traces.length = a.npaths.toNat := hlen
          simp only at hk'
          omega
        have hcast : ((a.npaths.toNat : ℕ) : ℝ) = (a.npaths : ℝ) := by
          have := Int.toNat_of_nonneg hpos
          exact_mod_cast this
        unfold startAt
        rw [hcast, show (k:ℝ) * (2 * Real.pi / a.npaths) = 2 * Real.pi * k / a.npaths by ring]
        ext <;> simp only <;> ring
      rw [e1] at this
      simp only [Aquifer.reverseVelocity_eq]
      exact this
  · obtain ⟨dx, dy, xo, yo, f0, cs, h1, h2⟩ := hf
    exact ⟨dx, dy, xo, yo, f0, cs ++ _, h1, by rw [run_append, h2]; exact hrun⟩
  · -- marks: use umbra-free argument: the last call is a register
    unfold captureEvents at hrun
    rw [List.map_append, run_append] at hrun
    cases hg : f.run ((r.traces.map fun t => Event.track t.path a.umbra).map Event.call) with
    | none => rw [hg] at hrun; simp at hrun
    | some g =>
      rw [hg] at hrun
      obtain ⟨g', eg, ig⟩ := run_inv ((r.traces.map fun t => Event.track t.path a.umbra).map Event.call) f hwf
      obtain rfl : g = g' := by rw [hg] at eg; exact Option.some.inj eg
      obtain ⟨b', hb', -⟩ := ig.lattice b hb
      obtain ⟨g2, e2, -, -, -, -, -, m2, -⟩ := register_view g ig.wf (by rw [hb']; simp) 1
      simp [Event.call, run, step, e2, lift] at hrun
      rw [← hrun]
      exact m2
  · unfold captureEvents at hrun
    rw [List.map_append, run_append] at hrun
    cases hg : f.run ((r.traces.map fun t => Event.track t.path a.umbra).map Event.call) with
    | none => rw [hg] at hrun; simp at hrun
    | some g =>
      have ht := (run_tracks_weight (r.traces.map Trace.path) a.umbra f g hwf (by
        intro vs hvs
        obtain ⟨t, ht, rfl⟩ := List.mem_map.mp hvs
        obtain ⟨k, hk, rfl⟩ := List.mem_iff_getElem.mp ht
        unfold Trace.path
        rw [trace_vertices (htr k _ (List.getElem?_eq_getElem hk))]
        simp) (by simpa [Function.comp_def] using hg)).2
      rw [hg] at hrun
      obtain ⟨g', eg, ig⟩ := run_inv ((r.traces.map fun t => Event.track t.path a.umbra).map Event.call) f hwf
      obtain rfl : g = g' := by rw [hg] at eg; exact Option.some.inj eg
      obtain ⟨b', hb', -⟩ := ig.lattice b hb
      obtain ⟨g2, e2, -, -, -, t2, -, -, -⟩ := register_view g ig.wf (by rw [hb']; simp) 1
      simp [Event.call, run, step, e2, lift] at hrun
      rw [← hrun, t2, ht]
  · intro hu X Y hXY
    obtain ⟨-, -, -, h4, -, -⟩ := C28_one_realization hf hb hclean hu hr'
    refine (h4 X Y hXY).trans ?_
    congr 1
    by_cases hcap : ∃ t ∈ r.traces, NearTrack t.path a.umbra X Y
    · rw [if_pos hcap]; exact (if_pos hcap).symm
    · rw [if_neg hcap]; exact (if_neg hcap).symm

theorem onLattice_trans {x y x' y' dx dy X Y : ℝ} (h : OnLattice x y dx dy x' y') (h2 : OnLattice x y dx dy X Y) :
    OnLattice x' y' dx dy X Y := by
  obtain ⟨p, q, rfl, rfl⟩ := h
  obtain ⟨p', q', rfl, rfl⟩ := h2
  exact ⟨p' - p, q' - q, by push_cast; ring, by push_cast; ring⟩

open Classical in
theorem loop_spec {a : RunArgs} {env : Env} {t : SWell} : ∀ (k i : ℕ) (f : PField ℝ) (b : Body ℝ) (acc : List RealizationLog) (r : RunResult)
    (f' : PField ℝ),
    f.Reachable → f.body = some b → (∀ X Y, ¬ f.markedAt X Y) → stochasticLoop a env t k i f acc = some r → r.outcome = .ok f' →
    ∃ ls, r.log = acc ++ ls ∧ ls.length = k ∧
      (∀ (j : ℕ) (L : RealizationLog), ls[j]? = some L →
        Realized a env.la t (fun d m => d.sample (env.u (i + j) m)) (env.mvn (i + j)) (env.interrupt (i + j)) L ∧
          L.recharge = 2 * (L.model.coef 0 + L.model.coef 1)) ∧
      f'.Reachable ∧ StepInv f f' ∧ (∀ X Y, ¬ f'.markedAt X Y) ∧
      (∀ X Y, ∃ m : ℕ, m ≤ k ∧ f'.weightAt X Y = f.weightAt X Y + m) ∧ f'.total = f.total + k ∧
      (0 ≤ a.umbra → ∀ X Y, f.IsNode X Y ∨ (OnLattice b.xmin b.ymin f.deltax f.deltay X Y ∧ a.umbra ≤ f.deltax ∧ a.umbra ≤ f.deltay) →
        f'.weightAt X Y = f.weightAt X Y + (ls.countP fun L => L.Captures a.umbra X Y)) := by
  intro k
  induction k with
  | zero =>
    intro i f b acc r f' hf hb hc h ho
    obtain rfl := Option.some.inj h
    obtain rfl := Except.ok.inj ho
    exact ⟨[], by simp, rfl, by simp, hf, .refl (reachable_wf hf), hc, fun X Y => ⟨0, le_rfl, by simp⟩, by simp, by simp⟩
  | succ k ih =>
    intro i f b acc r f' hf hb hc h ho
    unfold stochasticLoop at h
    split at h
    · simp at h
    · obtain rfl := Option.some.inj h
      simp at ho
    · rename_i f1 l hreal
      obtain ⟨L, rfl, hL, hrc, hf1, i1, c1, w1, t1, p1⟩ := realize_spec hf hb hc hreal
      obtain ⟨b1, hb1, hlat⟩ := i1.lattice b hb
      obtain ⟨ls, a1, a2, a3, a4, a5, a6, a7, a8, a9⟩ := ih (i+1) f1 b1 _ r f' hf1 hb1 c1 h ho
      refine ⟨L :: ls, by rw [a1]; simp, by simp [a2], ?_, a4, i1.trans a5, a6, ?_, ?_, ?_⟩
      · intro j L' hj
        cases j with
        | zero =>
          obtain rfl : L = L' := by simpa using hj
          exact ⟨hL, hrc⟩
        | succ j =>
          have := a3 j L' (by simpa using hj)
          rwa [show i + 1 + j = i + (j + 1) by ring] at this
      · intro X Y
        obtain ⟨m, hm, e⟩ := a7 X Y
        rcases w1 X Y with hw | hw
        · exact ⟨m, by omega, by rw [e, hw]⟩
        · exact ⟨m + 1, by omega, by rw [e, hw]; push_cast; ring⟩
      · rw [a8, t1]; push_cast; ring
      · intro hu X Y hXY
        rw [a9 hu X Y, p1 hu X Y hXY, List.countP_cons]
        · by_cases hcap : L.Captures a.umbra X Y
          · simp [hcap]; ring
          · simp [hcap]
        · rcases hXY with h | ⟨h1, h2, h3⟩
          · exact Or.inl (i1.nodes X Y h)
          · refine Or.inr ⟨?_, by rw [i1.dx]; exact h2, by rw [i1.dy]; exact h3⟩
            rw [i1.dx, i1.dy]
            exact onLattice_trans hlat h1

/-- the fresh field of a run -/
theorem new_spec {s xo yo : ℝ} {f : PField ℝ} (h : PField.new s s (some xo) (some yo) = .ok f) :
    0 < s ∧ f.deltax = s ∧ f.deltay = s ∧ f.total = 0 ∧ f.Reachable ∧ (∀ X Y, ¬ f.markedAt X Y) ∧ (∀ X Y, f.weightAt X Y = 0) ∧
    (∃ b, f.body = some b ∧ b.xmin = xo - s ∧ b.ymin = yo - s) ∧ f.nrows = 3 ∧ f.ncols = 3 := by
  have hr : f.Reachable := ⟨s, s, some xo, some yo, f, [], h, rfl⟩
  have hwf := reachable_wf hr
  unfold PField.new at h
  split_ifs at h
  simp only [Except.ok.injEq] at h
  subst h
  refine ⟨hwf.dx_pos, rfl, rfl, rfl, hr, ?_, ?_, ⟨_, rfl, rfl, rfl⟩, rfl, rfl⟩
  · intro X Y hm
    rw [markedAt_iff _ _ hwf rfl] at hm
    obtain ⟨i, j, _, _, _, _, hm⟩ := hm
    simp [Grid.full] at hm
  · intro X Y
    rcases lookAt_cases _ _ hwf.dx_pos hwf.dy_pos rfl Body.pgrid 0 X Y with ⟨i, j, hi, hj, hX, hY, hv⟩ | ⟨hn, hv⟩
    · unfold weightAt; rw [hv]; rfl
    · exact hv

theorem getWell_nat {ws : List SWell} {k : ℕ} {t : SWell} (h : ws[k]? = some t) : getWell ws k = .ok t := by
  unfold getWell
  have : ¬ ((k : ℤ) < 0) := by omega
  simp [this, h]

end Oneka
