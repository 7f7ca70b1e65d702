import Verif.Lemmas.Area
import Verif.Props.Zones
import Verif.Props.CaptureExact
import Verif.Props.Reach
import Verif.Lemmas.AreaStill

/-!
# C149: how accurate the reported areas are

The area of a capture zone is reported as the number of recorded nodes times the area of a cell. `area` is the true area (Lebesgue measure), `strip` and `manyStrips` are sets of places (Spec/Area.lean). Examples: Props/AreaExamples.lean.
-/

namespace Oneka

open MeasureTheory

/-- **C149.** In general: the cells around the nodes in a set of places cover all places that are farther than half a diagonal from its border, and reach no farther than half a diagonal beyond it. -/
theorem C149_cells {xo yo s : ℝ} (hs : 0 < s) (Z : Set (ℝ × ℝ)) (hZ : {p : ℝ × ℝ | OnLattice xo yo s s p.1 p.2 ∧ p ∈ Z}.Finite) :
    area {p | ∀ q, euclid p q ≤ 71/100 * s → q ∈ Z} ≤ ENNReal.ofReal ({p : ℝ × ℝ | OnLattice xo yo s s p.1 p.2 ∧ p ∈ Z}.ncard * s ^ 2) ∧
    ENNReal.ofReal ({p : ℝ × ℝ | OnLattice xo yo s s p.1 p.2 ∧ p ∈ Z}.ncard * s ^ 2) ≤ area {p | ∃ q ∈ Z, euclid q p ≤ 71/100 * s} := by
  rw [Set.ncard_eq_toFinset_card _ hZ]
  exact cells_bounds (xo := xo) (yo := yo) hs Z hZ.toFinset (fun p => by simp) (fun p hp q h1 h2 => hp q (half_diagonal hs h1 h2)) fun p hp q h1 h2 => ⟨p, hp, half_diagonal hs h1 h2⟩

/-- **C149.** The area of the zone of a realization is at least that of any strip around its traces that is narrower than the umbra by half a diagonal of a cell (on each side), and at most that of the strip that is wider by as much. -/
theorem C149_zone (L : RealizationLog) (xo yo : ℝ) {s u : ℝ} (hs : 0 < s) (hu : 0 ≤ u) :
    (∀ v, 0 ≤ v → v + 71/100 * s ≤ u → area (L.strip v) ≤ ENNReal.ofReal (L.zoneArea xo yo s u)) ∧ ENNReal.ofReal (L.zoneArea xo yo s u) ≤ area (L.strip (u + 71/100 * s)) := by
  obtain ⟨h1, h2⟩ := C149_cells hs (xo := xo) (yo := yo) (L.strip u) (zone_finite L hs u)
  refine ⟨fun v hv hvu => le_trans (measure_mono ?_) h1, h2.trans (measure_mono ?_)⟩
  · intro p hp q hq
    exact captures_more (by positivity) hvu (captures_shift hv hq hp)
  · rintro p ⟨q, hq, hpq⟩
    exact captures_shift hu hpq hq

/-- **C149** for every returning call with at most one realization, if the umbra does not exceed the spacing: the area in the log. -/
theorem C149_deterministic (a : PyArgs) (n : Inputs) (env : CallEnv) (v : PyVal) (hd : a.Denotes n) (h1 : n.nrealizations ≤ 1) (h : (oneka a env).ending = .returns v) (hu : n.run.umbra ≤ n.run.spacing) :
    ∃ (L : RealizationLog) (A : ℝ), realizations (oneka a env).events = [L] ∧ areas (oneka a env).events = [A] ∧
      (∀ w, 0 ≤ w → w + 71/100 * n.run.spacing ≤ n.run.umbra → area (L.strip w) ≤ ENNReal.ofReal A) ∧ ENNReal.ofReal A ≤ area (L.strip (n.run.umbra + 71/100 * n.run.spacing)) := by
  obtain ⟨-, -, ha, -⟩ := returned_course h
  obtain ⟨-, -, hs, hu0, -⟩ := accepted_inputs ha hd
  obtain ⟨k, t, L, -, -, h3, h4⟩ := C140_deterministic a n env v hd h1 h hu
  exact ⟨L, _, h3, h4, C149_zone L t.xw t.yw hs hu0.le⟩

/-- **C149** for every returning call with more realizations: the area of the cells with a probability above `θ` in the archived field, and the lines of the table in the log (which add a cell, see C54). -/
theorem C149_stochastic (a : PyArgs) (n : Inputs) (env : CallEnv) (v : PyVal) (hd : a.Denotes n) (h1 : 1 < n.nrealizations) (h : (oneka a env).ending = .returns v) (hu : n.run.umbra ≤ n.run.spacing)
    (fs : Files) :
    ∃ (d : Dict) (f : PField ℝ),
      loadOneka ((oneka a env).events.foldl Effect.apply fs) env.now.archiveName = .ok d ∧ d.get "pfield" = some (.field (.field f)) ∧
      (∀ θ, 0 ≤ θ → (∀ w, 0 ≤ w → w + 71/100 * n.run.spacing ≤ n.run.umbra → area (manyStrips (realizations (oneka a env).events) w θ) ≤ ENNReal.ofReal (f.areaWhere n.run.spacing (fun p => θ < p))) ∧
        ENNReal.ofReal (f.areaWhere n.run.spacing (fun p => θ < p)) ≤ area (manyStrips (realizations (oneka a env).events) (n.run.umbra + 71/100 * n.run.spacing) θ)) ∧
      ∀ (i : ℕ) (l : ℝ × ℝ), (decileLines (oneka a env).events)[i]? = some l →
        ENNReal.ofReal (l.2 - n.run.spacing ^ 2) ≤ area (manyStrips (realizations (oneka a env).events) (n.run.umbra + 71/100 * n.run.spacing) (5/100 * ((i:ℝ) + 1))) ∧
        ((f.nodesWhere (fun p => p ≤ 5/100 * ((i:ℝ) + 1))).Nonempty → ∀ w, 0 ≤ w → w + 71/100 * n.run.spacing ≤ n.run.umbra →
          area (manyStrips (realizations (oneka a env).events) w (5/100 * ((i:ℝ) + 1))) ≤ ENNReal.ofReal (l.2 - n.run.spacing ^ 2)) := by
  classical
  obtain ⟨-, -, ha, -⟩ := returned_course h
  obtain ⟨-, -, hs, hu0, -⟩ := accepted_inputs ha hd
  obtain ⟨d, f, k, t, c1, c2, c3, c4, hc⟩ := archived_counts hd h1 h hu fs
  set Ls := realizations (oneka a env).events with hLs
  have hN := hc.length_pos
  have key : ∀ θ, 0 ≤ θ → f.nodesWhere (fun p => θ < p) = {p : ℝ × ℝ | OnLattice t.xw t.yw n.run.spacing n.run.spacing p.1 p.2 ∧ p ∈ manyStrips Ls n.run.umbra θ} := by
    intro θ h0
    ext p
    simp only [PField.nodesWhere, manyStrips, Set.mem_setOf_eq]
    constructor
    · rintro ⟨hp, hw⟩
      refine ⟨hc.lattice _ _ hp, ?_⟩
      rw [hc.prob ((hc.mem p).mpr hp), lt_div_iff₀ hN] at hw
      exact hw
    · rintro ⟨hl, hw⟩
      have hp : f.IsNode p.1 p.2 := by
        by_contra hn
        have e := hc.weight p.1 p.2 hl
        rw [weight_off hn] at e
        rw [← e] at hw
        have : 0 ≤ θ * (Ls.length : ℝ) := by positivity
        linarith
      refine ⟨hp, ?_⟩
      rw [hc.prob ((hc.mem p).mpr hp), lt_div_iff₀ hN]
      exact hw
  have more : ∀ {w w' : ℝ} {p q : ℝ × ℝ}, (∀ L : RealizationLog, L.Captures w p.1 p.2 → L.Captures w' q.1 q.2) → ∀ θ, p ∈ manyStrips Ls w θ → q ∈ manyStrips Ls w' θ := by
    intro w w' p q hL θ hp
    have hp' : θ * Ls.length < (Ls.countP fun L => L.Captures w p.1 p.2 : ℕ) := hp
    refine lt_of_lt_of_le hp' ?_
    exact_mod_cast List.countP_mono_left fun L _ => by simpa using hL L
  have main : ∀ θ, 0 ≤ θ → (∀ w, 0 ≤ w → w + 71/100 * n.run.spacing ≤ n.run.umbra → area (manyStrips Ls w θ) ≤ ENNReal.ofReal (f.areaWhere n.run.spacing (fun p => θ < p))) ∧
      ENNReal.ofReal (f.areaWhere n.run.spacing (fun p => θ < p)) ≤ area (manyStrips Ls (n.run.umbra + 71/100 * n.run.spacing) θ) := by
    intro θ h0
    have hfin := hc.finite fun p => θ < p
    unfold PField.areaWhere
    rw [key θ h0] at hfin ⊢
    obtain ⟨g1, g2⟩ := C149_cells hs (xo := t.xw) (yo := t.yw) (manyStrips Ls n.run.umbra θ) hfin
    refine ⟨fun w hw hwu => le_trans (measure_mono ?_) g1, g2.trans (measure_mono ?_)⟩
    · intro p hp q hq
      exact more (fun L hL => captures_more (by positivity) hwu (captures_shift hw hq hL)) θ hp
    · rintro p ⟨q, hq, hpq⟩
      exact more (fun L hL => captures_shift hu0.le hpq hL) θ hq
  refine ⟨d, f, c1, c2, main, fun i l hi => ?_⟩
  obtain ⟨d', f', -, -, -, -, -, -, -, e1, e2, -, -, -, -, -, -, -, -, -, -, -, -, -, -, e3, e4⟩ := C69_stochastic a n env v hd h1 h fs
  obtain rfl : d' = d := Except.ok.inj (e1.symm.trans c1)
  obtain rfl : f' = f := by rw [c2] at e2; simpa using e2.symm
  obtain ⟨m1, m2⟩ := main (5/100 * ((i:ℝ) + 1)) (by positivity)
  by_cases hne : (f'.nodesWhere (fun w => w ≤ 5/100 * ((i:ℝ) + 1))).Nonempty
  · rw [(e3 i l hi hne).2, add_sub_cancel_right]
    exact ⟨m2, fun _ => m1⟩
  · rw [(e4.1 i l hi (Set.not_nonempty_iff_eq_empty.mp hne)).2, sub_self]
    exact ⟨by simp, fun h => absurd h hne⟩

/-- **C149.** The upper bounds hold for every umbra: no area in a log or an archive is more than that of the strips that are wider by half a diagonal. -/
theorem C149_upper (a : PyArgs) (n : Inputs) (env : CallEnv) (v : PyVal) (hd : a.Denotes n) (h : (oneka a env).ending = .returns v) (fs : Files) :
    ∃ (d : Dict) (f : PField ℝ),
      loadOneka ((oneka a env).events.foldl Effect.apply fs) env.now.archiveName = .ok d ∧ d.get "pfield" = some (.field (.field f)) ∧
      (∀ θ, 0 ≤ θ → ENNReal.ofReal (f.areaWhere n.run.spacing (fun p => θ < p)) ≤ area (manyStrips (realizations (oneka a env).events) (n.run.umbra + 71/100 * n.run.spacing) θ)) ∧
      (∀ A ∈ areas (oneka a env).events, ENNReal.ofReal A ≤ area (manyStrips (realizations (oneka a env).events) (n.run.umbra + 71/100 * n.run.spacing) 0)) ∧
      ∀ (i : ℕ) (l : ℝ × ℝ), (decileLines (oneka a env).events)[i]? = some l →
        ENNReal.ofReal (l.2 - n.run.spacing ^ 2) ≤ area (manyStrips (realizations (oneka a env).events) (n.run.umbra + 71/100 * n.run.spacing) (5/100 * ((i:ℝ) + 1))) := by
  classical
  obtain ⟨-, -, ha, -⟩ := returned_course h
  obtain ⟨-, -, hs, hu0, -⟩ := accepted_inputs ha hd
  obtain ⟨d, f, k, t, c1, c2, -, -, hlen, hnode, hwt⟩ := C74_archived a n env v hd h fs
  set Ls := realizations (oneka a env).events with hLs
  have hN : (0:ℝ) < Ls.length := by
    have : (0:ℤ) < Ls.length := by rw [hlen]; exact lt_of_lt_of_le one_pos (le_max_left _ _)
    exact_mod_cast this
  have htot : f.total = Ls.length := by
    have hlen' : (Ls.length : ℝ) = ((max 1 n.nrealizations : ℤ) : ℝ) := by exact_mod_cast congrArg (fun z : ℤ => (z:ℝ)) hlen
    rw [hlen']
    rcases lt_or_ge 1 n.nrealizations with h1 | h1
    · obtain ⟨d', f', -, -, -, e1, e2, -, -, -, -, -, -, e3, -⟩ := C68_stochastic a n env v hd h1 h fs
      obtain rfl : d' = d := Except.ok.inj (e1.symm.trans c1)
      obtain rfl : f' = f := by rw [c2] at e2; simpa using e2.symm
      rw [e3, max_eq_right h1.le]
    · obtain ⟨d', f', -, -, -, -, e1, e2, -, -, -, -, -, -, e3, -⟩ := C68_deterministic a n env v hd h1 h fs
      obtain rfl : d' = d := Except.ok.inj (e1.symm.trans c1)
      obtain rfl : f' = f := by rw [c2] at e2; simpa using e2.symm
      rw [e3, max_eq_left h1, Int.cast_one]
  have hle : ∀ X Y, f.IsNode X Y → f.weightAt X Y ≤ (Ls.countP fun L => L.Captures n.run.umbra X Y : ℕ) := by
    intro X Y hn
    rw [hwt X Y hn]
    exact_mod_cast recorded_le Ls _ _ _ _ X Y
  have wide : ∀ θ, ∀ p ∈ manyStrips Ls n.run.umbra θ, ∀ q : ℝ × ℝ, |q.1 - p.1| ≤ n.run.spacing / 2 → |q.2 - p.2| ≤ n.run.spacing / 2 → q ∈ manyStrips Ls (n.run.umbra + 71/100 * n.run.spacing) θ := by
    intro θ p hp q h1 h2
    have hp' : θ * Ls.length < (Ls.countP fun L => L.Captures n.run.umbra p.1 p.2 : ℕ) := hp
    refine lt_of_lt_of_le hp' ?_
    exact_mod_cast List.countP_mono_left fun L _ => by
      simp only [decide_eq_true_eq]
      exact captures_shift hu0.le (half_diagonal hs h1 h2)
  have main : ∀ θ, 0 ≤ θ → ENNReal.ofReal (f.areaWhere n.run.spacing (fun p => θ < p)) ≤ area (manyStrips Ls (n.run.umbra + 71/100 * n.run.spacing) θ) := by
    intro θ _
    refine cells_upper (xo := t.xw) (yo := t.yw) hs (Z := manyStrips Ls n.run.umbra θ) ?_ (wide θ)
    rintro p ⟨hp, hw⟩
    refine ⟨((hnode _ _).mp hp).1, ?_⟩
    unfold PField.probAt at hw
    rw [htot, lt_div_iff₀ hN] at hw
    exact lt_of_lt_of_le hw (hle _ _ hp)
  refine ⟨d, f, c1, c2, main, ?_, ?_⟩
  · intro A hA
    rcases lt_or_ge 1 n.nrealizations with h1 | h1
    · rcases returned_cases hd h with ⟨-, obs, cols, r, f', pl, im, lines, H⟩ | ⟨h2, -⟩
      · rw [H.areas_eq] at hA
        simp at hA
      · omega
    · obtain ⟨d', f', -, -, -, -, -, A', e1, e2, -, -, -, -, -, -, -, -, e3, -, e4, -⟩ := C69_deterministic a n env v hd h1 h fs
      obtain rfl : d' = d := Except.ok.inj (e1.symm.trans c1)
      obtain rfl : f' = f := by rw [c2] at e2; simpa using e2.symm
      rw [e3] at hA
      obtain rfl := List.mem_singleton.mp hA
      rw [e4, mul_comm]
      refine cells_upper (xo := t.xw) (yo := t.yw) hs (Z := manyStrips Ls n.run.umbra 0) ?_ (wide 0)
      rintro p ⟨hp, hw⟩
      refine ⟨((hnode _ _).mp hp).1, ?_⟩
      refine lt_of_lt_of_le ?_ (hle _ _ hp)
      rw [zero_mul]
      exact hw
  · intro i l hi
    rcases lt_or_ge 1 n.nrealizations with h1 | h1
    · obtain ⟨d', f', -, -, -, -, -, -, -, e1, e2, -, -, -, -, -, -, -, -, -, -, -, -, -, -, e3, e4⟩ := C69_stochastic a n env v hd h1 h fs
      obtain rfl : d' = d := Except.ok.inj (e1.symm.trans c1)
      obtain rfl : f' = f := by rw [c2] at e2; simpa using e2.symm
      by_cases hne : (f'.nodesWhere (fun w => w ≤ 5/100 * ((i:ℝ) + 1))).Nonempty
      · rw [(e3 i l hi hne).2, add_sub_cancel_right]
        exact main _ (by positivity)
      · rw [(e4.1 i l hi (Set.not_nonempty_iff_eq_empty.mp hne)).2, sub_self]
        simp
    · rcases returned_cases hd h with ⟨h2, -⟩ | ⟨-, obs, cols, r, f', pl, H⟩
      · omega
      · rw [H.deciles_eq] at hi
        simp at hi

/-- **C149.** With the accuracy `δ` of the traces (C82, C95): the area of the zone of a realization is at least that of any strip around its exact pathlines that is narrower than the umbra by half a diagonal and the accuracy, and at most that of the strip that is wider by as much. -/
theorem C149_pathlines {a : RunArgs} {la : LinAlg} {t : SWell} {q : Dist → ℕ → Except PyErr ℝ} {coefs : (Fin 6 → ℝ) → Matrix (Fin 6) (Fin 6) ℝ → Except PyErr (Fin 6 → ℝ)}
    {interrupt : ℕ → ℕ → Option PyErr} {L : RealizationLog} (R : Realized a la t q coefs interrupt L) {D tol maxstep δ : ℝ} (hd : a.duration = .fin D) (ht : a.tol = .fin tol)
    (hm : a.maxstep = .fin maxstep) (hD : 0 < D) (htol : (10/9)^5 * (2:ℝ)^(-52 : ℤ) < tol) (hmax : (10/9) * (2:ℝ)^(-52 : ℤ) < maxstep) (hi : ∀ k n, interrupt k n = none)
    (P : ℕ → ℝ → ℝ × ℝ) (hP : ∀ k : ℕ, k < a.npaths → Follows L.model a.confined (t.start a.npaths k) D maxstep δ (P k)) (xo yo : ℝ) {s u : ℝ} (hs : 0 < s) (hu : 0 ≤ u) :
    (∀ w, 0 ≤ w + δ → w + δ + 71/100 * s ≤ u → area {p | ∃ j : ℕ, j < a.npaths ∧ Passes (P j) D w p.1 p.2} ≤ ENNReal.ofReal (L.zoneArea xo yo s u)) ∧
    ENNReal.ofReal (L.zoneArea xo yo s u) ≤ area {p | ∃ j : ℕ, j < a.npaths ∧ Passes (P j) D (u + 71/100 * s + δ) p.1 p.2} := by
  obtain ⟨lo, up⟩ := C149_zone L xo yo hs hu
  have key := C95_captures R hd ht hm hD htol hmax hi P hP
  refine ⟨fun w hw hwu => le_trans (measure_mono ?_) (lo (w + δ) hw hwu), up.trans (measure_mono ?_)⟩
  · rintro p ⟨j, hj, hp⟩
    exact (key (w + δ) p.1 p.2).1 ⟨j, hj, by rwa [add_sub_cancel_right]⟩
  · intro p hp
    exact (key _ p.1 p.2).2 (by positivity) hp

/-- **C149.** A well in an aquifer at rest: if the rays are close enough for the umbra, the area of the zone is at least the area of the aquifer that holds the water the well pumps in the duration. It is at most the area of the disc with the fixed radius of C145, widened by umbra, accuracy and half a diagonal. -/
theorem C149_at_rest {a : RunArgs} {la : LinAlg} {t : SWell} {q : Dist → ℕ → Except PyErr ℝ} {coefs : (Fin 6 → ℝ) → Matrix (Fin 6) (Fin 6) ℝ → Except PyErr (Fin 6 → ℝ)}
    {interrupt : ℕ → ℕ → Option PyErr} {L : RealizationLog} (R : Realized a la t q coefs interrupt L) {D tol maxstep δ : ℝ} (hd : a.duration = .fin D) (ht : a.tol = .fin tol)
    (hm : a.maxstep = .fin maxstep) (hD : 0 < D) (htol : (10/9)^5 * (2:ℝ)^(-52 : ℤ) < tol) (hmax : (10/9) * (2:ℝ)^(-52 : ℤ) < maxstep) (hi : ∀ k n, interrupt k n = none)
    (hP : ∀ k : ℕ, k < a.npaths → ∃ P, Follows L.model a.confined (t.start a.npaths k) D maxstep δ P) (hδ : 0 ≤ δ) (hcf : a.confined = true) (hphys : L.model.Physical) {w : Well ℝ} (hw : L.model.AtRest w) (hq : 0 ≤ w.qw)
    (hr : 0 ≤ t.rw) (hmem : t ∈ a.wells) (hnp : 0 < a.npaths) (xo yo : ℝ) {s u : ℝ} (hs : 0 < s) (hu : 0 ≤ u) :
    (Real.pi * Real.sqrt ((t.rw + 1) ^ 2 + (1 - 1 / 10 ^ 16) * (w.qw * D / (Real.pi * (L.model.porosity * L.model.thickness)))) ≤ a.npaths * (u - 71/100 * s - δ) →
      (1 - 1 / 10 ^ 16) * (w.qw * D / (L.model.porosity * L.model.thickness)) ≤ L.zoneArea xo yo s u) ∧
    L.zoneArea xo yo s u ≤ Real.pi * (u + 71/100 * s + δ + Real.sqrt ((t.rw + 1) ^ 2 + (1 + 1 / 10 ^ 16) * (w.qw * D / (Real.pi * (L.model.porosity * L.model.thickness))))) ^ 2 := by
  obtain ⟨lo, up⟩ := C149_zone L xo yo hs hu
  obtain ⟨hx, hy, -⟩ := only_well R hmem hw.wells
  have hnb : 0 < L.model.porosity * L.model.thickness := mul_pos hphys.porosity hphys.thickness
  have hnpr : (0:ℝ) < a.npaths := by exact_mod_cast hnp
  have hA : 0 ≤ L.zoneArea xo yo s u := by
    unfold RealizationLog.zoneArea
    positivity
  constructor
  · intro hn
    set R0 := Real.sqrt ((t.rw + 1) ^ 2 + (1 - 1 / 10 ^ 16) * (w.qw * D / (Real.pi * (L.model.porosity * L.model.thickness)))) with hR0
    have hin : 0 ≤ (1 - 1 / 10 ^ 16 : ℝ) * (w.qw * D / (Real.pi * (L.model.porosity * L.model.thickness))) := mul_nonneg (by norm_num) (by positivity)
    have hR2 : R0 ^ 2 = (t.rw + 1) ^ 2 + (1 - 1 / 10 ^ 16) * (w.qw * D / (Real.pi * (L.model.porosity * L.model.thickness))) := Real.sq_sqrt (by positivity)
    have hR00 : 0 < R0 := Real.sqrt_pos.mpr (by positivity)
    have hv : 0 ≤ u - 71/100 * s := by
      by_contra hc
      have : (a.npaths : ℝ) * (u - 71/100 * s - δ) ≤ 0 := mul_nonpos_of_nonneg_of_nonpos hnpr.le (by linarith)
      have : 0 < Real.pi * R0 := mul_pos Real.pi_pos hR00
      linarith
    have hlo := lo (u - 71/100 * s) hv (by linarith)
    have hring := ring_area (t.xw, t.yw) (r := t.rw + 1) (R := R0) (by linarith) hR00.le
    have hsub : {p : ℝ × ℝ | t.rw + 1 ≤ euclid p (t.xw, t.yw) ∧ euclid p (t.xw, t.yw) < R0} ⊆ L.strip (u - 71/100 * s) := by
      rintro p ⟨p1, p2⟩
      obtain ⟨c, hc, hcap, -⟩ := C145_captures R hd ht hm hD htol hmax hi hP hcf hphys hw hq hr hmem (u - 71/100 * s) p.1 p.2 hv
      have hc0 := close_pos hc
      have hp2 : euclid p (t.xw, t.yw) ^ 2 < (t.rw + 1) ^ 2 + 2 * (w.qw * c / (L.model.porosity * L.model.thickness)) * D := by
        have := pow_lt_pow_left₀ p2 (Real.sqrt_nonneg _) two_ne_zero
        rw [hR2] at this
        refine this.trans_le (add_le_add_right ?_ _)
        have e3 : 2 * (w.qw * c / (L.model.porosity * L.model.thickness)) * D = 2 * c * (w.qw * D / (L.model.porosity * L.model.thickness)) := by ring
        have e4 : (1 - 1 / 10 ^ 16 : ℝ) * (w.qw * D / (Real.pi * (L.model.porosity * L.model.thickness))) = (1 - 1 / 10 ^ 16) / Real.pi * (w.qw * D / (L.model.porosity * L.model.thickness)) := by field_simp
        rw [e3, e4]
        refine mul_le_mul_of_nonneg_right ?_ (by positivity)
        rw [div_le_iff₀ Real.pi_pos]
        linarith [(abs_lt.mp hc).1]
      obtain ⟨j, hj, s', s0, s1, hnear⟩ := ray_near hr hx hy (by positivity) hnp p1 hp2
      refine hcap ⟨j, hj, s', s0, s1, lt_of_le_of_lt hnear ?_⟩
      have hlt : euclid p (t.xw, t.yw) * (Real.pi / a.npaths) < R0 * (Real.pi / a.npaths) := mul_lt_mul_of_pos_right p2 (div_pos Real.pi_pos hnpr)
      refine hlt.trans_le ?_
      rw [← mul_div_assoc, div_le_iff₀ hnpr]
      linarith
    have hall := (hring.trans (measure_mono hsub)).trans hlo
    rw [ENNReal.ofReal_le_ofReal_iff hA, hR2, add_sub_cancel_left] at hall
    refine le_trans (le_of_eq ?_) hall
    field_simp
  · set R1 := Real.sqrt ((t.rw + 1) ^ 2 + (1 + 1 / 10 ^ 16) * (w.qw * D / (Real.pi * (L.model.porosity * L.model.thickness)))) with hR1
    have hR10 : 0 ≤ R1 := Real.sqrt_nonneg _
    have hsub : L.strip (u + 71/100 * s) ⊆ {p : ℝ × ℝ | euclid p (t.xw, t.yw) < u + 71/100 * s + δ + R1} := by
      intro p hp
      obtain ⟨j, -, hdel⟩ := (C131_captures R hd ht hm hD htol hmax hi hP (u + 71/100 * s) p.1 p.2).2 (by positivity) hp
      rw [hcf] at hdel
      exact C145_radius hphys hw hq hD.le t hr hx hy _ j hdel
    have hall := up.trans (measure_mono hsub)
    rw [disc_area _ (by positivity), ENNReal.ofReal_le_ofReal_iff (by positivity)] at hall
    exact hall

end Oneka
