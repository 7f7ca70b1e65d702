import Verif.Lemmas.ZonesCall

/-!
# C140: how the decile table is related to the capture zones of the realizations
-/

namespace Oneka

/-- **C140** for every returning call with several realizations, if the umbra does not exceed the spacing. The mean area of the capture zones of the logged realizations is the sum of the archived probabilities times the area of a
cell. The area where the probability of capture exceeds `θ` is at most that mean divided by `θ`; and the mean is at most `θ` times the area where the probability is positive plus `1 - θ` times the area where it exceeds `θ`. No
realization captures more than the area where the probability is positive, and none less than the area where it is 1; the former is at most the sum of all zones. For the lines of the decile table (one cell less than shown: C54)
this means: threshold times area is at most the mean. -/
theorem C140_stochastic (a : PyArgs) (n : Inputs) (env : CallEnv) (v : PyVal) (hd : a.Denotes n) (h1 : 1 < n.nrealizations) (h : (oneka a env).ending = .returns v) (hu : n.run.umbra ≤ n.run.spacing)
    (fs : Files) :
    ∃ (d : Dict) (f : PField ℝ) (k : ℕ) (t : SWell) (M : ℝ),
      loadOneka ((oneka a env).events.foldl Effect.apply fs) env.now.archiveName = .ok d ∧ d.get "pfield" = some (.field (.field f)) ∧
      n.run.target = k ∧ n.run.wells[k]? = some t ∧ M = meanZoneArea (realizations (oneka a env).events) t.xw t.yw n.run.spacing n.run.umbra ∧
      M = n.run.spacing ^ 2 * ∑ᶠ p ∈ f.nodesWhere (fun _ => True), f.probAt p.1 p.2 ∧
      (∀ θ, θ * f.areaWhere n.run.spacing (fun w => θ < w) ≤ M) ∧
      (∀ θ, 0 ≤ θ → M ≤ θ * f.areaWhere n.run.spacing (fun w => 0 < w) + (1 - θ) * f.areaWhere n.run.spacing (fun w => θ < w)) ∧
      (∀ L ∈ realizations (oneka a env).events, f.areaWhere n.run.spacing (fun w => 1 ≤ w) ≤ L.zoneArea t.xw t.yw n.run.spacing n.run.umbra ∧
        L.zoneArea t.xw t.yw n.run.spacing n.run.umbra ≤ f.areaWhere n.run.spacing (fun w => 0 < w)) ∧
      f.areaWhere n.run.spacing (fun w => 0 < w) ≤ ((realizations (oneka a env).events).map fun L => L.zoneArea t.xw t.yw n.run.spacing n.run.umbra).sum ∧
      (∀ (i : ℕ) (l : ℝ × ℝ), (decileLines (oneka a env).events)[i]? = some l → 5/100 * ((i:ℝ) + 1) * (l.2 - n.run.spacing ^ 2) ≤ M) := by
  obtain ⟨d, f, k, t, c1, c2, c3, c4, hc⟩ := archived_counts hd h1 h hu fs
  refine ⟨d, f, k, t, _, c1, c2, c3, c4, rfl, hc.mean_finsum, hc.markov, fun θ h0 => hc.below h0, fun L hL => hc.each hL, hc.union, ?_⟩
  intro i l hi
  obtain ⟨d', f', -, -, -, -, -, -, -, e1, e2, -, -, -, -, -, -, -, -, -, -, -, -, -, -, e3, e4⟩ := C69_stochastic a n env v hd h1 h fs
  obtain rfl : d' = d := Except.ok.inj (e1.symm.trans c1)
  obtain rfl : f' = f := by rw [c2] at e2; simpa using e2.symm
  by_cases hne : (f'.nodesWhere (fun w => w ≤ 5/100 * ((i:ℝ) + 1))).Nonempty
  · rw [(e3 i l hi hne).2, add_sub_cancel_right]
    exact hc.markov _
  · rw [(e4.1 i l hi (Set.not_nonempty_iff_eq_empty.mp hne)).2, sub_self, mul_zero]
    have := hc.markov 0
    rwa [zero_mul] at this

/-- **C140** for every returning call with at most one realization, if the umbra does not exceed the spacing: the reported area is the area of the capture zone of its realization. -/
theorem C140_deterministic (a : PyArgs) (n : Inputs) (env : CallEnv) (v : PyVal) (hd : a.Denotes n) (h1 : n.nrealizations ≤ 1) (h : (oneka a env).ending = .returns v) (hu : n.run.umbra ≤ n.run.spacing) :
    ∃ (k : ℕ) (t : SWell) (L : RealizationLog), n.run.target = k ∧ n.run.wells[k]? = some t ∧ realizations (oneka a env).events = [L] ∧
      areas (oneka a env).events = [L.zoneArea t.xw t.yw n.run.spacing n.run.umbra] := by
  classical
  obtain ⟨d, f, obs, k, t, L, c1, c2, -, -, c3, c4, c5, -, c6, c7, c8⟩ := C68_deterministic a n env v hd h1 h (fun _ => none)
  obtain ⟨d', f', -, -, -, -, -, A, e1, e2, -, -, -, -, -, -, -, -, e3, -, e4, -⟩ := C69_deterministic a n env v hd h1 h (fun _ => none)
  obtain rfl : d' = d := Except.ok.inj (e1.symm.trans c1)
  obtain rfl : f' = f := by rw [c2] at e2; simpa using e2.symm
  refine ⟨k, t, L, c3, c4, c5, ?_⟩
  rw [e3, e4, RealizationLog.zoneArea, mul_comm]
  congr 4
  ext p
  simp only [Set.mem_setOf_eq, RealizationLog.zone]
  constructor
  · rintro ⟨g1, g2⟩
    obtain ⟨i, j, g3, g4⟩ := c8 _ _ g1
    refine ⟨⟨i, j, g3, g4⟩, ?_⟩
    rw [g3, g4, c7 i j (.inr hu)] at g2
    rw [g3, g4]
    by_contra hn
    rw [if_neg hn] at g2
    exact lt_irrefl _ g2
  · rintro ⟨⟨i, j, g3, g4⟩, g2⟩
    have e : 0 < f'.weightAt p.1 p.2 := by
      rw [g3, g4] at g2
      rw [g3, g4, c7 i j (.inr hu), if_pos g2]
      exact one_pos
    refine ⟨?_, e⟩
    by_contra hn
    rw [weight_off hn] at e
    exact lt_irrefl _ e

end Oneka
