import Verif.Lemmas.PropsLaw
import Verif.Props.Runs

/-!
# C83: the law of the random variates
-/

namespace Oneka

open MeasureTheory Variate

/-! ## C83 -/

/-- C83: if the draw is uniform on `[0, 1)`, the variates of a pair have the uniform distribution: the probability of at most `z` is the uniform distribution function. -/
theorem C83_uniform {a b : PyVal} {x y : ℝ} (ha : a.num = some (.fin x)) (hb : b.num = some (.fin y)) (hxy : x < y) (z : ℝ) :
    volume (drawsBelow (.tuple [a, b]) z) = ENNReal.ofReal (uniformCdf x y z) := by
  have hm := mem_drawsBelow (arg := .tuple [a, b]) (fun u _ _ => gen_pair ha hb u) z
  have hd : 0 < y - x := by linarith
  unfold uniformCdf
  split_ifs with h1 h2
  · rcases h1.lt_or_eq with h | rfl
    · rw [show drawsBelow (.tuple [a, b]) z = ∅ from Set.eq_empty_iff_forall_notMem.mpr fun u hu => by
        obtain ⟨p, -, q⟩ := (hm u).mp hu
        nlinarith [mul_nonneg hd.le p]]
      simp
    · refine volume_upto le_rfl zero_le_one fun u => (hm u).trans ?_
      refine and_congr_right fun p => and_congr_right fun _ => ⟨fun q => ?_, fun q => ?_⟩
      · by_contra hc
        rw [not_le] at hc
        nlinarith [mul_pos hd hc]
      · rw [le_antisymm q p]; simp
  · refine volume_upto (div_nonneg (by linarith) hd.le) ((div_le_one hd).mpr (by linarith)) fun u => (hm u).trans ?_
    refine and_congr_right fun p => and_congr_right fun _ => ?_
    rw [le_div_iff₀ hd, ← le_sub_iff_add_le', mul_comm]
  · refine volume_upto zero_le_one le_rfl fun u => (hm u).trans ?_
    refine and_congr_right fun p => and_congr_right fun q => iff_of_true ?_ q.le
    nlinarith

/-- C83: the variates of a triple (minimum, mode, maximum) have the triangular distribution. -/
theorem C83_triangular {a m b : PyVal} {x c y : ℝ} (ha : a.num = some (.fin x)) (hm : m.num = some (.fin c)) (hb : b.num = some (.fin y)) (h1 : x ≤ c) (h2 : c ≤ y) (h3 : x < y) (z : ℝ) :
    volume (drawsBelow (.tuple [a, m, b]) z) = ENNReal.ofReal (triangularCdf x c y z) := by
  have hmem := mem_drawsBelow (arg := .tuple [a, m, b]) (fun u p q => gen_triple ha hm hb h1 h2 h3 p q) z
  rcases lt_or_ge x z with hz | hz
  · rcases le_or_gt z y with hy | hy
    · obtain ⟨p, q⟩ := triCdf_mem h1 h2 z
      exact volume_upto p q fun u => (hmem u).trans (and_congr_right fun p => and_congr_right fun q => tri_le_iff h1 h2 h3 hz hy p q)
    · unfold triangularCdf
      rw [if_neg (not_le.mpr hz), if_neg (by linarith), if_neg (by linarith)]
      refine volume_upto zero_le_one le_rfl fun u => (hmem u).trans ?_
      exact and_congr_right fun p => and_congr_right fun q => iff_of_true ((tri_mem h1 h2 h3 u).2.trans hy.le) q.le
  · unfold triangularCdf
    rw [if_pos hz, ENNReal.ofReal_zero]
    refine measure_mono_null (t := {0}) (fun u hu => ?_) (measure_singleton 0)
    obtain ⟨p, q, r⟩ := (hmem u).mp hu
    rcases p.lt_or_eq with p | p
    · have := tri_gt h1 h2 h3 p q
      linarith
    · exact p.symm

/-- `(0.5, 1, 5)`: the probability of at most 1 -/
example : volume (drawsBelow (.tuple [.float (.fin 0.5), .int 1, .float (.fin 5)]) 1) = ENNReal.ofReal (1/9) := by
  rw [C83_triangular (x := 0.5) (c := 1) (y := 5) rfl (by simp [PyVal.num]) rfl (by norm_num) (by norm_num) (by norm_num)]
  norm_num [triangularCdf]

/-- C83 for runs: each parameter of realization `i` depends on its own draw only, and is at most `z` exactly if that draw is one of those whose measure is given above. (Well `j` uses the `j`-th draw
of the realization; conductivity, porosity and thickness the three after those of the wells.) Example: `exampleArgs` in `Props/Runs.lean`. -/
theorem C83_run (a : RunArgs) (n k : ℕ) (env : Env) (t : SWell) (hk : a.target = k) (ht : a.wells[k]? = some t) (hu : ∀ i j, 0 ≤ env.u i j ∧ env.u i j < 1) {clo chi plo phi tlo thi : ℝ}
    (hc : IsDist a.cDist.toPy clo chi) (hp : IsDist a.pDist.toPy plo phi) (htt : IsDist a.tDist.toPy tlo thi) {r : RunResult} {f : PField ℝ} (h : createStochastic a n env = some r)
    (ho : r.outcome = .ok f) (i : ℕ) (hi : i < n) :
    ∃ L, r.log[i]? = some L ∧ ∀ z, (L.model.conductivity ≤ z ↔ env.u i a.wells.length ∈ drawsBelow a.cDist.toPy z) ∧
      (L.model.porosity ≤ z ↔ env.u i (a.wells.length + 1) ∈ drawsBelow a.pDist.toPy z) ∧ (L.model.thickness ≤ z ↔ env.u i (a.wells.length + 2) ∈ drawsBelow a.tDist.toPy z) ∧
      ∀ (j : ℕ) (w : SWell) (lo hi : ℝ), a.wells[j]? = some w → IsDist w.q.toPy lo hi →
        ∃ q, L.model.wells[j]? = some ⟨w.xw, w.yw, w.rw, q⟩ ∧ (q ≤ z ↔ env.u i j ∈ drawsBelow w.q.toPy z) := by
  obtain ⟨L, hL, R⟩ := C45_realizations a n k env t hk ht h ho i hi
  refine ⟨L, hL, fun z => ⟨sample_below hc (hu _ _).1 (hu _ _).2 R.conductivity z, sample_below hp (hu _ _).1 (hu _ _).2 R.porosity z,
    sample_below htt (hu _ _).1 (hu _ _).2 R.thickness z, fun j w lo hi hj hd => ?_⟩⟩
  obtain ⟨q, hq, hs⟩ := R.wells j w hj
  exact ⟨q, hq, sample_below hd (hu _ _).1 (hu _ _).2 hs z⟩

/-! ## C46 -/

/-- C46: the parameters of a deterministic run are the expected values of those of a stochastic run. Example: `exampleArgs` in `Props/Runs.lean`. -/
theorem C46_means (a : RunArgs) (k : ℕ) (env : Env) (t : SWell) (hk : a.target = k) (ht : a.wells[k]? = some t) {clo chi plo phi tlo thi : ℝ}
    (hc : IsDist a.cDist.toPy clo chi) (hp : IsDist a.pDist.toPy plo phi) (htt : IsDist a.tDist.toPy tlo thi) {r : RunResult} {f : PField ℝ} (h : createDeterministic a env = some r)
    (ho : r.outcome = .ok f) :
    ∃ L, r.log = [L] ∧ (∀ g : ℝ → ℝ, (∀ u, 0 ≤ u → u < 1 → a.cDist.sample u = .ok (g u)) → L.model.conductivity = ∫ u in (0:ℝ)..1, g u) ∧
      (∀ g : ℝ → ℝ, (∀ u, 0 ≤ u → u < 1 → a.pDist.sample u = .ok (g u)) → L.model.porosity = ∫ u in (0:ℝ)..1, g u) ∧
      (∀ g : ℝ → ℝ, (∀ u, 0 ≤ u → u < 1 → a.tDist.sample u = .ok (g u)) → L.model.thickness = ∫ u in (0:ℝ)..1, g u) ∧
      ∀ (j : ℕ) (w : SWell) (lo hi : ℝ), a.wells[j]? = some w → IsDist w.q.toPy lo hi → ∃ q, L.model.wells[j]? = some ⟨w.xw, w.yw, w.rw, q⟩ ∧
        ∀ g : ℝ → ℝ, (∀ u, 0 ≤ u → u < 1 → w.q.sample u = .ok (g u)) → q = ∫ u in (0:ℝ)..1, g u := by
  obtain ⟨L, hL, R, -⟩ := C46_deterministic a k env t hk ht h ho
  refine ⟨L, hL, fun g hg => mean_integral hc R.conductivity hg, fun g hg => mean_integral hp R.porosity hg, fun g hg => mean_integral htt R.thickness hg, fun j w lo hi hj hd => ?_⟩
  obtain ⟨q, hq, hs⟩ := R.wells j w hj
  exact ⟨q, hq, fun g hg => mean_integral hd hs hg⟩

/-- the conductivity of the example takes such values -/
example : ∃ g : ℝ → ℝ, ∀ u, 0 ≤ u → u < 1 → exampleArgs.cDist.sample u = .ok (g u) := by
  refine ⟨fun u => tri 5 10 20 u, fun u h0 h1 => ?_⟩
  unfold Dist.sample
  show PyVal.asReal (generateRandomVariate (.tuple [.float (.fin 5), .float (.fin 10), .float (.fin 20)]) u) = _
  rw [gen_triple rfl rfl rfl (by norm_num) (by norm_num) (by norm_num) h0 h1]
  rfl

end Oneka
