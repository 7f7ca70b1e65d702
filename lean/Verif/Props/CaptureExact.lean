import Verif.Lemmas.CaptureExact
import Verif.Props.Pathlines
import Verif.Props.Oneka

/-!
# C95: the capture zone is that of the exact pathlines, up to a precision

All distances are Euclidean. Examples: `Props/CaptureExactExamples.lean`.
-/

namespace Oneka

open Aquifer

/-- C95: tracing upstream through a model from `start`, under the conditions of C82, gives a track with this property: every place that the exact pathline passes within `u - δ` is within
`u` of the track, and every place within `u` of the track is passed by the exact pathline within `u + δ`. -/
theorem C95_track {m : Aquifer ℝ} {confined : Bool} {start : ℝ × ℝ} {D tol maxstep δ : ℝ} {P : ℝ → ℝ × ℝ} (h : Follows m confined start D maxstep δ P) (hD : 0 < D)
    (htol : (10/9)^5 * (2:ℝ)^(-52 : ℤ) < tol) (hmax : (10/9) * (2:ℝ)^(-52 : ℤ) < maxstep) :
    ∃ r, computeBacktrace (.fin start.1) (.fin start.2) (.fin D) (.fin tol) (.fin maxstep) (fun _ => m.toX.reverseVelocity confined) = some r ∧ r.warning = none ∧
      ∀ u X Y, (Passes P D (u - δ) X Y → NearTrack r.path u X Y) ∧ (0 ≤ u → NearTrack r.path u X Y → Passes P D (u + δ) X Y) := by
  obtain ⟨f, L, M, H, ρ, F⟩ := h
  obtain ⟨r, hr, hw, path, p1, p2, p3, p4⟩ := C82_follows m F.physical confined f F.upstream P start D tol maxstep L M H ρ F.exact F.flow F.lip F.bound hD htol hmax F.L_pos F.M_nonneg F.H_ge
    F.H_le F.wide F.fast
  have hm0 : 0 < maxstep := lt_trans (by positivity) hmax
  have hH := F.H_ge
  have hM := F.M_nonneg
  have hexp : ∀ t, 0 ≤ t → 0 ≤ 22 * maxstep * (Real.exp (L * t) - 1) := fun t ht => by
    have := Real.one_le_exp (mul_nonneg F.L_pos.le ht)
    exact mul_nonneg (by linarith) (by linarith)
  have hmono : ∀ t, t ≤ D → 22 * maxstep * (Real.exp (L * t) - 1) ≤ 22 * maxstep * (Real.exp (L * D) - 1) := fun t ht => by
    have := Real.exp_le_exp.mpr (mul_le_mul_of_nonneg_left ht F.L_pos.le)
    exact mul_le_mul_of_nonneg_left (by linarith) (by linarith)
  have htube : ∀ t, 0 ≤ t → t ≤ D → P t ∈ Tube P D ρ := fun t h0 h1 => ⟨t, h0, h1, by
    rw [sub_self, norm_zero]
    have := hexp D hD.le
    have := mul_nonneg (by linarith : (0:ℝ) ≤ 25 * H) hM
    linarith [F.wide]⟩
  have hpath : r.path = start :: path.map Prod.snd := by
    unfold Trace.path
    rw [p1, List.map_map]
    refine (List.map_congr_left (g := id) fun v _ => rfl).trans (List.map_id _)
  refine ⟨r, hr, hw, fun u X Y => ?_⟩
  rw [hpath]
  refine near_iff F.exact (fun t h0 h1 => F.bound _ (htube t h0 h1)) hD.le hM (hexp D hD.le) ?_ p2 p4 (fun v hv => ⟨(p3 v hv).1, (p3 v hv).2.trans (hmono _ (p3 v hv).1)⟩) F.precision u X Y
  have h1 := F.fast _ (htube 0 le_rfl hD.le)
  have h2 := mul_le_mul_of_nonneg_left (F.bound _ (htube 0 le_rfl hD.le)) (by linarith : 0 ≤ H)
  linarith

/-- C95 for a realization that is not interrupted: let `P k` be the exact pathline upstream from the `k`-th start through the model of that realization. The realization captures every place that
one of these pathlines passes within `u - δ`, and every place that it captures is passed by one of them within `u + δ`. -/
theorem C95_captures {a : RunArgs} {la : LinAlg} {t : SWell} {q : Dist → ℕ → Except PyErr ℝ} {coefs : (Fin 6 → ℝ) → Matrix (Fin 6) (Fin 6) ℝ → Except PyErr (Fin 6 → ℝ)}
    {interrupt : ℕ → ℕ → Option PyErr} {T : RealizationLog} (R : Realized a la t q coefs interrupt T) {D tol maxstep δ : ℝ} (hd : a.duration = .fin D) (ht : a.tol = .fin tol)
    (hm : a.maxstep = .fin maxstep) (hD : 0 < D) (htol : (10/9)^5 * (2:ℝ)^(-52 : ℤ) < tol) (hmax : (10/9) * (2:ℝ)^(-52 : ℤ) < maxstep) (hi : ∀ k n, interrupt k n = none)
    (P : ℕ → ℝ → ℝ × ℝ) (hP : ∀ k : ℕ, k < a.npaths → Follows T.model a.confined (t.start a.npaths k) D maxstep δ (P k)) (u X Y : ℝ) :
    ((∃ k : ℕ, k < a.npaths ∧ Passes (P k) D (u - δ) X Y) → T.Captures u X Y) ∧ (0 ≤ u → T.Captures u X Y → ∃ k : ℕ, k < a.npaths ∧ Passes (P k) D (u + δ) X Y) := by
  have key : ∀ k : ℕ, (hk : k < T.traces.length) → (Passes (P k) D (u - δ) X Y → NearTrack T.traces[k].path u X Y) ∧
      (0 ≤ u → NearTrack T.traces[k].path u X Y → Passes (P k) D (u + δ) X Y) := by
    intro k hk
    obtain ⟨r, hr, -, h⟩ := C95_track (tol := tol) (hP k (by have := R.traces_length; omega)) hD htol hmax
    have h' := R.traces k _ (List.getElem?_eq_getElem hk)
    rw [hd, ht, hm] at h'
    simp only [hi] at h'
    have e : some r = some T.traces[k] := by rw [← hr, ← h']; rfl
    obtain rfl := Option.some.inj e
    exact h u X Y
  have hlen := R.traces_length
  constructor
  · rintro ⟨k, hk, h⟩
    have hk' : k < T.traces.length := by omega
    exact ⟨_, List.getElem_mem hk', (key k hk').1 h⟩
  · rintro hu ⟨tr, htr, h⟩
    obtain ⟨k, hk, rfl⟩ := List.mem_iff_getElem.mp htr
    exact ⟨k, by omega, (key k hk).2 hu h⟩

open Classical in
/-- C95: end to end. In the field archived by an uninterrupted call, the weight of a node is at least the number of realizations with an exact pathline passing within the umbra less `δ`, and at
most the number of realizations with an exact pathline passing within the umbra plus `δ`. (For the nodes around the target; for all lattice positions if the umbra does not exceed the spacing.)
`P i j` is the exact pathline upstream from the `j`-th start through the model of the `i`-th realization. -/
theorem C95_call (a : PyArgs) (n : Inputs) (env : CallEnv) (v : PyVal) (hden : a.Denotes n) (h : (oneka a env).ending = .returns v) (fs : Files)
    {D tol maxstep : ℝ} (hd : n.run.duration = .fin D) (ht : n.run.tol = .fin tol) (hm : n.run.maxstep = .fin maxstep) (hD : 0 < D) (htol : (10/9)^5 * (2:ℝ)^(-52 : ℤ) < tol)
    (hmax : (10/9) * (2:ℝ)^(-52 : ℤ) < maxstep) (hi : ∀ i k j, env.run.interrupt i k j = none) :
    ∃ (d : Dict) (f : PField ℝ) (k : ℕ) (t : SWell),
      loadOneka ((oneka a env).events.foldl Effect.apply fs) env.now.archiveName = .ok d ∧ d.get "pfield" = some (.field (.field f)) ∧ n.run.target = k ∧ n.run.wells[k]? = some t ∧
      ∀ (δ : ℝ) (P : ℕ → ℕ → ℝ → ℝ × ℝ),
        (∀ (i : ℕ) (L : RealizationLog), (realizations (oneka a env).events)[i]? = some L → ∀ j : ℕ, j < n.run.npaths →
          Follows L.model n.run.confined (t.start n.run.npaths j) D maxstep δ (P i j)) →
        ∀ p q : ℤ, (|p| ≤ 1 ∧ |q| ≤ 1) ∨ n.run.umbra ≤ n.run.spacing → ∀ X Y : ℝ, X = t.xw + p * n.run.spacing → Y = t.yw + q * n.run.spacing →
          ((List.range (realizations (oneka a env).events).length).countP fun i => ∃ j : ℕ, j < n.run.npaths ∧ Passes (P i j) D (n.run.umbra - δ) X Y) ≤ f.weightAt X Y ∧
          f.weightAt X Y ≤ ((List.range (realizations (oneka a env).events).length).countP fun i => ∃ j : ℕ, j < n.run.npaths ∧ Passes (P i j) D (n.run.umbra + δ) X Y) := by
  obtain ⟨-, -, ha, -⟩ := returned_course h
  obtain ⟨-, -, -, hu, -⟩ := accepted_inputs ha hden
  have count : ∀ (ls : List RealizationLog) (Q : ℕ → Prop) (C : RealizationLog → Prop),
      ((∀ (i : ℕ) (L : RealizationLog), ls[i]? = some L → Q i → C L) → (List.range ls.length).countP (fun i => Q i) ≤ ls.countP fun L => C L) ∧
      ((∀ (i : ℕ) (L : RealizationLog), ls[i]? = some L → C L → Q i) → (ls.countP fun L => C L) ≤ (List.range ls.length).countP fun i => Q i) := by
    intro ls Q C
    have e : (ls.countP fun L => C L) = (List.range ls.length).countP fun i => ∃ L, ls[i]? = some L ∧ C L := countP_range ls C
    rw [e]
    constructor
    · intro hh
      refine List.countP_mono_left fun i hi hq => ?_
      rw [List.mem_range] at hi
      simp only [decide_eq_true_eq] at hq ⊢
      exact ⟨_, List.getElem?_eq_getElem hi, hh i _ (List.getElem?_eq_getElem hi) hq⟩
    · intro hh
      refine List.countP_mono_left fun i hi hq => ?_
      simp only [decide_eq_true_eq] at hq ⊢
      obtain ⟨L, hL, hc⟩ := hq
      exact hh i L hL hc
  by_cases hn : 1 < n.nrealizations
  · obtain ⟨d, f, obs, k, t, hd1, hd2, -, -, hk, hw, -, hR, -, hweight, -⟩ := C68_stochastic a n env v hden hn h fs
    refine ⟨d, f, k, t, hd1, hd2, hk, hw, fun δ P hP p q hpq X Y hX hY => ?_⟩
    subst hX hY
    rw [hweight p q hpq]
    have C := fun i L hL => C95_captures (hR i L hL) (D := D) (tol := tol) (maxstep := maxstep) (δ := δ) hd ht hm hD htol hmax (hi i) (P i) (hP i L hL) n.run.umbra
      (t.xw + p * n.run.spacing) (t.yw + q * n.run.spacing)
    exact ⟨by exact_mod_cast (count _ _ _).1 fun i L hL => (C i L hL).1, by exact_mod_cast (count _ _ _).2 fun i L hL => (C i L hL).2 hu.le⟩
  · obtain ⟨d, f, obs, k, t, L, hd1, hd2, -, -, hk, hw, hL, hR, -, hweight, -⟩ := C68_deterministic a n env v hden (by omega) h fs
    refine ⟨d, f, k, t, hd1, hd2, hk, hw, fun δ P hP p q hpq X Y hX hY => ?_⟩
    subst hX hY
    rw [hweight p q hpq]
    have C := C95_captures hR (D := D) (tol := tol) (maxstep := maxstep) (δ := δ) hd ht hm hD htol hmax (hi 0) (P 0) (hP 0 L (by rw [hL]; rfl)) n.run.umbra
      (t.xw + p * n.run.spacing) (t.yw + q * n.run.spacing)
    have e : (if L.Captures n.run.umbra (t.xw + p * n.run.spacing) (t.yw + q * n.run.spacing) then (1:ℝ) else 0) =
        ((realizations (oneka a env).events).countP fun L => L.Captures n.run.umbra (t.xw + p * n.run.spacing) (t.yw + q * n.run.spacing) : ℕ) := by
      rw [hL, List.countP_singleton]
      split_ifs with h1 h2 h2 <;> simp_all
    rw [e]
    have each : ∀ (i : ℕ) (L' : RealizationLog), (realizations (oneka a env).events)[i]? = some L' → i = 0 ∧ L' = L := by
      intro i L' h'
      rw [hL] at h'
      rcases i with _ | i
      · exact ⟨rfl, (Option.some.inj h').symm⟩
      · simp at h'
    exact ⟨by exact_mod_cast (count _ _ _).1 fun i L' h' => by obtain ⟨rfl, rfl⟩ := each i L' h'; exact C.1,
      by exact_mod_cast (count _ _ _).2 fun i L' h' => by obtain ⟨rfl, rfl⟩ := each i L' h'; exact C.2 hu.le⟩

end Oneka
