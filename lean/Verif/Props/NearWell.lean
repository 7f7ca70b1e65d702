import Verif.Lemmas.NearWell
import Verif.Lemmas.Certain
import Verif.Lemmas.CaptureExact
import Verif.Props.Oneka
import Verif.Props.Reach
import Verif.Props.Wells
import Verif.Spec.Visualize

/-!
# C133: the probability at the well itself, and realizations that record nothing

`L.Moves`: one of the traces of the realization leaves its starting point (Spec/NearWell.lean). Examples: Props/NearWellExamples.lean.
-/

namespace Oneka

open PField Aquifer

/-- **C133.** A realization none of whose traces leaves its starting point captures nothing, not even the starting points. If one does, everything nearer to the well than `umbra - (rw + 1)` is captured. -/
theorem C133_realization {a : RunArgs} {la : LinAlg} {t : SWell} {q : Dist → ℕ → Except PyErr ℝ} {coefs : (Fin 6 → ℝ) → Matrix (Fin 6) (Fin 6) ℝ → Except PyErr (Fin 6 → ℝ)}
    {interrupt : ℕ → ℕ → Option PyErr} {L : RealizationLog} (R : Realized a la t q coefs interrupt L) (hr : 0 < t.rw) (u X Y : ℝ) :
    (L.Captures u X Y → L.Moves) ∧
    (L.Moves → t.rw + 1 < u → (X - t.xw) ^ 2 + (Y - t.yw) ^ 2 < (u - (t.rw + 1)) ^ 2 → L.Captures u X Y) := by
  refine ⟨fun ⟨tr, htr, h⟩ => ⟨tr, htr, near_moves h⟩, fun ⟨tr, htr, h⟩ hu hX => ⟨tr, htr, ?_⟩⟩
  obtain ⟨k, hk⟩ := List.getElem?_of_mem htr
  exact near_start (realized_head R hk) h (disk_start t a.npaths k (by linarith) hu hX)

/-- **C133.** Where the aquifer of an unconfined realization is dry at a starting point, the trace from there has no other vertex. If it is dry at all starting points, the realization captures nothing. -/
theorem C133_dry {a : RunArgs} {la : LinAlg} {t : SWell} {q : Dist → ℕ → Except PyErr ℝ} {coefs : (Fin 6 → ℝ) → Matrix (Fin 6) (Fin 6) ℝ → Except PyErr (Fin 6 → ℝ)}
    {interrupt : ℕ → ℕ → Option PyErr} {L : RealizationLog} (R : Realized a la t q coefs interrupt L) (hc : a.confined = false) (hp : L.model.Physical) :
    (∀ (k : ℕ) (tr : Trace XR), L.traces[k]? = some tr → L.model.OffWells (t.start a.npaths k).1 (t.start a.npaths k).2 → L.model.Dry (t.start a.npaths k).1 (t.start a.npaths k).2 → tr.path = [t.start a.npaths k]) ∧
    ((∀ k : ℕ, (k : ℤ) < a.npaths → L.model.OffWells (t.start a.npaths k).1 (t.start a.npaths k).2 ∧ L.model.Dry (t.start a.npaths k).1 (t.start a.npaths k).2) → ¬ L.Moves ∧ ∀ u X Y, ¬ L.Captures u X Y) := by
  have one : ∀ (k : ℕ) (tr : Trace XR), L.traces[k]? = some tr → L.model.OffWells (t.start a.npaths k).1 (t.start a.npaths k).2 → L.model.Dry (t.start a.npaths k).1 (t.start a.npaths k).2 →
      tr.path = [t.start a.npaths k] := by
    intro k tr htr hoff hdry
    have h := R.traces k tr htr
    have hv : L.model.toX.reverseVelocity a.confined (.fin (t.start a.npaths k).1, .fin (t.start a.npaths k).2) = .error .aquiferError := by
      rw [reverseVelocity_eq, hc, backVelocity_toX L.model hp false hoff]
      unfold backVelocity
      simp only [(C33_velocity L.model hp _ _).1 hdry]
      rfl
    have herr : ∃ e, (fun (n : ℕ) (p : XR × XR) => match interrupt k n with
        | some e => (.error e : Except PyErr (XR × XR))
        | none => L.model.toX.reverseVelocity a.confined p) 0 (.fin (t.start a.npaths k).1, .fin (t.start a.npaths k).2) = .error e := by
      simp only
      cases interrupt k 0 with
      | some e => exact ⟨e, rfl⟩
      | none => exact ⟨_, hv⟩
    obtain ⟨e, he⟩ := herr
    obtain ⟨r, hr1, hr2⟩ := (C17_start (.fin (t.start a.npaths k).1) (.fin (t.start a.npaths k).2) a.duration a.tol a.maxstep (fun (n : ℕ) (p : XR × XR) => match interrupt k n with
        | some e => (.error e : Except PyErr (XR × XR))
        | none => L.model.toX.reverseVelocity a.confined p)).2 e he
    obtain rfl : r = tr := Option.some.inj (hr1.symm.trans h)
    unfold Trace.path
    rw [hr2]
    rfl
  refine ⟨one, fun hall => ?_⟩
  have hm : ¬ L.Moves := by
    rintro ⟨tr, htr, x, hx, y, hy, hne⟩
    obtain ⟨k, hk⟩ := List.getElem?_of_mem htr
    have hlt : k < L.traces.length := by
      by_contra hge
      rw [List.getElem?_eq_none (by omega)] at hk
      simp at hk
    rw [R.traces_length] at hlt
    have e := one k tr hk (hall k (by omega)).1 (hall k (by omega)).2
    rw [e, List.mem_singleton] at hx hy
    exact hne (hx.trans hy.symm)
  exact ⟨hm, fun u X Y ⟨tr, htr, h⟩ => hm ⟨tr, htr, near_moves h⟩⟩

open Classical in
/-- **C133** for the archive of a call that returns: the total weight counts all realizations, but the weight of a node is at most the number of those that move. If the umbra exceeds `rw + 1`, the node of the well, and those of its eight
neighbours that are nearer to it than `umbra - (rw + 1)`, have exactly that weight: no node is more probable than the well. -/
theorem C133_archived (a : PyArgs) (n : Inputs) (env : CallEnv) (v : PyVal) (hd : a.Denotes n) (h : (oneka a env).ending = .returns v) (fs : Files) :
    ∃ (d : Dict) (f : PField ℝ) (k : ℕ) (t : SWell),
      loadOneka ((oneka a env).events.foldl Effect.apply fs) env.now.archiveName = .ok d ∧ d.get "pfield" = some (.field (.field f)) ∧ n.run.target = k ∧ n.run.wells[k]? = some t ∧
      f.total = max 1 n.nrealizations ∧
      (∀ X Y, f.weightAt X Y ≤ (realizations (oneka a env).events).countP fun L => L.Moves) ∧
      (t.rw + 1 < n.run.umbra → ∀ p q : ℤ, |p| ≤ 1 → |q| ≤ 1 → (p ^ 2 + q ^ 2) * n.run.spacing ^ 2 < (n.run.umbra - (t.rw + 1)) ^ 2 →
        f.weightAt (t.xw + p * n.run.spacing) (t.yw + q * n.run.spacing) = (realizations (oneka a env).events).countP fun L => L.Moves) ∧
      (t.rw + 1 < n.run.umbra → ∀ X Y, f.probAt X Y ≤ f.probAt t.xw t.yw) := by
  obtain ⟨-, -, ha, -⟩ := returned_course h
  obtain ⟨d, f, k, t, h1, h2, hk, ht, hlen, -, hw⟩ := C74_archived a n env v hd h fs
  have hrad : 0 < t.rw := accepted_radius ha hd (List.mem_of_getElem? ht)
  set ls := realizations (oneka a env).events with hls
  -- what both kinds of runs say
  obtain ⟨obs, htot, hex, hR⟩ : ∃ obs : List Obs, f.total = max 1 n.nrealizations ∧
      (∀ p q : ℤ, |p| ≤ 1 → |q| ≤ 1 → f.weightAt (t.xw + p * n.run.spacing) (t.yw + q * n.run.spacing) = ls.countP fun L => L.Captures n.run.umbra (t.xw + p * n.run.spacing) (t.yw + q * n.run.spacing)) ∧
      ∀ L ∈ ls, ∃ (q : Dist → ℕ → Except PyErr ℝ) (coefs : (Fin 6 → ℝ) → Matrix (Fin 6) (Fin 6) ℝ → Except PyErr (Fin 6 → ℝ)) (interrupt : ℕ → ℕ → Option PyErr),
        Realized { n.run with obs := obs } env.run.la t q coefs interrupt L := by
    by_cases h1' : 1 < n.nrealizations
    · obtain ⟨d', f', obs, k', t', g1, g2, -, -, hk', ht', -, hR, htot, hex, -⟩ := C68_stochastic a n env v hd h1' h fs
      obtain rfl : d = d' := Except.ok.inj (h1.symm.trans g1)
      obtain rfl : f = f' := by simpa using h2.symm.trans g2
      obtain rfl : k = k' := by exact_mod_cast hk.symm.trans hk'
      obtain rfl : t = t' := Option.some.inj (ht.symm.trans ht')
      refine ⟨obs, by rw [htot, max_eq_right (by exact_mod_cast h1'.le)], fun p q hp hq => hex p q (.inl ⟨hp, hq⟩), fun L hL => ?_⟩
      obtain ⟨i, hi⟩ := List.getElem?_of_mem hL
      exact ⟨_, _, _, hR i L hi⟩
    · obtain ⟨d', f', obs, k', t', L, g1, g2, -, -, hk', ht', hL, hR, htot, hex, -⟩ := C68_deterministic a n env v hd (by omega) h fs
      obtain rfl : d = d' := Except.ok.inj (h1.symm.trans g1)
      obtain rfl : f = f' := by simpa using h2.symm.trans g2
      obtain rfl : k = k' := by exact_mod_cast hk.symm.trans hk'
      obtain rfl : t = t' := Option.some.inj (ht.symm.trans ht')
      refine ⟨obs, by rw [htot, max_eq_left (not_lt.mp h1'), Int.cast_one], fun p q hp hq => ?_, fun L' hL' => ?_⟩
      · rw [hex p q (.inl ⟨hp, hq⟩), hls, hL, List.countP_singleton]
        by_cases hcap : L.Captures n.run.umbra (t.xw + p * n.run.spacing) (t.yw + q * n.run.spacing)
        · rw [if_pos hcap, if_pos (decide_eq_true hcap), Nat.cast_one]
        · rw [if_neg hcap, if_neg (by rw [decide_eq_true_eq]; exact hcap), Nat.cast_zero]
      · rw [hls, hL, List.mem_singleton] at hL'
        subst hL'
        exact ⟨_, _, _, hR⟩
  have hle : ∀ X Y, f.weightAt X Y ≤ ls.countP fun L => L.Moves := by
    intro X Y
    by_cases hN : f.IsNode X Y
    · rw [hw X Y hN]
      refine Nat.cast_le.mpr ?_
      have e := countP_range ls fun L => L.Moves
      refine le_of_le_of_eq ?_ e.symm
      refine List.countP_mono_left fun i _ hi => ?_
      simp only [decide_eq_true_eq] at hi ⊢
      obtain ⟨L, hL, hrec⟩ := hi
      obtain ⟨tr, htr, hn⟩ := captures_paths.mpr (recordsInOrder_near hrec)
      exact ⟨L, hL, tr, htr, near_moves hn⟩
    · rw [show f.weightAt X Y = 0 from lookAt_not f _ _ X Y hN]
      positivity
  have heq : t.rw + 1 < n.run.umbra → ∀ p q : ℤ, |p| ≤ 1 → |q| ≤ 1 → (p ^ 2 + q ^ 2) * n.run.spacing ^ 2 < (n.run.umbra - (t.rw + 1)) ^ 2 →
      f.weightAt (t.xw + p * n.run.spacing) (t.yw + q * n.run.spacing) = ls.countP fun L => L.Moves := by
    intro hu p q hp hq hpq
    rw [hex p q hp hq]
    congr 1
    refine List.countP_congr fun L hL => ?_
    rw [decide_eq_true_eq, decide_eq_true_eq]
    obtain ⟨q', coefs, int, R⟩ := hR L hL
    obtain ⟨c1, c2⟩ := C133_realization R hrad n.run.umbra (t.xw + p * n.run.spacing) (t.yw + q * n.run.spacing)
    exact ⟨c1, fun hm => c2 hm hu (by linarith [show (t.xw + p * n.run.spacing - t.xw) ^ 2 + (t.yw + q * n.run.spacing - t.yw) ^ 2 = (p ^ 2 + q ^ 2) * n.run.spacing ^ 2 by ring])⟩
  refine ⟨d, f, k, t, h1, h2, hk, ht, htot, hle, heq, fun hu X Y => ?_⟩
  unfold PField.probAt
  have e := heq hu 0 0 (by simp) (by simp) (by
    have : 0 < n.run.umbra - (t.rw + 1) := by linarith
    simp
    positivity)
  simp only [Int.cast_zero, zero_mul, add_zero] at e
  rw [e]
  refine div_le_div_of_nonneg_right (hle X Y) ?_
  rw [htot]
  exact_mod_cast le_trans zero_le_one (le_max_left 1 n.nrealizations)

end Oneka
