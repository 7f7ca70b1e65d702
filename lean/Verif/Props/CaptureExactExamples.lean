import Verif.Props.CaptureExact
import Verif.Props.Examples

/-!
# A call that meets the hypotheses of C95

An idle well in uniform flow, one path, 100 realizations. The coefficients that are drawn make the flow come from the east in the realizations with even numbers and from the north in the others.
-/

namespace Oneka

open Aquifer

/-- the arguments -/
noncomputable def twoWays : PyArgs :=
  { exampleCall 100 with npaths := .int 1, duration := .int 365, pDist := fl (1/4), wells := .list [.tuple [fl 1000, fl 1000, fl (1/4), fl 0]], maxstep := fl (1/30) }

/-- the numbers in it -/
noncomputable def twoWaysInputs : Inputs :=
  { exampleInputs 100 with run := { (exampleInputs 100).run with npaths := 1, duration := .fin 365, pDist := .const (1/4), wells := [⟨1000, 1000, 1/4, .const 0⟩], maxstep := .fin (1/30) } }

/-- the coefficients that are drawn in the `i`-th realization -/
noncomputable def twoWaysCoef (i : ℕ) : Fin 6 → ℝ := fun j => if j = (if i % 2 = 0 then 3 else 4) then 1/2 else if j = 5 then 1000 else 0

/-- the upstream direction in the `i`-th realization -/
noncomputable def twoWaysDir (i : ℕ) : ℝ × ℝ := if i % 2 = 0 then (1/10, 0) else (0, 1/10)

/-- its pathline -/
noncomputable def twoWaysPath (i : ℕ) : ℝ → ℝ × ℝ := fun t => (1001.25, 1000) + t • twoWaysDir i

/-- the environment -/
noncomputable def twoWaysEnv (t : DateTime) : CallEnv :=
  { exampleCallEnv 0 t with run := { exampleEnv 0 with mvn := fun i _ _ => .ok (twoWaysCoef i), interrupt := fun _ _ _ => none } }

theorem twoWays_norm (i : ℕ) : ‖twoWaysDir i‖ = 1/10 := by
  unfold twoWaysDir
  split_ifs <;> simp [Prod.norm_def]

theorem twoWays_pathline (i : ℕ) : Pathline (fun _ => twoWaysDir i) (1001.25, 1000) 365 (twoWaysPath i) := by
  refine ⟨by simp [twoWaysPath], fun t _ _ => ?_⟩
  have := ((hasDerivAt_id t).smul_const (twoWaysDir i)).const_add (1001.25, 1000)
  rw [one_smul] at this
  exact this

/-- the traces follow it -/
theorem twoWays_follows {m : Aquifer ℝ} (i : ℕ) (hm : m.Physical) (hp : m.porosity = 1/4) (hT : m.thickness = 20) (hw : m.wells = [⟨1000, 1000, 1/4, 0⟩]) (hc : m.coef = twoWaysCoef i) :
    Follows m true (1001.25, 1000) 365 (1/30) (1/5) (twoWaysPath i) := by
  have hE := exp_eastward
  refine ⟨fun _ => twoWaysDir i, 1/10000, 1/10, 2/5, 11/10, hm, ?_, twoWays_pathline i, ?_, fun a _ b _ => ?_, fun a _ => (twoWays_norm i).le, by norm_num, by norm_num, by norm_num, by norm_num,
    by linarith, fun q _ => by rw [twoWays_norm]; norm_num, by linarith⟩
  · intro x y b hoff hs
    obtain ⟨d1, d2⟩ := C29_partials m x y hoff
    simp only [Saturated, if_true] at hs
    subst hs
    have e := discharge_eq m x y
    have c0 : m.coef 0 = 0 := by rw [hc]; unfold twoWaysCoef; split_ifs <;> simp_all
    have c1 : m.coef 1 = 0 := by rw [hc]; unfold twoWaysCoef; split_ifs <;> simp_all
    have c2 : m.coef 2 = 0 := by rw [hc]; unfold twoWaysCoef; split_ifs <;> simp_all
    have c3 : m.coef 3 = 5 * (twoWaysDir i).1 := by rw [hc]; unfold twoWaysCoef twoWaysDir; split_ifs <;> simp_all; norm_num
    have c4 : m.coef 4 = 5 * (twoWaysDir i).2 := by rw [hc]; unfold twoWaysCoef twoWaysDir; split_ifs <;> simp_all; norm_num
    simp only [hw, c0, c1, c2, c3, c4, List.map_cons, List.map_nil, List.sum_cons, List.sum_nil, zero_mul, mul_zero, zero_add, add_zero, sub_zero] at e
    constructor
    · refine d1.congr_deriv ?_
      rw [e, hp, hT]
      ring
    · refine d2.congr_deriv ?_
      rw [e, hp, hT]
      ring
  · intro q hq
    refine ⟨fun w hw' e => ?_, 20, by simp [Saturated, hT]⟩
    obtain ⟨t, h0, -, h⟩ := hq
    have h1 := (norm_fst_le _).trans h
    rw [hw, List.mem_singleton] at hw'
    subst hw'
    rw [Real.norm_eq_abs, abs_le] at h1
    simp only [twoWaysPath, twoWaysDir, Prod.fst_sub, (Prod.mk.inj e).1] at h1
    split_ifs at h1 <;> simp at h1 <;> linarith
  · simp

theorem twoWays_acceptable : Acceptable twoWays := by
  have h := exampleCall_acceptable 100
  refine ⟨h.1, h.2, ?_, .inl ⟨1, rfl, by norm_num⟩, ⟨_, rfl, by simp⟩, h.6, h.7, .inl ⟨_, rfl, ?_, ?_⟩, h.9, h.10, h.11, h.12, h.13, h.14, h.15, h.16, ⟨_, rfl, fin_pos (by norm_num)⟩⟩
  · refine ⟨_, rfl, ?_, 0, .inl rfl, le_rfl, by simp⟩
    intro w hw
    obtain rfl := List.mem_singleton.mp hw
    exact ⟨_, _, _, _, .inl rfl, ⟨_, rfl, trivial⟩, ⟨_, rfl, trivial⟩, ⟨_, rfl, fin_pos (by norm_num)⟩, .inl ⟨_, rfl, trivial, trivial⟩⟩
  · show (0:ℝ) ≤ 1/4
    norm_num
  · show (1/4:ℝ) ≤ 1
    norm_num

theorem twoWays_denotes : twoWays.Denotes twoWaysInputs := by
  have h := exampleCall_denotes 100
  exact ⟨h.1, .inl rfl, by simp [twoWays, twoWaysInputs, PyVal.num], h.4, h.5, h.6, fl_isReal _, h.8, ⟨_, rfl, .cons ⟨_, _, _, _, .inl rfl, fl_isReal _, fl_isReal _, fl_isReal _, fl_isReal _⟩ .nil⟩,
    h.10, h.11, h.12, h.13, h.14, h.15, h.16, rfl⟩

theorem twoWays_spread : twoWaysInputs.Spread := by
  obtain ⟨h1, -, h3, -⟩ := exampleInputs_spread 100
  refine ⟨h1, ?_, h3, ?_⟩
  · rintro ⟨x, m, h⟩
    simp [twoWaysInputs] at h
  · intro w hw
    obtain rfl := List.mem_singleton.mp hw
    rintro ⟨x, m, h⟩
    simp at h

theorem twoWays_start : SWell.start ⟨1000, 1000, 1/4, .const 0⟩ 1 0 = (1001.25, 1000) := by
  refine Prod.ext ?_ ?_
  · simp [SWell.start]; norm_num
  · simp [SWell.start]

theorem const_sample {c u x : ℝ} (h : (Dist.const c).sample u = .ok x) : x = c := (Except.ok.inj h).symm

/-- the models of all realizations -/
theorem twoWays_model {m : Aquifer ℝ} (i : ℕ) {u : ℕ → ℝ} (hu : ∀ j, 0 ≤ u j ∧ u j < 1) (hl : m.wells.length = 1)
    (hw : ∃ d, m.wells[0]? = some ⟨1000, 1000, 1/4, d⟩ ∧ (Dist.const 0).sample (u 0) = .ok d) (hc : (Dist.tuple [5, 10, 20]).sample (u 1) = .ok m.conductivity)
    (hp : (Dist.const (1/4)).sample (u 2) = .ok m.porosity) (ht : (Dist.const 20).sample (u 3) = .ok m.thickness) (hcoef : m.coef = twoWaysCoef i) :
    Follows m true (1001.25, 1000) 365 (1/30) (1/5) (twoWaysPath i) := by
  have hp := const_sample hp
  have ht := const_sample ht
  obtain ⟨d, hd, hd'⟩ := hw
  obtain rfl := const_sample hd'
  have hc' : 0 < m.conductivity := by
    obtain ⟨x, h1, h2⟩ := sample_ok (exampleCall_acceptable 100).cDist (exampleCall_denotes 100).cDist (exampleInputs_spread 100).1 (hu 1).1 (hu 1).2
    have h1 : (Dist.tuple [5, 10, 20]).sample (u 1) = .ok x := h1
    rw [hc] at h1
    obtain rfl := Except.ok.inj h1
    exact h2 (exampleInputs_regular 100).1
  refine twoWays_follows i ⟨hc', by rw [hp]; norm_num, by rw [ht]; norm_num⟩ hp ht ?_ hcoef
  obtain ⟨w, hw⟩ := List.length_eq_one_iff.mp hl
  rw [hw] at hd ⊢
  rw [Option.some.inj hd]

theorem twoWays_draws (t : DateTime) (i j : ℕ) : 0 ≤ (twoWaysEnv t).run.u i j ∧ (twoWaysEnv t).run.u i j < 1 := by
  simp only [twoWaysEnv, exampleEnv]
  norm_num

theorem twoWays_no_endless (t : DateTime) : ¬ EndlessRun twoWaysInputs sevenObs (twoWaysEnv t).run ⟨1000, 1000, 1/4, .const 0⟩ := by
  unfold EndlessRun
  rw [if_pos (by simp [twoWaysInputs, exampleInputs])]
  rintro ⟨i, -, m, ev, cov, c, hm, -, hc, k, hk, h⟩
  obtain rfl : k = 0 := by
    have : (k:ℤ) < 1 := hk
    omega
  obtain rfl : twoWaysCoef i = c := Except.ok.inj hc
  have F := twoWays_model (m := { m with xo := 1000, yo := 1000, coef := twoWaysCoef i }) i (twoWays_draws t i) hm.wells_length (hm.wells 0 _ rfl) hm.conductivity hm.porosity hm.thickness rfl
  obtain ⟨r, hr, -⟩ := C95_track (tol := 1) F (by norm_num) (by norm_num) (by norm_num)
  have e := twoWays_start
  rw [← e] at hr
  have : some r = none := hr.symm.trans h
  simp at this

/-- the call returns -/
theorem twoWays_returns (t : DateTime) : (oneka twoWays (twoWaysEnv t)).ending = .returns .none :=
  C70_returns (env := twoWaysEnv t) twoWays_acceptable twoWays_denotes (exampleInputs_regular 100) (fun _ => ⟨twoWays_spread, twoWays_draws t⟩) perfect_correct
    perfect_converges sevenObs 0 _ (example_retained 100) rfl rfl (by simp [sevenObs, sixObs]) (fun o ho => (sevenObs_usable o ho).1) sevenObs_general
    (fun _ i _ _ => ⟨twoWaysCoef i, rfl⟩) (twoWays_no_endless t) rfl rfl

theorem range_even (N : ℕ) : (List.range (2 * N)).countP (fun i => decide (i % 2 = 0)) = N ∧ (List.range (2 * N)).countP (fun i => decide (i % 2 = 1)) = N := by
  induction N with
  | zero => simp
  | succ N ih =>
    rw [show 2 * (N + 1) = 2 * N + 1 + 1 by ring, List.range_succ, List.range_succ]
    simp only [List.countP_append, List.countP_singleton, ih]
    constructor
    · rw [if_pos (by simp), if_neg (by simp)]
    · rw [if_neg (by simp), if_pos (by simp)]

/-- C95: in the archived field the nodes from 8 to 36 east of the well, and those from 8 to 36 north of it, have weight 50 each (of 100): nothing but the exact pathlines of the models is needed to see
this. The nodes from 8 to 36 west of it have weight 0. -/
example (t : DateTime) : ∃ (d : Dict) (f : PField ℝ),
    loadOneka ((oneka twoWays (twoWaysEnv t)).events.foldl Effect.apply fun _ => none) (twoWaysEnv t).now.archiveName = .ok d ∧ d.get "pfield" = some (.field (.field f)) ∧
    ∀ p : ℤ, 2 ≤ p → p ≤ 9 → f.weightAt (1000 + p * 4) 1000 = 50 ∧ f.weightAt 1000 (1000 + p * 4) = 50 ∧ f.weightAt (1000 - p * 4) 1000 = 0 := by
  classical
  obtain ⟨d, f, k, w, h1, h2, h3, h4, h5⟩ := C95_call twoWays twoWaysInputs (twoWaysEnv t) _ twoWays_denotes (twoWays_returns t) (fun _ => none) (D := 365) (tol := 1) (maxstep := 1/30) rfl rfl rfl
    (by norm_num) (by norm_num) (by norm_num) (fun _ _ _ => rfl)
  obtain ⟨-, -, obs, k', w', -, -, -, -, h6, h7, h8, h9, -⟩ := C68_stochastic twoWays twoWaysInputs (twoWaysEnv t) _ twoWays_denotes (by simp [twoWaysInputs, exampleInputs]) (twoWays_returns t) (fun _ => none)
  obtain rfl : k = 0 := by simpa [twoWaysInputs, exampleInputs] using h3.symm
  obtain rfl : k' = 0 := by simpa [twoWaysInputs, exampleInputs] using h6.symm
  obtain rfl : w = ⟨1000, 1000, 1/4, .const 0⟩ := (Option.some.inj h4).symm
  obtain rfl : w' = ⟨1000, 1000, 1/4, .const 0⟩ := (Option.some.inj h7).symm
  have hl : (realizations (oneka twoWays (twoWaysEnv t)).events).length = 2 * 50 := by
    simp only [twoWaysInputs, exampleInputs] at h8
    omega
  have key := h5 (1/5) (fun i _ => twoWaysPath i) (fun i L hL j hj => by
    obtain rfl : j = 0 := by
      have : (j:ℤ) < 1 := hj
      omega
    have R := h9 i L hL
    have := twoWays_model i (twoWays_draws t i) R.wells_length (R.wells 0 _ rfl) R.conductivity R.porosity R.thickness (Except.ok.inj R.coef).symm
    rw [← twoWays_start] at this
    exact this)
  rw [hl] at key
  have bounds : ∀ (S : ℕ → Prop) (n : ℕ), (List.range (2 * 50)).countP (fun i => decide (S i)) = n → ∀ p q : ℤ, ∀ X Y : ℝ, X = 1000 + p * 4 → Y = 1000 + q * 4 →
      (∀ i, S i → Passes (twoWaysPath i) 365 (19/5) X Y) → (∀ i, Passes (twoWaysPath i) 365 (21/5) X Y → S i) → f.weightAt X Y = n := by
    intro S n hn p q X Y hX hY s1 s2
    obtain ⟨lo, hi⟩ := key p q (.inr (le_refl (4:ℝ))) X Y hX hY
    have e1 : (List.range (2 * 50)).countP (fun i => decide (S i)) ≤ (List.range (2 * 50)).countP (fun i => decide (∃ j : ℕ, (j:ℤ) < twoWaysInputs.run.npaths ∧
        Passes (twoWaysPath i) 365 (twoWaysInputs.run.umbra - 1/5) X Y)) := by
      refine List.countP_mono_left fun i _ h => ?_
      rw [decide_eq_true_eq] at h ⊢
      refine ⟨0, Int.zero_lt_one, ?_⟩
      rw [show twoWaysInputs.run.umbra - 1/5 = 19/5 by show (4:ℝ) - 1/5 = 19/5; norm_num]
      exact s1 i h
    have e2 : (List.range (2 * 50)).countP (fun i => decide (∃ j : ℕ, (j:ℤ) < twoWaysInputs.run.npaths ∧ Passes (twoWaysPath i) 365 (twoWaysInputs.run.umbra + 1/5) X Y)) ≤
        (List.range (2 * 50)).countP (fun i => decide (S i)) := by
      refine List.countP_mono_left fun i _ h => ?_
      rw [decide_eq_true_eq] at h ⊢
      obtain ⟨-, -, h⟩ := h
      rw [show twoWaysInputs.run.umbra + 1/5 = 21/5 by show (4:ℝ) + 1/5 = 21/5; norm_num] at h
      exact s2 i h
    rw [hn] at e1 e2
    exact le_antisymm (hi.trans (by exact_mod_cast e2)) (le_trans (by exact_mod_cast e1) lo)
  refine ⟨d, f, h1, h2, fun p p1 p2 => ?_⟩
  have q1 : (2:ℝ) ≤ p := by exact_mod_cast p1
  have q2 : (p:ℝ) ≤ 9 := by exact_mod_cast p2
  have far : ∀ {P : ℝ × ℝ} {X Y : ℝ}, euclid P (X, Y) < 21/5 → |X - P.1| < 21/5 ∧ |Y - P.2| < 21/5 := by
    intro P X Y h
    have := (norm_le_euclid P (X, Y)).trans_lt h
    rw [Prod.norm_def, max_lt_iff] at this
    exact this
  refine ⟨?_, ?_, ?_⟩
  · have := bounds (fun i => i % 2 = 0) 50 (by convert (range_even 50).1) p 0 (1000 + p * 4) 1000 rfl (by norm_num) (fun i hi => ⟨40 * p - 12.5, by linarith, by linarith, ?_⟩) (fun i ⟨s, s0, s1, h⟩ => ?_)
    · exact_mod_cast this
    · have : twoWaysPath i (40 * p - 12.5) = ((1000 + p * 4 : ℝ), (1000 : ℝ)) := by
        unfold twoWaysPath twoWaysDir
        rw [if_pos hi]
        refine Prod.ext ?_ ?_ <;> simp <;> ring
      rw [this]
      simp [euclid]
    · by_contra hn
      have := (far h).1
      simp only [twoWaysPath, twoWaysDir, if_neg hn] at this
      simp at this
      rw [abs_lt] at this
      linarith
  · have := bounds (fun i => i % 2 = 1) 50 (by convert (range_even 50).2) 0 p 1000 (1000 + p * 4) (by norm_num) rfl (fun i hi => ⟨40 * p, by linarith, by linarith, ?_⟩) (fun i ⟨s, s0, s1, h⟩ => ?_)
    · exact_mod_cast this
    · have : twoWaysPath i (40 * p) = ((1001.25 : ℝ), (1000 + p * 4 : ℝ)) := by
        unfold twoWaysPath twoWaysDir
        rw [if_neg (by omega)]
        refine Prod.ext ?_ ?_ <;> simp
        ring
      rw [this]
      simp only [euclid]
      rw [Real.sqrt_lt' (by norm_num)]
      norm_num
    · by_contra hn
      have := (far h).2
      simp only [twoWaysPath, twoWaysDir, if_pos (show i % 2 = 0 by omega)] at this
      have := (abs_lt.mp this).2
      simp at this
      linarith
  · have := bounds (fun _ => False) 0 (by simp) (-p) 0 (1000 - p * 4) 1000 (by push_cast; ring) (by norm_num) (fun i hi => hi.elim) (fun i ⟨s, s0, s1, h⟩ => ?_)
    · exact_mod_cast this
    · have := (far h).1
      simp only [twoWaysPath, twoWaysDir] at this
      split_ifs at this <;> simp at this <;> rw [abs_lt] at this <;> linarith

end Oneka
