import Verif.Lemmas.Binary64Path
import Verif.Lemmas.Binary64Range
import Verif.Props.RoundingAquifer

/-! # C118 A backtrace through an aquifer model neither overflows nor underflows -/

namespace Oneka
open Aquifer

section
variable [LibM]

/-- **C118.** The velocities along which backtraces are computed are the same in binary64 arithmetic. -/
theorem C118_velocity (hl : LogAccurate) {m : Aquifer Fl} (confined : Bool) {q : Fl × Fl} (hm : m.Ordinary) (hx : q.1.Ordinary) (hy : q.2.Ordinary) (ho : m.exact.OffWells q.1.val q.2.val) :
    Alike Is64Pair (m.to64.reverseVelocity confined (q.1.to64, q.2.to64)) (m.reverseVelocity confined q) :=
  (same_reverse hl confined hm hx hy ho).weaken fun _ _ h => h.is64

/-- **C118.** Let `Q` be any region: of points with ordinary coordinates, off the wells, with velocities up to `M`. A trace (with arguments of ordinary sizes, and magnitudes as in C92) that asks for velocities in `Q` only and gets
them without exception is the same in binary64 arithmetic, where everything - velocities, stages, error estimates, step control, time - is computed with limited exponents: same vertices, same steps, no warning. -/
theorem C118_trace (hl : LogAccurate) (hroot : RootAccurate) {m : Aquifer Fl} (hm : m.Ordinary) (confined : Bool) (Q : Fl × Fl → Prop) (M : ℝ)
    (hQ : ∀ q, Q q → q.1.Ordinary ∧ q.2.Ordinary ∧ m.exact.OffWells q.1.val q.2.val ∧ ∀ v, m.reverseVelocity confined q = .ok v → ‖fv v‖ ≤ M)
    (hM0 : 0 ≤ M) (hM : M ≤ 2 ^ 40) (xs ys D tol maxstep : Fl) (hD : D.Ordinary) (hD0 : 0 < D.val) (ht : tol.Ordinary) (ht0 : 0 < tol.val) (hx : maxstep.Ordinary) (hx0 : 0 < maxstep.val)
    (h1 : M * D.val ≤ 2 ^ 37 * tol.val) (h2 : M * D.val ≤ 2 ^ 37 * maxstep.val) (hs : ‖fv (xs, ys)‖ ≤ 2 ^ 47 * maxstep.val)
    {r : Trace Fl} (hr : computeBacktrace xs ys D tol maxstep (fun _ => within Q (m.reverseVelocity confined)) = some r) (hw : r.warning = none) :
    computeBacktrace xs ys D tol maxstep (fun _ => m.reverseVelocity confined) = some r ∧
      ∃ r64, computeBacktrace xs.to64 ys.to64 D.to64 tol.to64 maxstep.to64 (fun _ => m.to64.reverseVelocity confined) = some r64 ∧ Is64Trace r64 r := by
  have ok : ∀ n q v, (fun _ : ℕ => within Q (m.reverseVelocity confined)) n q = .ok v → Q q ∧ m.reverseVelocity confined q = .ok v := fun _ _ _ h => within_ok h
  have A : Answers (fun _ => m.to64.reverseVelocity confined) (fun _ => within Q (m.reverseVelocity confined)) M := by
    refine ⟨fun n q v h => ?_, fun n q v h => ?_, fun n q v h => ?_⟩ <;> obtain ⟨hq, hv⟩ := ok n q v h <;> obtain ⟨o1, o2, o3, o4⟩ := hQ q hq
    · exact ⟨o1, o2⟩
    · exact o4 v hv
    · have := same_reverse hl confined hm o1 o2 o3
      rw [hv] at this
      exact this.of_ok
  have hMz : M ≤ 2 ^ (40 : ℤ) := by exact_mod_cast hM
  obtain ⟨d, t, x⟩ := And.intro (hD.le_of_pos hD0) (And.intro (ht.ge_of_pos ht0) (hx.ge_of_pos hx0))
  have up : (2:ℝ) ^ (-50 : ℤ) ≤ 2 ^ (-40 : ℤ) := two_zpow_le (by norm_num)
  obtain ⟨δ, dd, B, hc⟩ := bounded_of A.bound hM0 hD0 (by exact_mod_cast d) (up.trans t) (up.trans x) h1 h2
  have hd := step_lower B.d0 hD0 hM0 hMz (hD.ge_of_pos hD0) t x hc
  exact ⟨backtrace_agree (fun n q v h => (ok n q v h).2) hw hr, shadow_trace hroot A hMz B hd hD ht hx hs hw hr⟩

/-- **C118.** So in binary64 arithmetic, too, a trace follows the exact pathline `X` upstream, under the conditions of C94, if all magnitudes are ordinary; in particular the coordinates of the points of the tube are not tiny, as is
the case with map coordinates. -/
theorem C118_follows (hlog : LogAccurate) (hroot : RootAccurate) (m : Aquifer Fl) (hm : m.Ordinary) (confined : Bool) (f : ℝ × ℝ → ℝ × ℝ) (hup : m.exact.Upstream confined f)
    (X : ℝ → ℝ × ℝ) (xs ys D tol maxstep : Fl) (L M H ρ R ν η μ mm T : ℝ) (N : ℕ)
    (hη : η = 2 ^ (-53 : ℤ) * (R + 18 * ρ)) (hμ : μ = ν + L * η) (hmm : mm = maxstep.val * (1 + 2 ^ (-51 : ℤ)) + η + 3 * (H * μ)) (hT : T = D.val * (1 + (N + 1) * 2 ^ (-52 : ℤ)))
    (hX : Pathline f (fv (xs, ys)) T X) (hR : ∀ t, 0 ≤ t → t ≤ T → ‖X t‖ ≤ R) (hf : Moderate f (Tube X T ρ) L M)
    (hflow : ∀ q ∈ Tube X T ρ, m.exact.OffWells q.1 q.2 ∧ (100 + 7 * m.wells.length) * 2 ^ (-53 : ℤ) * m.exact.condition confined q.1 q.2 ≤ 1/100 ∧
      ∃ b, m.exact.Saturated confined q.1 q.2 b ∧
        (100 + 7 * m.wells.length) * 2 ^ (-53 : ℤ) * m.exact.condition confined q.1 q.2 * (m.exact.dischargeTerms q.1 q.2 / (m.exact.porosity * b)) ≤ ν)
    (hplace : ∀ q ∈ Tube X T ρ, (2 ^ (-40 : ℤ) ≤ |q.1| ∧ |q.1| ≤ 2 ^ (40 : ℤ)) ∧ (2 ^ (-40 : ℤ) ≤ |q.2| ∧ |q.2| ≤ 2 ^ (40 : ℤ)))
    (hD : D.Ordinary) (hD0 : 0 < D.val) (ht : tol.Ordinary) (ht0 : 0 < tol.val) (hx : maxstep.Ordinary) (hx0 : 0 < maxstep.val) (hM40 : M + ν ≤ 2 ^ 40)
    (h1 : (M + ν) * D.val ≤ 2 ^ 37 * tol.val) (h2 : (M + ν) * D.val ≤ 2 ^ 37 * maxstep.val) (hs : ‖fv (xs, ys)‖ ≤ 2 ^ 47 * maxstep.val)
    (hL : 0 < L) (hM : 0 ≤ M) (hH : 11/100 ≤ H) (hν : 0 ≤ ν) (hρ0 : 0 ≤ ρ) (hLH : L * H ≤ 1/100)
    (hρ : 22 * mm * (Real.exp (L * T) - 1) + (N * η + 2 * (T * μ)) * Real.exp (L * T) + 25 * (H * (M + μ)) + η ≤ ρ)
    (hfast : ∀ q ∈ Tube X T ρ, 6/5 * maxstep.val ≤ H * ‖f q‖) (hfine : 3 * (H * μ) + 10 * η ≤ maxstep.val / 100)
    (hN : 9 + 40 * D.val + 16 * ((M + ν) * D.val / tol.val) + 288 * ((M + ν) * D.val / maxstep.val) ≤ N) :
    ∃ r64, computeBacktrace xs.to64 ys.to64 D.to64 tol.to64 maxstep.to64 (fun _ => m.to64.reverseVelocity confined) = some r64 ∧ r64.warning = none ∧
      ∃ path : List (ℝ × (Fl × Fl)), List.Forall₂ Is64Pair r64.vertices ((xs, ys) :: path.map Prod.snd) ∧ ((0, (xs, ys)) :: path).IsChain (StrideFl H (maxstep.val * (1 + 2 ^ (-51 : ℤ)))) ∧
        (∀ v ∈ path, v.1 ≤ T ∧ ‖fv v.2 - X v.1‖ ≤ 22 * mm * (Real.exp (L * v.1) - 1) + (N * η + 2 * (v.1 * μ)) * Real.exp (L * v.1)) ∧
        ∃ t, (0 :: path.map Prod.fst).getLast? = some t ∧ |t - D.val| ≤ (N + 1) * (2 ^ (-52 : ℤ) * D.val) := by
  have hphys : m.exact.Physical := ⟨hm.conductivity.2, hm.porosity.2, hm.thickness.2⟩
  have vel : ∀ q : Fl × Fl, fv q ∈ Tube X T ρ → ∃ v, m.reverseVelocity confined q = .ok v ∧ ‖fv v - f (fv q)‖ ≤ ν := by
    intro q hq
    obtain ⟨hoff, hκ, b, hb, hle⟩ := hflow _ hq
    obtain ⟨v, hv, h⟩ := C93_velocity hlog m hphys confined f hup q b hoff hb hκ
    exact ⟨v, hv, h.trans hle⟩
  have up : (2:ℝ) ^ (-50 : ℤ) ≤ 2 ^ (-40 : ℤ) := two_zpow_le (by norm_num)
  obtain ⟨r, hr, hw, path, p1, p2, p3, p4⟩ := C91_follows hroot (fun _ => within (fun q => fv q ∈ Tube X T ρ) (m.reverseVelocity confined)) f X xs ys D tol maxstep L M H ρ R ν η μ mm T N hη hμ hmm hT hX hR hf
    (fun n q v hq hv => by
      obtain ⟨v', hv', h⟩ := vel q hq
      rw [(within_ok hv).2] at hv'
      exact Except.ok.inj hv' ▸ h)
    (fun n q hq => by
      obtain ⟨v, hv, -⟩ := vel q hq
      exact ⟨v, by simp only [within, if_pos hq]; exact hv⟩)
    hD0 (by exact_mod_cast hD.le_of_pos hD0) (up.trans (ht.ge_of_pos ht0)) (up.trans (hx.ge_of_pos hx0)) h1 h2 hs hL hM hH hν hρ0 hLH hρ hfast hfine hN
  obtain ⟨-, r64, e1, e2⟩ := C118_trace hlog hroot hm confined (fun q => fv q ∈ Tube X T ρ) (M + ν) (fun q hq => by
    obtain ⟨v, hv, h⟩ := vel q hq
    obtain ⟨b1, b2⟩ := hplace _ hq
    refine ⟨Or.inr b1, Or.inr b2, (hflow _ hq).1, fun v' hv' => ?_⟩
    obtain rfl := Except.ok.inj (hv'.symm.trans hv)
    have := norm_add_le (fv v' - f (fv q)) (f (fv q))
    rw [sub_add_cancel] at this
    linarith [hf.bound _ hq]) (by linarith) hM40 xs ys D tol maxstep hD hD0 ht ht0 hx hx0 h1 h2 hs hr hw
  have ew := e2.warning
  refine ⟨r64, e1, ?_, path, p1 ▸ e2.vertices, p2, p3, p4⟩
  rw [hw] at ew
  cases e : r64.warning with
  | none => rfl
  | some w => rw [e] at ew; exact ew.elim

end

/-! ## Example: uniform flow -/

/-- A confined aquifer with uniform flow: porosity 1/4, thickness 4, the potential increases by 1 per metre to the east. -/
noncomputable def drift : Aquifer Fl := ⟨0, Fl.of (1 : ℕ), Fl.of (2 ^ (-2 : ℤ)), Fl.of (4 : ℕ), [], 0, 0, fun i => if i = 3 then Fl.of (1 : ℕ) else 0⟩

theorem drift_exact : drift.exact = ⟨0, 1, 1/4, 4, [], 0, 0, fun i => if i = 3 then 1 else 0⟩ := by
  have h1 := of_nat (n := 1) (by norm_num)
  have h2 := of_nat (n := 4) (by norm_num)
  have h5 := of_pow (k := -2)
  have e5 : (2:ℝ) ^ (-2 : ℤ) = 1/4 := by norm_num [zpow_neg]
  unfold exact drift
  simp only [List.map_nil]
  rw [h1, h2, h5, e5, Fl.zero_val, Nat.cast_one, Nat.cast_ofNat]
  congr 1
  funext i
  split_ifs
  · simpa using h1
  · exact Fl.zero_val

theorem drift_ordinary : drift.Ordinary := by
  have h1 := of_nat (n := 1) (by norm_num)
  have h2 := of_nat (n := 4) (by norm_num)
  have h5 := of_pow (k := -2)
  have o1 : (Fl.of (1 : ℕ)).Ordinary := Fl.Ordinary.of_val h1 (by norm_num) (by norm_num)
  refine ⟨⟨o1, ?_⟩, ⟨Fl.Ordinary.of_val h5 (by norm_num) (by norm_num), ?_⟩, ⟨Fl.Ordinary.of_val h2 (by norm_num) (by norm_num), ?_⟩, Fl.Ordinary.zero, Fl.Ordinary.zero, fun i => ?_, ?_, ?_⟩
  · show 0 < (Fl.of (1 : ℕ)).val
    rw [h1]; norm_num
  · show 0 < (Fl.of (2 ^ (-2 : ℤ))).val
    rw [h5]; positivity
  · show 0 < (Fl.of (4 : ℕ)).val
    rw [h2]; norm_num
  · show (if i = 3 then Fl.of (1 : ℕ) else 0 : Fl).Ordinary
    split_ifs
    · exact o1
    · exact Fl.Ordinary.zero
  · intro w hw; exact absurd hw (by simp [drift])
  · simp [drift]

theorem drift_upstream : drift.exact.Upstream true fun _ => (1, 0) := by
  rw [drift_exact]
  intro x y b hoff hs
  obtain ⟨d1, d2⟩ := C29_partials _ x y hoff
  simp only [Saturated, if_true] at hs
  subst hs
  constructor
  · refine d1.congr_deriv ?_
    rw [discharge_eq]
    simp
  · refine d2.congr_deriv ?_
    rw [discharge_eq]
    simp

theorem drift_tube {T : ℝ} (hT : T ≤ 101) {q : ℝ × ℝ} (h : q ∈ Tube (fun t => ((4096 + t, 4096) : ℝ × ℝ)) T 60) : |q.1 - 4096| ≤ 161 ∧ |q.2 - 4096| ≤ 60 := by
  obtain ⟨t, t0, tT, h⟩ := h
  rw [Prod.norm_def, max_le_iff, Real.norm_eq_abs, Real.norm_eq_abs] at h
  simp only [Prod.fst_sub, Prod.snd_sub] at h
  refine ⟨?_, h.2⟩
  have := abs_le.mp h.1
  rw [abs_le]
  constructor <;> linarith

/-- C118: a hundred days upstream; in binary64 arithmetic all vertices are within a metre of the exact pathline. -/
example : letI := nearestLib
    ∃ r64, computeBacktrace (Fl.of (4096 : ℕ)).to64 (Fl.of (4096 : ℕ)).to64 (Fl.of (100 : ℕ)).to64 (Fl.of (1 : ℕ)).to64 (Fl.of (1 : ℕ)).to64 (fun _ => drift.to64.reverseVelocity true) = some r64 ∧ r64.warning = none ∧
      ∃ path : List (ℝ × (Fl × Fl)), List.Forall₂ Is64Pair r64.vertices ((Fl.of (4096 : ℕ), Fl.of (4096 : ℕ)) :: path.map Prod.snd) ∧ (∀ v ∈ path, ‖fv v.2 - (4096 + v.1, 4096)‖ ≤ 1) ∧
        ∃ t, (0 :: path.map Prod.fst).getLast? = some t ∧ |t - 100| ≤ 1/1000000 := by
  let _ := nearestLib
  have a : (Fl.of (4096 : ℕ)).val = 4096 := by rw [of_nat (by norm_num)]; norm_num
  have b : (Fl.of (100 : ℕ)).val = 100 := by rw [of_nat (by norm_num)]; norm_num
  have c : (Fl.of (1 : ℕ)).val = 1 := by rw [of_nat (by norm_num)]; norm_num
  have e0 : fv (Fl.of (4096 : ℕ), Fl.of (4096 : ℕ)) = (4096, 4096) := by unfold fv; rw [a]
  have hT : (100:ℝ) * (1 + ((40000 : ℕ) + 1) * (2:ℝ) ^ (-52 : ℤ)) ≤ 101 := by norm_num [zpow_neg]
  have hexp : ∀ T : ℝ, T ≤ 101 → Real.exp (1/10000 * T) ≤ 1 + 103/10000 := by
    intro T hT
    have h := Real.exp_bound' (x := 101/10000) (by norm_num) (by norm_num) (n := 2) (by norm_num)
    have h' : Real.exp (1/10000 * T) ≤ Real.exp (101/10000) := Real.exp_le_exp.mpr (by linarith)
    refine (h'.trans h).trans ?_
    simp [Finset.sum_range_succ, Nat.factorial]
    norm_num
  obtain ⟨r64, hr, hw, path, p1, p2, p3, t, p4, p5⟩ := C118_follows nearestLib_log nearestLib_root drift drift_ordinary true (fun _ => (1, 0)) drift_upstream (fun t => (4096 + t, 4096)) (Fl.of (4096 : ℕ))
    (Fl.of (4096 : ℕ)) (Fl.of (100 : ℕ)) (Fl.of (1 : ℕ)) (Fl.of (1 : ℕ)) (1/10000) 1 2 60 4200 (1/10000000000) _ _ _ _ 40000 rfl rfl rfl rfl (by
      rw [e0]
      refine ⟨by norm_num, fun t _ _ => ?_⟩
      exact ((hasDerivAt_id t).const_add 4096).prodMk (hasDerivAt_const t (4096:ℝ))) (by
      intro t t0 tT
      rw [b] at tT
      refine (Prod.norm_def _).trans_le (max_le ?_ ?_)
      · rw [Real.norm_eq_abs, abs_of_nonneg (by linarith)]; linarith
      · rw [Real.norm_eq_abs]; norm_num) ⟨by
        intro a _ b _
        rw [sub_self, norm_zero]
        positivity, by intro a _; rw [Prod.norm_def]; norm_num⟩ (by
      intro q _
      rw [drift_exact]
      refine ⟨fun w hw => absurd hw (by simp), ?_, 4, by simp [Saturated], ?_⟩
      · simp only [condition, if_true, drift]; norm_num [zpow_neg]
      · simp only [condition, if_true, drift, dischargeTerms]
        simp
        norm_num [zpow_neg]) (by
      intro q hq
      rw [b] at hq
      obtain ⟨q1, q2⟩ := drift_tube hT hq
      have q1 := abs_le.mp q1
      have q2 := abs_le.mp q2
      rw [abs_of_pos (by linarith), abs_of_pos (by linarith)]
      norm_num
      refine ⟨⟨?_, ?_⟩, ?_, ?_⟩ <;> linarith)
    (Fl.Ordinary.of_val b (by norm_num) (by norm_num)) (by rw [b]; norm_num) (Fl.Ordinary.of_val c (by norm_num) (by norm_num)) (by rw [c]; norm_num) (Fl.Ordinary.of_val c (by norm_num) (by norm_num))
    (by rw [c]; norm_num) (by norm_num) (by rw [b, c]; norm_num) (by rw [b, c]; norm_num)
    (by rw [e0, c, Prod.norm_def]; norm_num) (by norm_num) (by norm_num) (by norm_num) (by norm_num) (by norm_num) (by norm_num) (by
      rw [b, c]
      have h := hexp _ hT
      have h0 := Real.exp_pos (1/10000 * (100 * (1 + ((40000 : ℕ) + 1) * (2:ℝ) ^ (-52 : ℤ))))
      set E := Real.exp (1/10000 * (100 * (1 + ((40000 : ℕ) + 1) * (2:ℝ) ^ (-52 : ℤ))))
      norm_num [zpow_neg]
      linarith) (by
      intro q hq
      rw [c, Prod.norm_def]; norm_num) (by rw [c]; norm_num [zpow_neg]) (by rw [b, c]; norm_num)
  refine ⟨r64, hr, hw, path, p1, fun v hv => ?_, t, p4, ?_⟩
  · obtain ⟨u, w⟩ := p3 v hv
    refine w.trans ?_
    rw [b] at u
    have v0 : 0 ≤ v.1 := by
      have := List.isChain_iff_pairwise.mp (strides_times p2)
      rw [List.pairwise_cons] at this
      exact (this.1 v.1 (List.mem_map_of_mem hv)).le
    have u' := u.trans hT
    have h3 := hexp _ u'
    have h4 := Real.exp_pos (1/10000 * v.1)
    rw [c]
    set E := Real.exp (1/10000 * v.1)
    have h5 : v.1 * E ≤ 101 * (1 + 103/10000) := mul_le_mul u' h3 h4.le (by norm_num)
    norm_num [zpow_neg]
    nlinarith
  · rw [b] at p5
    refine p5.trans ?_
    norm_num [zpow_neg]

end Oneka
