import Verif.Lemmas.FlFollowCore

/-!
# C105: capture zones in floating-point arithmetic

Everything is computed with rounding: the starting points, the velocities, the traces, the step control, the field and its weights. Only the models of the realizations are given. All distances
are Euclidean unless the max-norm is written. Example: `Props/RoundingZoneExamples.lean`.
-/

namespace Oneka

open PField

section
variable [LibM]

/-- C105: the starting points. If cosine and sine of the library are accurate, start `j` of `n` is at the angle `2πj/n` on the circle of radius `rtarget + 1` around the target, up to `2^-47` of
the radius and a rounding of the coordinate of the target. -/
theorem C105_starts (htrig : TrigAccurate) (xt yt rt : Fl) (n j : ℕ) (hj : j < n) (hn : n ≤ 2 ^ 53) :
    ∃ θ, (flAngles n)[j]? = some θ ∧
      |(flStart xt yt rt θ).1.val - (xt.val + (rt.val + 1) * Real.cos (2 * Real.pi * j / n))| ≤ 2 ^ (-47 : ℤ) * |rt.val + 1| + 2 ^ (-53 : ℤ) * |xt.val| ∧
      |(flStart xt yt rt θ).2.val - (yt.val + (rt.val + 1) * Real.sin (2 * Real.pi * j / n))| ≤ 2 ^ (-47 : ℤ) * |rt.val + 1| + 2 ^ (-53 : ℤ) * |yt.val| := by
  refine ⟨_, angle_get n j hj, ?_⟩
  have ha := angle_near htrig n j hj hn
  set θ := (j : Fl) * ((2 * LibM.pi - 0) / ((n : ℕ) : Fl)) + 0
  set Θ := 2 * Real.pi * j / n
  have h7 : |θ.val| ≤ 7 := by
    have hn0 : (0:ℝ) < n := by exact_mod_cast (by omega : 0 < n)
    have hjn : (j:ℝ) ≤ n := by exact_mod_cast hj.le
    have h1 : Θ ≤ 6.3 := by
      change 2 * Real.pi * j / n ≤ _
      rw [div_le_iff₀ hn0]
      nlinarith [Real.pi_lt_d2, Real.pi_pos]
    have h0 : 0 ≤ Θ := by positivity
    have h2 : 41 * (2:ℝ) ^ (-53 : ℤ) ≤ 1/2 := by norm_num [zpow_neg]
    have := abs_le.mp (ha.trans h2)
    rw [abs_le]
    constructor <;> linarith
  have e52 : (2:ℝ) ^ (-52 : ℤ) + 41 * 2 ^ (-53 : ℤ) = 43 * 2 ^ (-53 : ℤ) := by norm_num [zpow_neg]
  have hcos : |(LibM.cos θ).val - Real.cos Θ| ≤ 43 * 2 ^ (-53 : ℤ) := by
    have h1 := htrig.cos θ h7
    have h2 := (Real.abs_cos_sub_cos_le θ.val Θ).trans ha
    have := abs_add_le ((LibM.cos θ).val - Real.cos θ.val) (Real.cos θ.val - Real.cos Θ)
    rw [sub_add_sub_cancel] at this
    linarith
  have hsin : |(LibM.sin θ).val - Real.sin Θ| ≤ 43 * 2 ^ (-53 : ℤ) := by
    have h1 := htrig.sin θ h7
    have h2 := (Real.abs_sin_sub_sin_le θ.val Θ).trans ha
    have := abs_add_le ((LibM.sin θ).val - Real.sin θ.val) (Real.sin θ.val - Real.sin Θ)
    rw [sub_add_sub_cancel] at this
    linarith
  unfold flStart
  dsimp only
  rw [Fl.val_add, Fl.val_mul, Fl.val_add, Fl.val_add, Fl.val_mul, Fl.val_add, one_fl]
  exact ⟨coordinate_near hcos (Real.abs_cos_le_one _), coordinate_near hsin (Real.abs_sin_le_one _)⟩

/-- C105: a trace computed with rounding, under the conditions of C94: it returns, without warning; its vertices are within the coordinates stated and at most `maxstep` (give or take a
rounding) apart; every place that the exact pathline passes within `u - δ` is within `u` of the trace, and every place within `u` of the trace is passed by the exact pathline within `u + δ`. -/
theorem C105_track (hlog : LogAccurate) (hroot : RootAccurate) {m : Aquifer Fl} {confined : Bool} {start : Fl × Fl} {D tol maxstep : Fl} {Qx Qy δ : ℝ} {P : ℝ → ℝ × ℝ}
    (h : RoundedFollows m confined start D tol maxstep Qx Qy δ P) :
    ∃ r, computeBacktrace start.1 start.2 D tol maxstep (fun _ => m.reverseVelocity confined) = some r ∧ r.warning = none ∧
      (∀ v ∈ r.vertices, |v.1.val| ≤ Qx ∧ |v.2.val| ≤ Qy) ∧ (∀ a b, [a, b] <:+: r.vertices → ‖fv b - fv a‖ ≤ maxstep.val * (1 + 2 ^ (-51 : ℤ))) ∧
      ∀ u X Y, (Passes P D.val (u - δ) X Y → NearTrack (r.vertices.map fv) u X Y) ∧ (0 ≤ u → NearTrack (r.vertices.map fv) u X Y → Passes P D.val (u + δ) X Y) :=
  followed_track hroot (rounded_core hlog h)

open Classical in
/-- C105: the whole zone. Let the target and the spacing fit the axes (C89), `S` be at least the umbra and twice `maxstep`, `η` be at least 2000 roundings of `S²/umbra`, and let the traces of each
model from each start follow exact pathlines `P i j` up to `δ`, within the reach of the axes. Then the call returns a field; its total weight is the number of realizations; and the weight of a
node is at least the number of realizations with an exact pathline passing within the umbra less `η + δ`, and at most the number of realizations with an exact pathline passing within the umbra
plus `η + δ`. (For the nodes around the target; for all lattice positions if the umbra does not exceed the spacing.) -/
theorem C105_frequencies (hlog : LogAccurate) (hroot : RootAccurate) {A B : Axis} {S η δ : ℝ} (xt yt rt D u d tol maxstep : Fl) (n : ℕ) (confined : Bool) (ms : List (Aquifer Fl))
    (hd : 0 < d.val) (hA : A.Fits xt.val d.val) (hB : B.Fits yt.val d.val) (η0 : 0 ≤ η) (hηu : η ≤ u.val) (huS : u.val ≤ S) (hmS : 2 * maxstep.val ≤ S)
    (hη : 2000 * (2 ^ (-53 : ℤ) * S ^ 2) ≤ u.val * η) (hlen : ms.length ≤ 2 ^ 53) (P : ℕ → ℕ → ℝ → ℝ × ℝ)
    (hP : ∀ i m, ms[i]? = some m → ∀ j θ, (flAngles n)[j]? = some θ → RoundedFollows m confined (flStart xt yt rt θ) D tol maxstep A.reach B.reach δ (P i j)) :
    ∃ f, flZones xt yt rt n D u d tol maxstep confined ms = some (.ok f) ∧ f.exact.total = ms.length ∧
      ∀ p q : ℤ, (|p| ≤ 1 ∧ |q| ≤ 1) ∨ u.val ≤ d.val → ∀ X Y : ℝ, X = xt.val + p * d.val → Y = yt.val + q * d.val →
        ((List.range ms.length).countP fun i => ∃ j, j < n ∧ Passes (P i j) D.val (u.val - η - δ) X Y) ≤ f.exact.weightAt X Y ∧
        f.exact.weightAt X Y ≤ ((List.range ms.length).countP fun i => ∃ j, j < n ∧ Passes (P i j) D.val (u.val + η + δ) X Y) :=
  followed_frequencies hroot xt yt rt D u d tol maxstep n confined ms hd hA hB η0 hηu huS hmS hη hlen P fun i m hm j θ hθ => rounded_core hlog (hP i m hm j θ hθ)

end

end Oneka
