import Verif.Lemmas.Width
import Verif.Lemmas.NearWell
import Verif.Props.Arrival

/-!
# C142: how wide the capture zone of a well in a uniform flow can be

Vocabulary: Spec/Width.lean. Examples: Props/WidthExamples.lean.
-/

namespace Oneka

open Aquifer

/-- **C142.** The streamlines: while water moves from `γ 0` to `γ τ`, what it loses in distance from the axis (times the discharge of the uniform flow) is the discharge of the well times the angle by which its bearing from the well has turned, in full turns
(with the constant of the program for `1 / 2π`). -/
theorem C142_streamline {m : Aquifer ℝ} (hm : m.Physical) {w : Well ℝ} {u v : ℝ} (h : m.UniformFlow w u v) (hq : 0 ≤ w.qw) {confined : Bool} {γ : ℝ → ℝ × ℝ} {τ : ℝ} (h0 : 0 ≤ τ) (hγ : m.Carries confined γ τ)
    (hne : leftOf w u v (γ τ) ≠ 0) :
    ∃ c : ℝ, |2 * Real.pi * c - 1| < 1 / 10 ^ 16 ∧ leftOf w u v (γ 0) - leftOf w u v (γ τ) = w.qw * c * (bearing w u v (γ 0) - bearing w u v (γ τ)) :=
  ⟨_, twoPiInv_close, streamline hm h hq hγ h0 hne⟩

/-- **C142.** Water comes nearer to the axis all the time; but not by more than half the discharge of the well divided by the discharge of the uniform flow. (Up to the rounding of `1 / 2π` in the program.) -/
theorem C142_width {m : Aquifer ℝ} (hm : m.Physical) {w : Well ℝ} {u v : ℝ} (h : m.UniformFlow w u v) (hq : 0 ≤ w.qw) (hU : 0 < u ^ 2 + v ^ 2) {confined : Bool} {γ : ℝ → ℝ × ℝ} {τ : ℝ} (h0 : 0 ≤ τ) (hγ : m.Carries confined γ τ) :
    fromAxis w u v (γ τ) ≤ fromAxis w u v (γ 0) ∧ fromAxis w u v (γ 0) ≤ fromAxis w u v (γ τ) + (1 + 1 / 10 ^ 16) * halfWidth w u v := by
  unfold halfWidth
  have hs : 0 < Real.sqrt (u ^ 2 + v ^ 2) := Real.sqrt_pos.mpr hU
  constructor
  · have := leftOf_antitone hm h hq hγ ⟨le_rfl, h0⟩ ⟨h0, le_rfl⟩ h0
    exact div_le_div_of_nonneg_right (sq_le_sq.mp this) hs.le
  · have h1 := leftOf_bound hm h hq hγ h0
    have h2 := (abs_lt.mp twoPiInv_close).2
    have h3 : w.qw * ((twoPiInv : ℝ) * Real.pi) ≤ w.qw * ((1 + 1 / 10 ^ 16) / 2) := mul_le_mul_of_nonneg_left (by linarith) hq
    unfold fromAxis
    rw [div_le_iff₀ hs, add_mul, div_mul_cancel₀ _ hs.ne']
    have e : (1 + 1 / 10 ^ 16) * (w.qw / (2 * Real.sqrt (u ^ 2 + v ^ 2))) * Real.sqrt (u ^ 2 + v ^ 2) = w.qw * ((1 + 1 / 10 ^ 16) / 2) := by
      field_simp
    rw [e]
    linarith

/-- **C142.** Nor does water come back from farther downstream than the stagnation point, which is as far below the well as the discharge of the well divided by 2π and by the discharge of the uniform flow. -/
theorem C142_stagnation {m : Aquifer ℝ} (hm : m.Physical) {w : Well ℝ} {u v : ℝ} (h : m.UniformFlow w u v) (hq : 0 ≤ w.qw) (hU : 0 < u ^ 2 + v ^ 2) {confined : Bool} {γ : ℝ → ℝ × ℝ} {τ : ℝ} (h0 : 0 ≤ τ) (hγ : m.Carries confined γ τ) :
    below w u v (γ 0) ≤ max (below w u v (γ τ)) ((1 + 1 / 10 ^ 16) * stagnation w u v) := by
  unfold below stagnation
  have hs : 0 < Real.sqrt (u ^ 2 + v ^ 2) := Real.sqrt_pos.mpr hU
  have h1 := downstream_bound hm h hq hγ h0
  have h2 := (abs_lt.mp twoPiInv_close).2
  have h3 : w.qw * (twoPiInv : ℝ) ≤ (1 + 1 / 10 ^ 16) * (w.qw / (2 * Real.pi * Real.sqrt (u ^ 2 + v ^ 2))) * Real.sqrt (u ^ 2 + v ^ 2) := by
    have e : (1 + 1 / 10 ^ 16) * (w.qw / (2 * Real.pi * Real.sqrt (u ^ 2 + v ^ 2))) * Real.sqrt (u ^ 2 + v ^ 2) = w.qw * ((1 + 1 / 10 ^ 16) / (2 * Real.pi)) := by
      field_simp
    rw [e]
    refine mul_le_mul_of_nonneg_left ?_ hq
    rw [le_div_iff₀ Real.two_pi_pos]
    linarith
  rcases le_max_iff.mp h1 with h4 | h4
  · exact le_max_of_le_left (div_le_div_of_nonneg_right h4 hs.le)
  · refine le_max_of_le_right ?_
    rw [div_le_iff₀ hs]
    exact h4.trans h3

/-- **C142.** So the places from which water is carried to a starting point of a trace are not farther from the axis than that, plus the radius of the well and one metre; and not farther downstream than the stagnation point or the starting points. -/
theorem C142_delivers {m : Aquifer ℝ} (hm : m.Physical) {w : Well ℝ} {u v : ℝ} (h : m.UniformFlow w u v) (hq : 0 ≤ w.qw) (hr : 0 ≤ w.rw) (hU : 0 < u ^ 2 + v ^ 2) {confined : Bool} {D d X Y : ℝ} (t : SWell) (hx : t.xw = w.xw)
    (hy : t.yw = w.yw) (ht : t.rw = w.rw) (n : ℤ) (k : ℕ) (hd : m.Delivers confined D d X Y (t.start n k)) :
    fromAxis w u v (X, Y) < d + (w.rw + 1) + (1 + 1 / 10 ^ 16) * halfWidth w u v ∧ below w u v (X, Y) < d + max (w.rw + 1) ((1 + 1 / 10 ^ 16) * stagnation w u v) := by
  obtain ⟨γ, τ, h0, -, hγ, hd, hs⟩ := hd
  obtain ⟨-, h2⟩ := C142_width hm h hq hU h0 hγ
  have h3 := fromAxis_lipschitz w hU (X, Y) (γ 0)
  have h4 := fromAxis_le w hU (γ τ)
  have h5 := C142_stagnation hm h hq hU h0 hγ
  have h6 := below_lipschitz w hU (X, Y) (γ 0)
  have h7 := below_le w hU (γ τ)
  rw [hs, ← hx, ← hy, C131_start t (ht ▸ hr)] at h4 h7
  rw [euclid_comm] at hd
  rw [hs] at h2 h5
  rw [ht] at h4 h7
  refine ⟨by linarith, ?_⟩
  have h8 : max (below w u v (t.start n k)) ((1 + 1 / 10 ^ 16) * stagnation w u v) ≤ max (w.rw + 1) ((1 + 1 / 10 ^ 16) * stagnation w u v) := max_le_max h7 le_rfl
  linarith

/-- **C142.** A realization with a uniform flow captures no place farther from the axis than half the discharge of the well divided by the discharge of the uniform flow, plus the radius of the well, one metre, the umbra and the accuracy of the traces; and none farther downstream than the stagnation point or the starting points, plus umbra and accuracy. -/
theorem C142_captures {a : RunArgs} {la : LinAlg} {t : SWell} {q : Dist → ℕ → Except PyErr ℝ} {coefs : (Fin 6 → ℝ) → Matrix (Fin 6) (Fin 6) ℝ → Except PyErr (Fin 6 → ℝ)}
    {interrupt : ℕ → ℕ → Option PyErr} {T : RealizationLog} (R : Realized a la t q coefs interrupt T) {D tol maxstep δ : ℝ} (hd : a.duration = .fin D) (ht : a.tol = .fin tol)
    (hm : a.maxstep = .fin maxstep) (hD : 0 < D) (htol : (10/9)^5 * (2:ℝ)^(-52 : ℤ) < tol) (hmax : (10/9) * (2:ℝ)^(-52 : ℤ) < maxstep) (hi : ∀ k n, interrupt k n = none)
    (hP : ∀ k : ℕ, k < a.npaths → ∃ P, Follows T.model a.confined (t.start a.npaths k) D maxstep δ P) (hphys : T.model.Physical) {w : Well ℝ} {u v : ℝ} (h : T.model.UniformFlow w u v) (hq : 0 ≤ w.qw) (hr : 0 ≤ w.rw)
    (hU : 0 < u ^ 2 + v ^ 2) (htw : t ∈ a.wells) (umbra X Y : ℝ) (hu : 0 ≤ umbra) (hc : T.Captures umbra X Y) :
    fromAxis w u v (X, Y) < umbra + δ + (t.rw + 1) + (1 + 1 / 10 ^ 16) * halfWidth w u v ∧ below w u v (X, Y) < umbra + δ + max (t.rw + 1) ((1 + 1 / 10 ^ 16) * stagnation w u v) := by
  obtain ⟨k, -, hdel⟩ := (C131_captures R hd ht hm hD htol hmax hi hP umbra X Y).2 hu hc
  obtain ⟨hx, hy, hrw⟩ := only_well R htw h.wells
  have := C142_delivers hphys h hq hr hU t hx hy hrw _ _ hdel
  rw [hrw]
  exact this

open Classical in
/-- **C142.** What is archived: the weight of a node counts no realization with a uniform flow from whose axis the node is farther than that. -/
theorem C142_archived (a : PyArgs) (n : Inputs) (env : CallEnv) (v : PyVal) (hden : a.Denotes n) (h : (oneka a env).ending = .returns v) (fs : Files)
    {D tol maxstep δ : ℝ} (hd : n.run.duration = .fin D) (ht : n.run.tol = .fin tol) (hm : n.run.maxstep = .fin maxstep) (hD : 0 < D) (htol : (10/9)^5 * (2:ℝ)^(-52 : ℤ) < tol)
    (hmax : (10/9) * (2:ℝ)^(-52 : ℤ) < maxstep) (hi : ∀ i k j, env.run.interrupt i k j = none) :
    ∃ (d : Dict) (f : PField ℝ) (k : ℕ) (t : SWell),
      loadOneka ((oneka a env).events.foldl Effect.apply fs) env.now.archiveName = .ok d ∧ d.get "pfield" = some (.field (.field f)) ∧ n.run.target = k ∧ n.run.wells[k]? = some t ∧
      ((∀ L ∈ realizations (oneka a env).events, L.model.Physical ∧ ∀ j : ℕ, j < n.run.npaths → ∃ P, Follows L.model n.run.confined (t.start n.run.npaths j) D maxstep δ P) →
        ∀ p q : ℤ, (|p| ≤ 1 ∧ |q| ≤ 1) ∨ n.run.umbra ≤ n.run.spacing → ∀ X Y : ℝ, X = t.xw + p * n.run.spacing → Y = t.yw + q * n.run.spacing →
          f.weightAt X Y ≤ ((realizations (oneka a env).events).countP fun L => ∀ w u v, L.model.UniformFlow w u v → 0 ≤ w.qw → 0 < u ^ 2 + v ^ 2 →
            fromAxis w u v (X, Y) < n.run.umbra + δ + (t.rw + 1) + (1 + 1 / 10 ^ 16) * halfWidth w u v ∧ below w u v (X, Y) < n.run.umbra + δ + max (t.rw + 1) ((1 + 1 / 10 ^ 16) * stagnation w u v))) := by
  obtain ⟨d, f, k, t, h1, h2, h3, h4, h5⟩ := C131_archived a n env v hden h fs (δ := δ) hd ht hm hD htol hmax hi
  refine ⟨d, f, k, t, h1, h2, h3, h4, fun hP p q hpq X Y hX hY => ((h5 (fun L hL => (hP L hL).2) p q hpq X Y hX hY).2).trans ?_⟩
  have hmem : t ∈ n.run.wells := List.mem_of_getElem? h4
  have hr : 0 ≤ t.rw := by
    obtain ⟨-, -, ha, -⟩ := returned_course h
    exact (accepted_radius ha hden hmem).le
  have hreal : ∀ L ∈ realizations (oneka a env).events, ∃ obs la t' q coefs interrupt, Realized { n.run with obs := obs } la t' q coefs interrupt L := by
    intro L hL
    by_cases h1 : 1 < n.nrealizations
    · obtain ⟨-, -, obs, k1, t1, -, -, -, -, -, -, -, j7, -⟩ := C68_stochastic a n env v hden h1 h fs
      obtain ⟨i, hi⟩ := List.getElem?_of_mem hL
      exact ⟨_, _, _, _, _, _, j7 i L hi⟩
    · obtain ⟨-, -, obs, k1, t1, M, -, -, -, -, -, -, j6, j7, -⟩ := C68_deterministic a n env v hden (not_lt.mp h1) h fs
      rw [j6] at hL
      obtain rfl := List.mem_singleton.mp hL
      exact ⟨_, _, _, _, _, _, j7⟩
  refine Nat.cast_le.mpr (List.countP_mono_left fun L hL => ?_)
  simp only [decide_eq_true_eq]
  rintro ⟨j, -, hdel⟩ w u v' hw hq hU
  obtain ⟨obs, la, t', q', coefs, interrupt, R⟩ := hreal L hL
  obtain ⟨hx, hy, hrw⟩ := only_well R hmem hw.wells
  have := C142_delivers (hP L hL).1 hw hq (hrw ▸ hr) hU t hx hy hrw _ _ hdel
  rw [hrw]
  exact this

end Oneka
