import Verif.Spec.Divide
import Verif.Lemmas.Divide
import Verif.Props.Width

/-!
# C144: the dividing streamline of a well in a uniform flow

Vocabulary: Spec/Width.lean, Spec/Divide.lean. Examples: Props/DivideExamples.lean.
-/

namespace Oneka

open Aquifer

/-- **C144.** There is a curve that no water crosses: water that is inside stays inside, and water that is outside stays outside. Its equation has the constant of the program for `1 / 2π`. -/
theorem C144_divides {m : Aquifer ℝ} (hm : m.Physical) {w : Well ℝ} {u v : ℝ} (h : m.UniformFlow w u v) (hq : 0 ≤ w.qw) :
    ∃ c : ℝ, |2 * Real.pi * c - 1| < 1 / 10 ^ 16 ∧ ∀ (confined : Bool) (γ : ℝ → ℝ × ℝ) (τ : ℝ), 0 ≤ τ → m.Carries confined γ τ → (InsideDivide w u v c (γ 0) ↔ InsideDivide w u v c (γ τ)) :=
  ⟨_, twoPiInv_close, fun _ _ _ h0 hγ => ⟨inside_on hm h hq h0 hγ, inside_back hm h hq h0 hγ⟩⟩

/-- **C144.** All places nearer to the well than the stagnation point are inside. -/
theorem C144_near {w : Well ℝ} {u v c : ℝ} (hq : 0 ≤ w.qw) (hU : 0 < u ^ 2 + v ^ 2) (hc : |2 * Real.pi * c - 1| < 1 / 10 ^ 16) {p : ℝ × ℝ} (hp : euclid p (w.xw, w.yw) ≤ (1 - 1 / 10 ^ 16) * stagnation w u v) : InsideDivide w u v c p := by
  have hs : 0 < Real.sqrt (u ^ 2 + v ^ 2) := Real.sqrt_pos.mpr hU
  have h1 := (abs_lt.mp hc).1
  refine inside_near p ?_
  have h2 : Real.sqrt (u ^ 2 + v ^ 2) * euclid p (w.xw, w.yw) ≤ Real.sqrt (u ^ 2 + v ^ 2) * ((1 - 1 / 10 ^ 16) * stagnation w u v) := mul_le_mul_of_nonneg_left hp hs.le
  refine h2.trans ?_
  have e : Real.sqrt (u ^ 2 + v ^ 2) * ((1 - 1 / 10 ^ 16) * stagnation w u v) = w.qw * ((1 - 1 / 10 ^ 16) / (2 * Real.pi)) := by
    unfold stagnation
    field_simp
  rw [e]
  refine mul_le_mul_of_nonneg_left ?_ hq
  rw [div_le_iff₀ Real.two_pi_pos]
  linarith

/-- **C144.** The shape of the inside: its half width, seen in the direction `bearing`, is the share `bearing / π` of that far upstream, where it is the discharge of the well divided by twice the discharge of the uniform flow. -/
theorem C144_shape {w : Well ℝ} {u v c : ℝ} (hq : 0 ≤ w.qw) (hU : 0 < u ^ 2 + v ^ 2) (hc : |2 * Real.pi * c - 1| < 1 / 10 ^ 16) (p : ℝ × ℝ) :
    (InsideDivide w u v c p → fromAxis w u v p ≤ (1 + 1 / 10 ^ 16) * halfWidth w u v * (|bearing w u v p| / Real.pi)) ∧
    (fromAxis w u v p ≤ (1 - 1 / 10 ^ 16) * halfWidth w u v * (|bearing w u v p| / Real.pi) → InsideDivide w u v c p) := by
  have hs : 0 < Real.sqrt (u ^ 2 + v ^ 2) := Real.sqrt_pos.mpr hU
  have hpi := Real.pi_pos
  obtain ⟨h1, h2⟩ := abs_lt.mp hc
  have hb := abs_nonneg (bearing w u v p)
  have e : ∀ k : ℝ, k * halfWidth w u v * (|bearing w u v p| / Real.pi) * Real.sqrt (u ^ 2 + v ^ 2) = w.qw * (k / (2 * Real.pi)) * |bearing w u v p| := by
    intro k
    unfold halfWidth
    field_simp
  unfold InsideDivide fromAxis
  rw [div_le_iff₀ hs, div_le_iff₀ hs, e, e]
  have k1 : c ≤ (1 + 1 / 10 ^ 16) / (2 * Real.pi) := by
    rw [le_div_iff₀ Real.two_pi_pos]
    linarith
  have k2 : (1 - 1 / 10 ^ 16) / (2 * Real.pi) ≤ c := by
    rw [div_le_iff₀ Real.two_pi_pos]
    linarith
  exact ⟨fun h => h.trans (mul_le_mul_of_nonneg_right (mul_le_mul_of_nonneg_left k1 hq) hb), fun h => h.trans (mul_le_mul_of_nonneg_right (mul_le_mul_of_nonneg_left k2 hq) hb)⟩

/-- **C144.** So if the traces start nearer to the well than the stagnation point, water that is carried to a starting point comes from the classical capture zone. -/
theorem C144_delivers {m : Aquifer ℝ} (hm : m.Physical) {w : Well ℝ} {u v : ℝ} (h : m.UniformFlow w u v) (hq : 0 ≤ w.qw) (hr : 0 ≤ w.rw) (hU : 0 < u ^ 2 + v ^ 2) {confined : Bool} {D d X Y : ℝ} (t : SWell) (hx : t.xw = w.xw)
    (hy : t.yw = w.yw) (ht : t.rw = w.rw) (n : ℤ) (k : ℕ) (hst : w.rw + 1 ≤ (1 - 1 / 10 ^ 16) * stagnation w u v) (hd : m.Delivers confined D d X Y (t.start n k)) :
    ∃ p, euclid p (X, Y) < d ∧ ClassicalZone w u v p := by
  obtain ⟨γ, τ, h0, -, hγ, hd, hs⟩ := hd
  obtain ⟨c, hc, hall⟩ := C144_divides hm h hq
  have hnear : euclid (γ τ) (w.xw, w.yw) ≤ (1 - 1 / 10 ^ 16) * stagnation w u v := by
    rw [hs, ← hx, ← hy, C131_start t (ht ▸ hr), ht]
    exact hst
  refine ⟨γ 0, hd, (C142_stagnation hm h hq hU h0 hγ).trans (max_le ?_ le_rfl), (C144_shape hq hU hc _).1 ((hall confined γ τ h0 hγ).mpr (C144_near hq hU hc hnear))⟩
  have hpos : 0 ≤ stagnation w u v := by unfold stagnation; positivity
  refine (below_le w hU (γ τ)).trans (hnear.trans (mul_le_mul_of_nonneg_right ?_ hpos))
  norm_num

/-- **C144.** A realization with a uniform flow captures only places within the umbra (and the accuracy of the traces) of the classical capture zone. -/
theorem C144_captures {a : RunArgs} {la : LinAlg} {t : SWell} {q : Dist → ℕ → Except PyErr ℝ} {coefs : (Fin 6 → ℝ) → Matrix (Fin 6) (Fin 6) ℝ → Except PyErr (Fin 6 → ℝ)}
    {interrupt : ℕ → ℕ → Option PyErr} {T : RealizationLog} (R : Realized a la t q coefs interrupt T) {D tol maxstep δ : ℝ} (hd : a.duration = .fin D) (ht : a.tol = .fin tol)
    (hm : a.maxstep = .fin maxstep) (hD : 0 < D) (htol : (10/9)^5 * (2:ℝ)^(-52 : ℤ) < tol) (hmax : (10/9) * (2:ℝ)^(-52 : ℤ) < maxstep) (hi : ∀ k n, interrupt k n = none)
    (hP : ∀ k : ℕ, k < a.npaths → ∃ P, Follows T.model a.confined (t.start a.npaths k) D maxstep δ P) (hphys : T.model.Physical) {w : Well ℝ} {u v : ℝ} (h : T.model.UniformFlow w u v) (hq : 0 ≤ w.qw) (hr : 0 ≤ w.rw)
    (hU : 0 < u ^ 2 + v ^ 2) (htw : t ∈ a.wells) (hst : t.rw + 1 ≤ (1 - 1 / 10 ^ 16) * stagnation w u v) (umbra X Y : ℝ) (hu : 0 ≤ umbra) (hc : T.Captures umbra X Y) :
    ∃ p, euclid p (X, Y) < umbra + δ ∧ ClassicalZone w u v p := by
  obtain ⟨k, -, hdel⟩ := (C131_captures R hd ht hm hD htol hmax hi hP umbra X Y).2 hu hc
  obtain ⟨hx, hy, hrw⟩ := only_well R htw h.wells
  rw [hrw] at hst
  exact C144_delivers hphys h hq hr hU t hx hy hrw _ _ hst hdel

open Classical in
/-- **C144.** What is archived: the weight of a node counts no realization with a uniform flow of whose classical capture zone no place is within the umbra (and the accuracy of the traces) of the node. -/
theorem C144_archived (a : PyArgs) (n : Inputs) (env : CallEnv) (v : PyVal) (hden : a.Denotes n) (h : (oneka a env).ending = .returns v) (fs : Files)
    {D tol maxstep δ : ℝ} (hd : n.run.duration = .fin D) (ht : n.run.tol = .fin tol) (hm : n.run.maxstep = .fin maxstep) (hD : 0 < D) (htol : (10/9)^5 * (2:ℝ)^(-52 : ℤ) < tol)
    (hmax : (10/9) * (2:ℝ)^(-52 : ℤ) < maxstep) (hi : ∀ i k j, env.run.interrupt i k j = none) :
    ∃ (d : Dict) (f : PField ℝ) (k : ℕ) (t : SWell),
      loadOneka ((oneka a env).events.foldl Effect.apply fs) env.now.archiveName = .ok d ∧ d.get "pfield" = some (.field (.field f)) ∧ n.run.target = k ∧ n.run.wells[k]? = some t ∧
      ((∀ L ∈ realizations (oneka a env).events, L.model.Physical ∧ ∀ j : ℕ, j < n.run.npaths → ∃ P, Follows L.model n.run.confined (t.start n.run.npaths j) D maxstep δ P) →
        ∀ p q : ℤ, (|p| ≤ 1 ∧ |q| ≤ 1) ∨ n.run.umbra ≤ n.run.spacing → ∀ X Y : ℝ, X = t.xw + p * n.run.spacing → Y = t.yw + q * n.run.spacing →
          f.weightAt X Y ≤ ((realizations (oneka a env).events).countP fun L => ∀ w u v, L.model.UniformFlow w u v → 0 ≤ w.qw → 0 < u ^ 2 + v ^ 2 → t.rw + 1 ≤ (1 - 1 / 10 ^ 16) * stagnation w u v →
            ∃ p, euclid p (X, Y) < n.run.umbra + δ ∧ ClassicalZone w u v p)) := by
  obtain ⟨d, f, k, t, h1, h2, h3, h4, h5⟩ := C131_archived a n env v hden h fs (δ := δ) hd ht hm hD htol hmax hi
  refine ⟨d, f, k, t, h1, h2, h3, h4, fun hP p q hpq X Y hX hY => ((h5 (fun L hL => (hP L hL).2) p q hpq X Y hX hY).2).trans ?_⟩
  have hmem : t ∈ n.run.wells := List.mem_of_getElem? h4
  have hr : 0 ≤ t.rw := by
    obtain ⟨-, -, ha, -⟩ := returned_course h
    exact (accepted_radius ha hden hmem).le
  have hreal : ∀ L ∈ realizations (oneka a env).events, ∃ obs la t' q coefs interrupt, Realized { n.run with obs := obs } la t' q coefs interrupt L := by
    intro L hL
    by_cases h1 : 1 < n.nrealizations
    · obtain ⟨-, -, obs, k1, t1, -, -, -, -, -, -, -, j7, -⟩ := C68_stochastic a n env v hden h1 h fs
      obtain ⟨i, hi⟩ := List.getElem?_of_mem hL
      exact ⟨_, _, _, _, _, _, j7 i L hi⟩
    · obtain ⟨-, -, obs, k1, t1, M, -, -, -, -, -, -, j6, j7, -⟩ := C68_deterministic a n env v hden (not_lt.mp h1) h fs
      rw [j6] at hL
      obtain rfl := List.mem_singleton.mp hL
      exact ⟨_, _, _, _, _, _, j7⟩
  refine Nat.cast_le.mpr (List.countP_mono_left fun L hL => ?_)
  simp only [decide_eq_true_eq]
  rintro ⟨j, -, hdel⟩ w u v' hw hq hU hst
  obtain ⟨obs, la, t', q', coefs, interrupt, R⟩ := hreal L hL
  obtain ⟨hx, hy, hrw⟩ := only_well R hmem hw.wells
  rw [hrw] at hst
  exact C144_delivers (hP L hL).1 hw hq (hrw ▸ hr) hU t hx hy hrw _ _ hst hdel

end Oneka
