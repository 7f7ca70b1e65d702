import Verif.Spec.Still
import Verif.Lemmas.StillFollows
import Verif.Props.Width

/-!
# C145: a well in an aquifer at rest

Vocabulary: Spec/Still.lean, Spec/Arrival.lean. Examples: Props/StillExamples.lean.
-/

namespace Oneka

open Aquifer

/-- **C145.** If nothing but the well moves the water of a confined aquifer, all water moves straight to (or from) the well. The water that is at a place now was, `τ` days ago, on the ray from the well through it, where the squared distance from the well is greater by `2 κ τ`, `κ` being the discharge of the well by `2 π`, the porosity and the thickness. (The constant of the program for `1 / 2π` is meant.) -/
theorem C145_paths {m : Aquifer ℝ} (hm : m.Physical) {w : Well ℝ} (h : m.AtRest w) :
    ∃ c : ℝ, |2 * Real.pi * c - 1| < 1 / 10 ^ 16 ∧ ∀ (γ : ℝ → ℝ × ℝ) (τ : ℝ), 0 ≤ τ → m.Carries true γ τ → γ 0 = spoke w (w.qw * c / (m.porosity * m.thickness)) (γ τ) τ :=
  ⟨_, twoPiInv_close, fun _ _ h0 hγ => (still_path h hm h0 hγ).2.2⟩

/-- **C145.** The ring between the present and the former distance holds the water that the well has pumped meanwhile. -/
theorem C145_volume {m : Aquifer ℝ} (hm : m.Physical) {w : Well ℝ} {c : ℝ} (hc : |2 * Real.pi * c - 1| < 1 / 10 ^ 16) (hq : 0 ≤ w.qw) {p : ℝ × ℝ} (hp : p ≠ (w.xw, w.yw)) {s : ℝ} (hs : 0 ≤ s) :
    |Real.pi * (euclid (spoke w (w.qw * c / (m.porosity * m.thickness)) p s) (w.xw, w.yw) ^ 2 - euclid p (w.xw, w.yw) ^ 2) * (m.porosity * m.thickness) - w.qw * s| ≤ w.qw * s / 10 ^ 16 := by
  have hnb : 0 < m.porosity * m.thickness := mul_pos hm.porosity hm.thickness
  have hr := r2_pos_of_ne hp
  have hc0 : 0 < c := close_pos hc
  have hκ : 0 ≤ w.qw * c / (m.porosity * m.thickness) := by positivity
  rw [euclid_sq_r2, euclid_sq_r2, spoke_r2 w _ hr (by positivity)]
  have e : Real.pi * (w.r2 p.1 p.2 + 2 * (w.qw * c / (m.porosity * m.thickness)) * s - w.r2 p.1 p.2) * (m.porosity * m.thickness) - w.qw * s = w.qw * s * (2 * Real.pi * c - 1) := by
    have hn0 := hm.porosity.ne'
    have ht0 := hm.thickness.ne'
    field_simp
    ring
  rw [e, abs_mul, abs_of_nonneg (by positivity)]
  have := mul_le_mul_of_nonneg_left hc.le (show 0 ≤ w.qw * s by positivity)
  linarith

/-- **C145.** So water within `d` of a place is carried to `p` within `D` days exactly if the place is within `d` of the piece of the ray that the water needs up to `D` days for. -/
theorem C145_delivers {m : Aquifer ℝ} (hm : m.Physical) {w : Well ℝ} (h : m.AtRest w) (hq : 0 ≤ w.qw) :
    ∃ c : ℝ, |2 * Real.pi * c - 1| < 1 / 10 ^ 16 ∧ ∀ (D d X Y : ℝ) (p : ℝ × ℝ), p ≠ (w.xw, w.yw) →
      (m.Delivers true D d X Y p ↔ ∃ s, 0 ≤ s ∧ s ≤ D ∧ euclid (spoke w (w.qw * c / (m.porosity * m.thickness)) p s) (X, Y) < d) := by
  refine ⟨_, twoPiInv_close, fun D d X Y p hp => ⟨?_, ?_⟩⟩
  · rintro ⟨γ, τ, h0, h1, hγ, hd, rfl⟩
    refine ⟨τ, h0, h1, ?_⟩
    rw [← (still_path h hm h0 hγ).2.2]
    exact hd
  · rintro ⟨s, h0, h1, hd⟩
    have hr := r2_pos_of_ne hp
    have hnb : 0 < m.porosity * m.thickness := mul_pos hm.porosity hm.thickness
    have hκ : 0 ≤ w.qw * (twoPiInv : ℝ) / (m.porosity * m.thickness) := div_nonneg (mul_nonneg hq (close_pos twoPiInv_close).le) hnb.le
    refine ⟨_, s, h0, h1, still_carries h hm hr (by positivity), ?_, ?_⟩
    · simpa using hd
    · simp [spoke_zero]

/-- **C145.** The traces follow the rays if the well pumps little (at most a seventh of a day's water in a square metre of the aquifer) and the steps are short. -/
theorem C145_follows {m : Aquifer ℝ} (hm : m.Physical) {w : Well ℝ} (h : m.AtRest w) {p : ℝ × ℝ} {D maxstep δ R : ℝ} (hp : 1 ≤ euclid p (w.xw, w.yw)) (hD : 0 ≤ D) (hms : 0 < maxstep) (hR0 : 0 ≤ R)
    (hq : 7 * w.qw ≤ m.porosity * m.thickness) (hR : euclid p (w.xw, w.yw) ^ 2 + w.qw * D / (3 * (m.porosity * m.thickness)) ≤ R ^ 2) (hfast : 101 * maxstep * (R + 1) * (m.porosity * m.thickness) ≤ w.qw)
    (hwide : 22 * maxstep * (Real.exp (w.qw * D / (m.porosity * m.thickness)) - 1) ≤ 1/8)
    (hδ : 33 * maxstep * (Real.exp (w.qw * D / (m.porosity * m.thickness)) - 1) + w.qw / (20 * (m.porosity * m.thickness)) ≤ δ) : ∃ P, Follows m true p D maxstep δ P := by
  have hnb : 0 < m.porosity * m.thickness := mul_pos hm.porosity hm.thickness
  obtain ⟨c1, c2⟩ : (159/1000 : ℝ) < twoPiInv ∧ (twoPiInv : ℝ) < 4/25 := by
    unfold twoPiInv
    constructor <;> norm_num
  have hq0 : 0 < w.qw := lt_of_lt_of_le (by positivity) hfast
  set a := w.qw / (m.porosity * m.thickness) with ha
  have ha0 : 0 < a := by positivity
  have e1 : w.qw * twoPiInv / (m.porosity * m.thickness) = a * twoPiInv := by rw [ha]; ring
  have e2 : w.qw * D / (3 * (m.porosity * m.thickness)) = a * D / 3 := by rw [ha]; field_simp
  have e3 : w.qw * D / (m.porosity * m.thickness) = a * D := by rw [ha]; ring
  have e4 : w.qw / (20 * (m.porosity * m.thickness)) = a / 20 := by rw [ha]; field_simp
  have ha1 : a ≤ 1/7 := by
    rw [ha, div_le_iff₀ hnb]
    linarith
  have hf : 101 * maxstep * (R + 1) ≤ a := by
    rw [ha, le_div_iff₀ hnb]
    exact hfast
  rw [e2] at hR
  rw [e3] at hwide hδ
  rw [e4] at hδ
  rw [euclid_sq_r2] at hR
  have haD : 0 ≤ a * D := by positivity
  have hexp : Real.exp (4 * (a * twoPiInv) * D) ≤ Real.exp (a * D) := Real.exp_le_exp.mpr (by nlinarith)
  have hexp' := mul_le_mul_of_nonneg_left hexp hms.le
  have hac : a * (twoPiInv : ℝ) ≤ a * (4/25) := mul_le_mul_of_nonneg_left c2.le ha0.le
  have hac' : a * (159/1000) ≤ a * (twoPiInv : ℝ) := mul_le_mul_of_nonneg_left c1.le ha0.le
  refine ⟨_, still_follows hm h (κ := a * twoPiInv) e1.symm (by nlinarith) (by linarith) (R := R) ?_ hR0 ?_ hms (by nlinarith) (by linarith) (by linarith)⟩
  · rw [← euclid_sq_r2]
    nlinarith
  · nlinarith

/-- **C145.** What a realization captures in an aquifer at rest: the places within the umbra (up to the accuracy of the traces) of the pieces of the rays through the starting points. -/
theorem C145_captures {a : RunArgs} {la : LinAlg} {t : SWell} {q : Dist → ℕ → Except PyErr ℝ} {coefs : (Fin 6 → ℝ) → Matrix (Fin 6) (Fin 6) ℝ → Except PyErr (Fin 6 → ℝ)}
    {interrupt : ℕ → ℕ → Option PyErr} {T : RealizationLog} (R : Realized a la t q coefs interrupt T) {D tol maxstep δ : ℝ} (hd : a.duration = .fin D) (ht : a.tol = .fin tol)
    (hm : a.maxstep = .fin maxstep) (hD : 0 < D) (htol : (10/9)^5 * (2:ℝ)^(-52 : ℤ) < tol) (hmax : (10/9) * (2:ℝ)^(-52 : ℤ) < maxstep) (hi : ∀ k n, interrupt k n = none)
    (hP : ∀ k : ℕ, k < a.npaths → ∃ P, Follows T.model a.confined (t.start a.npaths k) D maxstep δ P) (hcf : a.confined = true) (hphys : T.model.Physical) {w : Well ℝ} (h : T.model.AtRest w) (hq : 0 ≤ w.qw)
    (hr : 0 ≤ t.rw) (htw : t ∈ a.wells) (umbra X Y : ℝ) (hu : 0 ≤ umbra) :
    ∃ c : ℝ, |2 * Real.pi * c - 1| < 1 / 10 ^ 16 ∧
      ((∃ k : ℕ, k < a.npaths ∧ ∃ s, 0 ≤ s ∧ s ≤ D ∧ euclid (spoke w (w.qw * c / (T.model.porosity * T.model.thickness)) (t.start a.npaths k) s) (X, Y) < umbra - δ) → T.Captures umbra X Y) ∧
      (T.Captures umbra X Y → ∃ k : ℕ, k < a.npaths ∧ ∃ s, 0 ≤ s ∧ s ≤ D ∧ euclid (spoke w (w.qw * c / (T.model.porosity * T.model.thickness)) (t.start a.npaths k) s) (X, Y) < umbra + δ) := by
  obtain ⟨c, hc, hall⟩ := C145_delivers hphys h hq
  obtain ⟨h1, h2⟩ := C131_captures R hd ht hm hD htol hmax hi hP umbra X Y
  obtain ⟨hx, hy, -⟩ := only_well R htw h.wells
  rw [hcf] at h1 h2
  have hne : ∀ k, t.start a.npaths k ≠ (w.xw, w.yw) := fun k => hx ▸ hy ▸ start_ne t hr _ k
  refine ⟨c, hc, fun ⟨k, hk, hs⟩ => h1 ⟨k, hk, (hall _ _ _ _ _ (hne k)).mpr hs⟩, fun hcap => ?_⟩
  obtain ⟨k, hk, hs⟩ := h2 hu hcap
  exact ⟨k, hk, (hall _ _ _ _ _ (hne k)).mp hs⟩

/-- **C145.** In particular nothing is captured beyond the fixed radius: the radius of the cylinder that holds, besides the water between the well and the starting points, the water that the well pumps in the duration. -/
theorem C145_radius {m : Aquifer ℝ} (hm : m.Physical) {w : Well ℝ} (h : m.AtRest w) (hq : 0 ≤ w.qw) {D d X Y : ℝ} (hD : 0 ≤ D) (t : SWell) (hr : 0 ≤ t.rw) (hx : t.xw = w.xw) (hy : t.yw = w.yw) (n : ℤ) (k : ℕ)
    (hd : m.Delivers true D d X Y (t.start n k)) :
    euclid (X, Y) (t.xw, t.yw) < d + Real.sqrt ((t.rw + 1) ^ 2 + (1 + 1 / 10 ^ 16) * (w.qw * D / (Real.pi * (m.porosity * m.thickness)))) := by
  have hnb : 0 < m.porosity * m.thickness := mul_pos hm.porosity hm.thickness
  obtain ⟨c, hc, hall⟩ := C145_delivers hm h hq
  have hne : t.start n k ≠ (w.xw, w.yw) := hx ▸ hy ▸ start_ne t hr n k
  obtain ⟨s, s0, s1, hlt⟩ := (hall _ _ _ _ _ hne).mp hd
  have hc0 := close_pos hc
  have hpos := r2_pos_of_ne hne
  have e := spoke_r2 w (w.qw * c / (m.porosity * m.thickness)) hpos (s := s) (by positivity)
  have hst := C131_start t hr n k
  rw [hx, hy] at hst ⊢
  have e2 : w.r2 (t.start n k).1 (t.start n k).2 = (t.rw + 1) ^ 2 := by rw [← euclid_sq_r2, hst]
  rw [e2] at e
  have tri := euclid_triangle (X, Y) (spoke w (w.qw * c / (m.porosity * m.thickness)) (t.start n k) s) (w.xw, w.yw)
  rw [euclid_comm] at hlt
  refine tri.trans_lt (add_lt_add_of_lt_of_le hlt (Real.le_sqrt_of_sq_le ?_))
  rw [euclid_sq_r2, e]
  have hsD : w.qw * s ≤ w.qw * D := mul_le_mul_of_nonneg_left s1 hq
  have h2c : 2 * c ≤ (1 + 1 / 10 ^ 16) / Real.pi := by
    rw [le_div_iff₀ Real.pi_pos]
    linarith [(abs_lt.mp hc).2]
  have e3 : 2 * (w.qw * c / (m.porosity * m.thickness)) * s = 2 * c * (w.qw * s / (m.porosity * m.thickness)) := by ring
  have e4 : (1 + 1 / 10 ^ 16) * (w.qw * D / (Real.pi * (m.porosity * m.thickness))) = (1 + 1 / 10 ^ 16) / Real.pi * (w.qw * D / (m.porosity * m.thickness)) := by field_simp
  rw [e3, e4]
  have h5 : w.qw * s / (m.porosity * m.thickness) ≤ w.qw * D / (m.porosity * m.thickness) := div_le_div_of_nonneg_right hsD hnb.le
  have h6 : 0 ≤ w.qw * s / (m.porosity * m.thickness) := by positivity
  have := mul_le_mul h2c h5 h6 (div_nonneg (by norm_num) Real.pi_pos.le)
  linarith

open Classical in
/-- **C145.** What is archived: the weight of a node counts all realizations at rest with a ray nearer to it than the umbra (less the accuracy of the traces), and no realization at rest beyond whose fixed radius (plus umbra and accuracy) it is. -/
theorem C145_archived (a : PyArgs) (n : Inputs) (env : CallEnv) (v : PyVal) (hden : a.Denotes n) (h : (oneka a env).ending = .returns v) (fs : Files)
    {D tol maxstep δ : ℝ} (hd : n.run.duration = .fin D) (ht : n.run.tol = .fin tol) (hm : n.run.maxstep = .fin maxstep) (hD : 0 < D) (htol : (10/9)^5 * (2:ℝ)^(-52 : ℤ) < tol)
    (hmax : (10/9) * (2:ℝ)^(-52 : ℤ) < maxstep) (hi : ∀ i k j, env.run.interrupt i k j = none) (hcf : n.run.confined = true) :
    ∃ (d : Dict) (f : PField ℝ) (k : ℕ) (t : SWell) (c : ℝ),
      loadOneka ((oneka a env).events.foldl Effect.apply fs) env.now.archiveName = .ok d ∧ d.get "pfield" = some (.field (.field f)) ∧ n.run.target = k ∧ n.run.wells[k]? = some t ∧ |2 * Real.pi * c - 1| < 1 / 10 ^ 16 ∧
      ((∀ L ∈ realizations (oneka a env).events, L.model.Physical ∧ ∀ j : ℕ, j < n.run.npaths → ∃ P, Follows L.model n.run.confined (t.start n.run.npaths j) D maxstep δ P) →
        ∀ p q : ℤ, (|p| ≤ 1 ∧ |q| ≤ 1) ∨ n.run.umbra ≤ n.run.spacing → ∀ X Y : ℝ, X = t.xw + p * n.run.spacing → Y = t.yw + q * n.run.spacing →
          ((realizations (oneka a env).events).countP fun L => ∃ w, L.model.AtRest w ∧ 0 ≤ w.qw ∧ ∃ j : ℕ, j < n.run.npaths ∧ ∃ s, 0 ≤ s ∧ s ≤ D ∧
            euclid (spoke w (w.qw * c / (L.model.porosity * L.model.thickness)) (t.start n.run.npaths j) s) (X, Y) < n.run.umbra - δ) ≤ f.weightAt X Y ∧
          f.weightAt X Y ≤ ((realizations (oneka a env).events).countP fun L => ∀ w, L.model.AtRest w → 0 ≤ w.qw →
            euclid (X, Y) (t.xw, t.yw) < n.run.umbra + δ + Real.sqrt ((t.rw + 1) ^ 2 + (1 + 1 / 10 ^ 16) * (w.qw * D / (Real.pi * (L.model.porosity * L.model.thickness)))))) := by
  obtain ⟨d, f, k, t, h1, h2, h3, h4, h5⟩ := C131_archived a n env v hden h fs (δ := δ) hd ht hm hD htol hmax hi
  rw [hcf] at h5
  refine ⟨d, f, k, t, twoPiInv, h1, h2, h3, h4, twoPiInv_close, fun hP p q hpq X Y hX hY => ?_⟩
  rw [hcf] at hP
  obtain ⟨lo, up⟩ := h5 (fun L hL => (hP L hL).2) p q hpq X Y hX hY
  have hmem : t ∈ n.run.wells := List.mem_of_getElem? h4
  have hr : 0 ≤ t.rw := by
    obtain ⟨-, -, ha, -⟩ := returned_course h
    exact (accepted_radius ha hden hmem).le
  have hreal : ∀ L ∈ realizations (oneka a env).events, ∃ obs la t' q coefs interrupt, Realized { n.run with obs := obs } la t' q coefs interrupt L := by
    intro L hL
    by_cases h1 : 1 < n.nrealizations
    · obtain ⟨-, -, obs, k1, t1, -, -, -, -, -, -, -, j7, -⟩ := C68_stochastic a n env v hden h1 h fs
      obtain ⟨i, hi⟩ := List.getElem?_of_mem hL
      exact ⟨_, _, _, _, _, _, j7 i L hi⟩
    · obtain ⟨-, -, obs, k1, t1, M, -, -, -, -, -, -, j6, j7, -⟩ := C68_deterministic a n env v hden (not_lt.mp h1) h fs
      rw [j6] at hL
      obtain rfl := List.mem_singleton.mp hL
      exact ⟨_, _, _, _, _, _, j7⟩
  refine ⟨le_trans (Nat.cast_le.mpr (List.countP_mono_left fun L hL => ?_)) lo, up.trans (Nat.cast_le.mpr (List.countP_mono_left fun L hL => ?_))⟩
  · simp only [decide_eq_true_eq]
    rintro ⟨w, hw, hq, j, hj, s, s0, s1, hs⟩
    obtain ⟨obs, la, t', q', coefs, interrupt, R⟩ := hreal L hL
    obtain ⟨hx, hy, -⟩ := only_well R hmem hw.wells
    have hne : t.start n.run.npaths j ≠ (w.xw, w.yw) := hx ▸ hy ▸ start_ne t hr _ j
    refine ⟨j, hj, _, s, s0, s1, still_carries hw (hP L hL).1 (r2_pos_of_ne hne) ?_, ?_, ?_⟩
    · have hnb : 0 < L.model.porosity * L.model.thickness := mul_pos (hP L hL).1.porosity (hP L hL).1.thickness
      have hpos := r2_pos_of_ne hne
      have hκ : 0 ≤ w.qw * (twoPiInv : ℝ) / (L.model.porosity * L.model.thickness) := div_nonneg (mul_nonneg hq (close_pos twoPiInv_close).le) hnb.le
      positivity
    · simpa using hs
    · simp [spoke_zero]
  · simp only [decide_eq_true_eq]
    rintro ⟨j, -, hdel⟩ w hw hq
    obtain ⟨obs, la, t', q', coefs, interrupt, R⟩ := hreal L hL
    obtain ⟨hx, hy, -⟩ := only_well R hmem hw.wells
    exact C145_radius (hP L hL).1 hw hq hD.le t hr hx hy _ j hdel

end Oneka
