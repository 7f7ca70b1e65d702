import Verif.Lemmas.Arrival
import Verif.Lemmas.Flux
import Verif.Props.CaptureExact
import Verif.Props.Aquifer

/-!
# C131: what is recorded is water on its way to the well

Examples, and a call that records water which never reaches the well: `Props/ArrivalExamples.lean`.
-/

namespace Oneka

open Aquifer

/-- C131: the pathline that a trace follows passes a place exactly if some water there is carried to the start of the trace within the duration. -/
theorem C131_delivers {m : Aquifer ℝ} {confined : Bool} {start : ℝ × ℝ} {D maxstep δ : ℝ} {P : ℝ → ℝ × ℝ} (h : Follows m confined start D maxstep δ P) (hD : 0 < D) (hms : 0 < maxstep)
    (d X Y : ℝ) : Passes P D d X Y ↔ m.Delivers confined D d X Y start :=
  passes_delivers h hD hms d X Y

/-- C131: if some water that is within `u - δ` of a place is carried to one of the starting points, one metre from the rim of the well, within the duration, then the realization captures the place with the umbra `u`. If the realization
captures the place with the umbra `u`, then some water within `u + δ` of the place is carried to one of the starting points within the duration. -/
theorem C131_captures {a : RunArgs} {la : LinAlg} {t : SWell} {q : Dist → ℕ → Except PyErr ℝ} {coefs : (Fin 6 → ℝ) → Matrix (Fin 6) (Fin 6) ℝ → Except PyErr (Fin 6 → ℝ)}
    {interrupt : ℕ → ℕ → Option PyErr} {T : RealizationLog} (R : Realized a la t q coefs interrupt T) {D tol maxstep δ : ℝ} (hd : a.duration = .fin D) (ht : a.tol = .fin tol)
    (hm : a.maxstep = .fin maxstep) (hD : 0 < D) (htol : (10/9)^5 * (2:ℝ)^(-52 : ℤ) < tol) (hmax : (10/9) * (2:ℝ)^(-52 : ℤ) < maxstep) (hi : ∀ k n, interrupt k n = none)
    (hP : ∀ k : ℕ, k < a.npaths → ∃ P, Follows T.model a.confined (t.start a.npaths k) D maxstep δ P) (u X Y : ℝ) :
    ((∃ k : ℕ, k < a.npaths ∧ T.model.Delivers a.confined D (u - δ) X Y (t.start a.npaths k)) → T.Captures u X Y) ∧
      (0 ≤ u → T.Captures u X Y → ∃ k : ℕ, k < a.npaths ∧ T.model.Delivers a.confined D (u + δ) X Y (t.start a.npaths k)) := by
  choose! P hP using hP
  have hms : 0 < maxstep := lt_trans (by positivity) hmax
  obtain ⟨h1, h2⟩ := C95_captures R hd ht hm hD htol hmax hi P hP u X Y
  refine ⟨fun ⟨k, hk, h⟩ => h1 ⟨k, hk, (C131_delivers (hP k hk) hD hms _ _ _).2 h⟩, fun hu hc => ?_⟩
  obtain ⟨k, hk, h⟩ := h2 hu hc
  exact ⟨k, hk, (C131_delivers (hP k hk) hD hms _ _ _).1 h⟩

/-- C131: the starting points are one metre from the rim. -/
theorem C131_start (t : SWell) (hr : 0 ≤ t.rw) (n : ℤ) (k : ℕ) : euclid (t.start n k) (t.xw, t.yw) = t.rw + 1 := by
  unfold euclid SWell.start
  have e : (t.xw - (t.xw + (t.rw + 1) * Real.cos (2 * Real.pi * k / n))) ^ 2 + (t.yw - (t.yw + (t.rw + 1) * Real.sin (2 * Real.pi * k / n))) ^ 2 = (t.rw + 1) ^ 2 := by
    have := Real.sin_sq_add_cos_sq (2 * Real.pi * k / n)
    linear_combination (t.rw + 1) ^ 2 * this
  simp only
  rw [e, Real.sqrt_sq (by linarith)]

open Classical in
/-- C131: a weight in the archive is the number of realizations in which water from there arrives: between the number of those in which some water nearer than `umbra - δ` to the node is carried to a starting point within the duration, and
the number of those in which some water nearer than `umbra + δ` is. -/
theorem C131_archived (a : PyArgs) (n : Inputs) (env : CallEnv) (v : PyVal) (hden : a.Denotes n) (h : (oneka a env).ending = .returns v) (fs : Files)
    {D tol maxstep δ : ℝ} (hd : n.run.duration = .fin D) (ht : n.run.tol = .fin tol) (hm : n.run.maxstep = .fin maxstep) (hD : 0 < D) (htol : (10/9)^5 * (2:ℝ)^(-52 : ℤ) < tol)
    (hmax : (10/9) * (2:ℝ)^(-52 : ℤ) < maxstep) (hi : ∀ i k j, env.run.interrupt i k j = none) :
    ∃ (d : Dict) (f : PField ℝ) (k : ℕ) (t : SWell),
      loadOneka ((oneka a env).events.foldl Effect.apply fs) env.now.archiveName = .ok d ∧ d.get "pfield" = some (.field (.field f)) ∧ n.run.target = k ∧ n.run.wells[k]? = some t ∧
      ((∀ L ∈ realizations (oneka a env).events, ∀ j : ℕ, j < n.run.npaths → ∃ P, Follows L.model n.run.confined (t.start n.run.npaths j) D maxstep δ P) →
        ∀ p q : ℤ, (|p| ≤ 1 ∧ |q| ≤ 1) ∨ n.run.umbra ≤ n.run.spacing → ∀ X Y : ℝ, X = t.xw + p * n.run.spacing → Y = t.yw + q * n.run.spacing →
          ((realizations (oneka a env).events).countP fun L => ∃ j : ℕ, j < n.run.npaths ∧ L.model.Delivers n.run.confined D (n.run.umbra - δ) X Y (t.start n.run.npaths j)) ≤ f.weightAt X Y ∧
          f.weightAt X Y ≤ ((realizations (oneka a env).events).countP fun L => ∃ j : ℕ, j < n.run.npaths ∧ L.model.Delivers n.run.confined D (n.run.umbra + δ) X Y (t.start n.run.npaths j))) := by
  obtain ⟨d, f, k, t, h1, h2, h3, h4, h5⟩ := C95_call a n env v hden h fs hd ht hm hD htol hmax hi
  refine ⟨d, f, k, t, h1, h2, h3, h4, fun hP p q hpq X Y hX hY => ?_⟩
  have hms : 0 < maxstep := lt_trans (by positivity) hmax
  have hP' : ∀ (i j : ℕ), ∃ P, ∀ L, (realizations (oneka a env).events)[i]? = some L → j < n.run.npaths → Follows L.model n.run.confined (t.start n.run.npaths j) D maxstep δ P := by
    intro i j
    by_cases hh : ∃ L, (realizations (oneka a env).events)[i]? = some L ∧ j < n.run.npaths
    · obtain ⟨L, hL, hj⟩ := hh
      obtain ⟨P, hP⟩ := hP L (List.mem_of_getElem? hL) j hj
      exact ⟨P, fun L' hL' _ => by rw [← Option.some.inj (hL.symm.trans hL')]; exact hP⟩
    · exact ⟨fun _ => 0, fun L hL hj => absurd ⟨L, hL, hj⟩ hh⟩
  choose P hP' using hP'
  have key := h5 δ P (fun i L hL j hj => hP' i j L hL hj) p q hpq X Y hX hY
  have count : ∀ e, ((List.range (realizations (oneka a env).events).length).countP fun i => ∃ j : ℕ, j < n.run.npaths ∧ Passes (P i j) D e X Y) =
      (realizations (oneka a env).events).countP fun L => ∃ j : ℕ, j < n.run.npaths ∧ L.model.Delivers n.run.confined D e X Y (t.start n.run.npaths j) := by
    intro e
    rw [countP_range (realizations (oneka a env).events) fun L => ∃ j : ℕ, j < n.run.npaths ∧ L.model.Delivers n.run.confined D e X Y (t.start n.run.npaths j)]
    refine List.countP_congr fun i hi => ?_
    rw [List.mem_range] at hi
    have hL := List.getElem?_eq_getElem hi
    simp only [decide_eq_true_eq]
    constructor
    · rintro ⟨j, hj, hp⟩
      exact ⟨_, hL, j, hj, (C131_delivers (hP' i j _ hL hj) hD hms _ _ _).1 hp⟩
    · rintro ⟨L, hL', j, hj, hp⟩
      exact ⟨j, hj, (C131_delivers (hP' i j _ hL' hj) hD hms _ _ _).2 hp⟩
  rw [count, count] at key
  exact key

/-- C131: where all water within one metre of the rim flows inward with a radial velocity of at least `c`, water that has arrived at a starting point enters the well in at most `1/c` days. -/
theorem C131_enters {m : Aquifer ℝ} {confined : Bool} (t : SWell) (hr : 0 < t.rw) {c : ℝ} (hc : 0 < c) (hin : m.Inward confined t.xw t.yw t.rw (t.rw + 1) c) {γ : ℝ → ℝ × ℝ} {τ T : ℝ} (h0 : 0 ≤ τ) (hT : τ + 1 / c ≤ T)
    (hγ : m.Carries confined γ T) (n : ℤ) (k : ℕ) (hs : γ τ = t.start n k) : euclid (γ (τ + 1 / c)) (t.xw, t.yw) ≤ t.rw := by
  have e : t.rw + 1 - t.rw = 1 := by ring
  have := inward_enters hr hc hin h0 (by rw [e]; exact hT) hγ (by linarith) (by rw [hs, C131_start t hr.le])
  rwa [e] at this

/-- C131: so it is in a confined aquifer if the well pumps strongly enough: more than the discharge `G` of everything else (the regional flow and the other wells) times the circumference of the starting circle. -/
theorem C131_pumping {m : Aquifer ℝ} (hm : m.Physical) {w : Well ℝ} {rest : List (Well ℝ)} (hw : m.wells.Perm (w :: rest)) (hr : 0 < w.rw) {c G : ℝ} (hc : 0 ≤ c) (hG : 0 ≤ G)
    (hrest : ∀ x y, w.rw ≤ euclid (x, y) (w.xw, w.yw) → euclid (x, y) (w.xw, w.yw) ≤ w.rw + 1 →
      euclid 0 (({ m with wells := rest } : Aquifer ℝ).discharge x y) ≤ G)
    (hQ : 2 * Real.pi * (w.rw + 1) * (G + c * (m.porosity * m.thickness)) ≤ (1 - 1 / 10 ^ 16) * w.qw) : m.Inward true w.xw w.yw w.rw (w.rw + 1) c := by
  rintro ⟨x, y⟩ ⟨v1, v2⟩ h1 h2 ⟨hoff, b, hs, d1, d2⟩
  simp only [Saturated, if_true] at hs
  subst hs
  obtain ⟨e1, e2⟩ := C29_partials m x y hoff
  have u1 := d1.unique e1
  have u2 := d2.unique e2
  have hnT : 0 < m.porosity * m.thickness := mul_pos hm.porosity hm.thickness
  set r := euclid (x, y) (w.xw, w.yw) with hrdef
  have hr0 : 0 < r := lt_of_lt_of_le hr h1
  have hr2 : r ^ 2 = (x - w.xw) ^ 2 + (y - w.yw) ^ 2 := by
    rw [hrdef]
    unfold euclid
    rw [Real.sq_sqrt (by positivity)]
    ring
  have hW : w.r2 x y = r ^ 2 := hr2.symm
  set Q := ({ m with wells := rest } : Aquifer ℝ).discharge x y with hQd
  have hdis : m.discharge x y = (Q.1 - w.qw * (twoPiInv : ℝ) * ((x - w.xw) / r ^ 2), Q.2 - w.qw * (twoPiInv : ℝ) * ((y - w.yw) / r ^ 2)) := by
    rw [hQd, discharge_eq, discharge_eq]
    simp only
    rw [(hw.map _).sum_eq, (hw.map _).sum_eq, List.map_cons, List.map_cons, List.sum_cons, List.sum_cons, hW]
    refine Prod.ext ?_ ?_ <;> simp only <;> ring
  rw [hdis] at u1 u2
  simp only [neg_inj] at u1 u2
  have hQG : (x - w.xw) * Q.1 + (y - w.yw) * Q.2 ≤ r * G := by
    have hg : Q.1 ^ 2 + Q.2 ^ 2 ≤ G ^ 2 := by
      have := hrest x y h1 h2
      rw [← hQd] at this
      unfold euclid at this
      rw [Real.sqrt_le_left hG] at this
      simpa using this
    have : ((x - w.xw) * Q.1 + (y - w.yw) * Q.2) ^ 2 ≤ (r * G) ^ 2 := by
      have h3 : 0 ≤ r ^ 2 := sq_nonneg r
      have h4 : r ^ 2 * (Q.1 ^ 2 + Q.2 ^ 2) ≤ r ^ 2 * G ^ 2 := mul_le_mul_of_nonneg_left hg h3
      rw [mul_pow]
      nlinarith [sq_nonneg ((x - w.xw) * Q.2 - (y - w.yw) * Q.1)]
    exact le_of_abs_le (abs_le_of_sq_le_sq this (mul_nonneg hr0.le hG))
  have hκ := (abs_lt.mp twoPiInv_close).1
  have hqw : 0 ≤ w.qw := by
    have : 0 ≤ 2 * Real.pi * (w.rw + 1) * (G + c * (m.porosity * m.thickness)) :=
      mul_nonneg (mul_nonneg (by positivity) (by linarith)) (add_nonneg hG (mul_nonneg hc hnT.le))
    by_contra hneg
    push Not at hneg
    nlinarith
  have hstrong : r * (G + c * (m.porosity * m.thickness)) ≤ w.qw * (twoPiInv : ℝ) := by
    have h3 : r * (G + c * (m.porosity * m.thickness)) ≤ (w.rw + 1) * (G + c * (m.porosity * m.thickness)) :=
      mul_le_mul_of_nonneg_right h2 (add_nonneg hG (mul_nonneg hc hnT.le))
    have h4 : (1 - 1 / 10 ^ 16) * w.qw ≤ (2 * Real.pi * (twoPiInv : ℝ)) * w.qw := mul_le_mul_of_nonneg_right (by linarith) hqw
    have hpi := Real.pi_pos
    have h5 : 2 * Real.pi * ((w.rw + 1) * (G + c * (m.porosity * m.thickness))) ≤ 2 * Real.pi * (w.qw * (twoPiInv : ℝ)) := by linarith
    exact h3.trans (le_of_mul_le_mul_left h5 (by positivity))
  have hdiv : (x - w.xw) * ((x - w.xw) / r ^ 2) + (y - w.yw) * ((y - w.yw) / r ^ 2) = 1 := by
    have : r ^ 2 ≠ 0 := by positivity
    field_simp
    linarith
  show v1 * (x - w.xw) + v2 * (y - w.yw) ≤ -(c * r)
  refine le_of_mul_le_mul_left ?_ hnT
  have e : m.porosity * m.thickness * (v1 * (x - w.xw) + v2 * (y - w.yw)) = (x - w.xw) * Q.1 + (y - w.yw) * Q.2 - w.qw * (twoPiInv : ℝ) := by
    linear_combination (x - w.xw) * u1 + (y - w.yw) * u2 - w.qw * (twoPiInv : ℝ) * hdiv
  rw [e]
  nlinarith

end Oneka
