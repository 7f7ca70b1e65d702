import Verif.Lemmas.Fall
import Verif.Lemmas.Head
import Verif.Props.Arrival

/-!
# C155: water comes from higher heads, and from how far depends on how much higher

Vocabulary: Spec/Arrival.lean. Examples: Props/FallExamples.lean.
-/

namespace Oneka

open Aquifer

/-- **C155.** Water that is carried from one place to another in the time `τ`, confined or not: the potential at the goal is not larger, and the square of the distance is at most `τ` times the fall of the potential, divided by the porosity and the saturated thickness at the goal. -/
theorem C155_path {m : Aquifer ℝ} (hm : m.Physical) {confined : Bool} {γ : ℝ → ℝ × ℝ} {τ b : ℝ} (h0 : 0 ≤ τ) (h : m.Carries confined γ τ) (hb : m.Saturated confined (γ τ).1 (γ τ).2 b) :
    m.potential (γ τ).1 (γ τ).2 ≤ m.potential (γ 0).1 (γ 0).2 ∧ m.porosity * b * euclid (γ 0) (γ τ) ^ 2 ≤ τ * (m.potential (γ 0).1 (γ 0).2 - m.potential (γ τ).1 (γ τ).2) :=
  ⟨potential_descends hm h le_rfl h0, fall_distance hm h0 h hb⟩

/-- **C155.** In terms of heads: where `compute_head` answers at the goal it answers where the water comes from too, and the head there is at least as high; it is higher unless the water stays where it is. -/
theorem C155_head {m : Aquifer ℝ} (hm : m.Physical) {confined : Bool} {γ : ℝ → ℝ × ℝ} {τ h₁ : ℝ} (h0 : 0 ≤ τ) (h : m.Carries confined γ τ) (hh : m.head (γ τ).1 (γ τ).2 = .ok h₁) :
    ∃ h₀, m.head (γ 0).1 (γ 0).2 = .ok h₀ ∧ h₁ ≤ h₀ ∧ (γ τ ≠ γ 0 → h₁ < h₀) := by
  have hd := potential_descends hm h le_rfl h0
  have hmono := headOf_strictMono hm.conductivity hm.thickness
  rw [head_eq] at hh
  split_ifs at hh with hneg
  obtain rfl := Except.ok.inj hh
  push Not at hneg
  have hpos0 := lt_of_lt_of_le hneg hd
  refine ⟨_, by rw [head_eq, if_neg (not_le.mpr hpos0)], hmono.monotoneOn hneg hpos0 hd, fun hne => hmono hneg hpos0 ?_⟩
  obtain ⟨v, ⟨-, b, hb, -, -⟩, -⟩ := h τ h0 le_rfl
  have hdist := fall_distance hm h0 h hb
  have hb0 := saturated_pos hm hb
  have hn := hm.porosity
  have he : 0 < euclid (γ 0) (γ τ) ^ 2 := by
    unfold euclid
    rw [Real.sq_sqrt (by positivity)]
    by_contra hc
    push Not at hc
    exact hne (Prod.ext (by nlinarith [sq_nonneg ((γ τ).1 - (γ 0).1), sq_nonneg ((γ τ).2 - (γ 0).2)]) (by nlinarith [sq_nonneg ((γ τ).1 - (γ 0).1), sq_nonneg ((γ τ).2 - (γ 0).2)]))
  have hl : 0 < τ * (m.potential (γ 0).1 (γ 0).2 - m.potential (γ τ).1 (γ τ).2) := lt_of_lt_of_le (by positivity) hdist
  nlinarith

/-- **C155.** Water does not flow in circles: what returns to a place has never left it. -/
theorem C155_no_return {m : Aquifer ℝ} (hm : m.Physical) {confined : Bool} {γ : ℝ → ℝ × ℝ} {τ s t : ℝ} (h : m.Carries confined γ τ) (hs : 0 ≤ s) (ht : t ≤ τ) (hret : γ t = γ s) : ∀ r, s ≤ r → r ≤ t → γ r = γ s := by
  intro r h1 h2
  obtain ⟨v, ⟨-, b, hb, -, -⟩, -⟩ := h r (hs.trans h1) (h2.trans ht)
  have k1 := fall_distance hm (τ := r - s) (b := b) (by linarith) (carries_part (t := r) h hs (h2.trans ht)) (by simpa using hb)
  have k2 := potential_descends hm (carries_part (t := t) h (hs.trans h1) ht) le_rfl (by linarith)
  simp only [zero_add, sub_add_cancel] at k1 k2
  rw [hret] at k2
  have hb0 := saturated_pos hm hb
  have hn := hm.porosity
  refine euclid_zero_eq ?_
  by_contra hc
  push Not at hc
  have : 0 < m.porosity * b * euclid (γ s) (γ r) ^ 2 := by positivity
  nlinarith

/-- **C155.** What is delivered to a place within the time `D` from near a position comes from where the potential is higher by at least the porosity times the saturated thickness at the goal times the square of the distance, divided by `D`. -/
theorem C155_delivers {m : Aquifer ℝ} (hm : m.Physical) {confined : Bool} {D d X Y b : ℝ} {p : ℝ × ℝ} (hD : 0 < D) (hb : m.Saturated confined p.1 p.2 b) (h : m.Delivers confined D d X Y p) :
    ∃ z, euclid z (X, Y) < d ∧ m.potential p.1 p.2 + m.porosity * b * euclid z p ^ 2 / D ≤ m.potential z.1 z.2 := by
  obtain ⟨γ, τ, h0, h1, hγ, hd, rfl⟩ := h
  obtain ⟨k1, k2⟩ := C155_path hm h0 hγ hb
  refine ⟨γ 0, hd, ?_⟩
  have : m.porosity * b * euclid (γ 0) (γ τ) ^ 2 / D ≤ m.potential (γ 0).1 (γ 0).2 - m.potential (γ τ).1 (γ τ).2 := by
    rw [div_le_iff₀ hD]
    nlinarith
  linarith

/-- **C155.** So is what a realization captures; `δ` is the accuracy of its traces (C80). -/
theorem C155_captures {a : RunArgs} {la : LinAlg} {t : SWell} {q : Dist → ℕ → Except PyErr ℝ} {coefs : (Fin 6 → ℝ) → Matrix (Fin 6) (Fin 6) ℝ → Except PyErr (Fin 6 → ℝ)}
    {interrupt : ℕ → ℕ → Option PyErr} {T : RealizationLog} (R : Realized a la t q coefs interrupt T) (hphys : T.model.Physical) {D tol maxstep δ : ℝ} (hd : a.duration = .fin D) (ht : a.tol = .fin tol)
    (hm : a.maxstep = .fin maxstep) (hD : 0 < D) (htol : (10/9)^5 * (2:ℝ)^(-52 : ℤ) < tol) (hmax : (10/9) * (2:ℝ)^(-52 : ℤ) < maxstep) (hi : ∀ k n, interrupt k n = none)
    (hP : ∀ k : ℕ, k < a.npaths → ∃ P, Follows T.model a.confined (t.start a.npaths k) D maxstep δ P) {u X Y : ℝ} (hu : 0 ≤ u) (h : T.Captures u X Y) :
    ∃ (k : ℕ) (b : ℝ) (z : ℝ × ℝ), k < a.npaths ∧ T.model.Saturated a.confined (t.start a.npaths k).1 (t.start a.npaths k).2 b ∧ euclid z (X, Y) < u + δ ∧
      T.model.potential (t.start a.npaths k).1 (t.start a.npaths k).2 + T.model.porosity * b * euclid z (t.start a.npaths k) ^ 2 / D ≤ T.model.potential z.1 z.2 := by
  obtain ⟨k, hk, hdel⟩ := (C131_captures R hd ht hm hD htol hmax hi hP u X Y).2 hu h
  have hdel' := hdel
  obtain ⟨γ, τ, h0, -, hγ, -, hend⟩ := hdel'
  obtain ⟨v, ⟨-, b, hb, -, -⟩, -⟩ := hγ τ h0 le_rfl
  rw [hend] at hb
  obtain ⟨z, hz, hp⟩ := C155_delivers hphys hD hb hdel
  exact ⟨k, b, z, hk, hb, hz, hp⟩

open Classical in
/-- **C155.** What is archived: the weight of a node counts only realizations in which, within the umbra (and the accuracy) of the node, the potential is somewhere higher than at one of the starting points, by the amount stated. -/
theorem C155_archived (a : PyArgs) (n : Inputs) (env : CallEnv) (v : PyVal) (hden : a.Denotes n) (h : (oneka a env).ending = .returns v) (fs : Files)
    {D tol maxstep δ : ℝ} (hd : n.run.duration = .fin D) (ht : n.run.tol = .fin tol) (hm : n.run.maxstep = .fin maxstep) (hD : 0 < D) (htol : (10/9)^5 * (2:ℝ)^(-52 : ℤ) < tol)
    (hmax : (10/9) * (2:ℝ)^(-52 : ℤ) < maxstep) (hi : ∀ i k j, env.run.interrupt i k j = none) :
    ∃ (d : Dict) (f : PField ℝ) (k : ℕ) (t : SWell),
      loadOneka ((oneka a env).events.foldl Effect.apply fs) env.now.archiveName = .ok d ∧ d.get "pfield" = some (.field (.field f)) ∧ n.run.target = k ∧ n.run.wells[k]? = some t ∧
      ((∀ L ∈ realizations (oneka a env).events, L.model.Physical ∧ ∀ j : ℕ, j < n.run.npaths → ∃ P, Follows L.model n.run.confined (t.start n.run.npaths j) D maxstep δ P) →
        ∀ p q : ℤ, (|p| ≤ 1 ∧ |q| ≤ 1) ∨ n.run.umbra ≤ n.run.spacing → ∀ X Y : ℝ, X = t.xw + p * n.run.spacing → Y = t.yw + q * n.run.spacing →
          f.weightAt X Y ≤ ((realizations (oneka a env).events).countP fun L => ∃ (j : ℕ) (b : ℝ) (z : ℝ × ℝ), j < n.run.npaths ∧
            L.model.Saturated n.run.confined (t.start n.run.npaths j).1 (t.start n.run.npaths j).2 b ∧ euclid z (X, Y) < n.run.umbra + δ ∧
            L.model.potential (t.start n.run.npaths j).1 (t.start n.run.npaths j).2 + L.model.porosity * b * euclid z (t.start n.run.npaths j) ^ 2 / D ≤ L.model.potential z.1 z.2)) := by
  obtain ⟨d, f, k, t, h1, h2, h3, h4, h5⟩ := C131_archived a n env v hden h fs (δ := δ) hd ht hm hD htol hmax hi
  refine ⟨d, f, k, t, h1, h2, h3, h4, fun hP p q hpq X Y hX hY => ?_⟩
  obtain ⟨-, up⟩ := h5 (fun L hL j hj => (hP L hL).2 j hj) p q hpq X Y hX hY
  refine up.trans (Nat.cast_le.mpr (List.countP_mono_left fun L hL => ?_))
  simp only [decide_eq_true_eq]
  rintro ⟨j, hj, hdel⟩
  have hdel' := hdel
  obtain ⟨γ, τ, h0, -, hγ, -, hend⟩ := hdel'
  obtain ⟨v, ⟨-, b, hb, -, -⟩, -⟩ := hγ τ h0 le_rfl
  rw [hend] at hb
  obtain ⟨z, hz, hp⟩ := C155_delivers (hP L hL).1 hD hb hdel
  exact ⟨j, b, z, hj, hb, hz, hp⟩

end Oneka
