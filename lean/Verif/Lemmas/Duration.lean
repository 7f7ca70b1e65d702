import Verif.Spec.Duration
import Verif.Spec.CaptureExact
import Verif.Lemmas.Sensitivity
import Verif.Lemmas.PropsSequence
import Verif.Lemmas.CaptureExact

/-!
# Lemmas for C130
-/

namespace Oneka

open PField

/-! ## Two durations -/

theorem adaptive_common {f : ℝ × ℝ → ℝ × ℝ} {tol maxstep D D' : ℝ} (hle : |D| ≤ |D'|) {t h : ℝ} {p : ℝ × ℝ} {path : List (ℝ × (ℝ × ℝ))} (A : Adaptive f tol maxstep D t h p path) :
    ∀ path', Adaptive f tol maxstep D' t h p path' → |t| ≤ |D| →
      ∃ (pre rest rest' : List (ℝ × (ℝ × ℝ))) (h₁ : ℝ) (p₁ : ℝ × ℝ), path = pre ++ rest ∧ path' = pre ++ rest' ∧ (p :: pre.map Prod.snd).getLast? = some p₁ ∧
        Adaptive f tol maxstep D (t + (pre.map Prod.fst).sum) h₁ p₁ rest ∧ Adaptive f tol maxstep D' (t + (pre.map Prod.fst).sum) h₁ p₁ rest' ∧
        ((|t + (pre.map Prod.fst).sum| = |D| ∧ rest = []) ∨ (|t + (pre.map Prod.fst).sum| < |D| ∧ |D| < |t + (pre.map Prod.fst).sum + h₁|)) := by
  induction A with
  | finish t h p hfin =>
    intro path' A' ht
    exact ⟨[], [], path', h, p, rfl, rfl, rfl, by simpa using .finish t h p hfin, by simpa using A', Or.inl ⟨by simpa using le_antisymm ht hfin, rfl⟩⟩
  | accept t h h' p q path ht hh hq he hm A ih =>
    intro path' A' _
    by_cases hc : |D| < |t + h|
    · exact ⟨[], _, path', h, p, rfl, rfl, rfl, by simpa using .accept t h h' p q path ht hh hq he hm A, by simpa using A', Or.inr ⟨by simpa using ht, by simpa using hc⟩⟩
    · have e : h' = h := by rw [hh]; exact if_neg hc
      have e' : shortened D' t h = h := if_neg (by linarith)
      subst e
      cases A' with
      | finish hfin => linarith
      | accept _ _ h2 _ q2 path2 ht2 hh2 hq2 he2 hm2 A2 =>
        rw [e'] at hh2
        subst hh2 hq2 hq
        obtain ⟨pre, rest, rest', h₁, p₁, rfl, rfl, e3, e4, e5, e6⟩ := ih path2 A2 (by linarith)
        have es : ∀ s : ℝ, t + (h2 + s) = t + h2 + s := fun s => by ring
        refine ⟨_ :: pre, rest, rest', h₁, p₁, rfl, rfl, ?_, ?_, ?_, ?_⟩
        · simpa [List.getLast?_cons] using e3
        · simpa [es] using e4
        · simpa [es] using e5
        · simpa [es] using e6
      | retry _ _ h2 _ _ ht2 hh2 hn A2 =>
        rw [e'] at hh2
        subst hh2 hq
        exact absurd ⟨he, hm⟩ hn
  | retry t h h' p path ht hh hn A ih =>
    intro path' A' htD
    by_cases hc : |D| < |t + h|
    · exact ⟨[], path, path', h, p, rfl, rfl, rfl, by simpa using .retry t h h' p path ht hh hn A, by simpa using A', Or.inr ⟨by simpa using ht, by simpa using hc⟩⟩
    · have e : h' = h := by rw [hh]; exact if_neg hc
      have e' : shortened D' t h = h := if_neg (by linarith)
      subst e
      cases A' with
      | finish hfin => linarith
      | accept _ _ h2 _ q2 path2 ht2 hh2 hq2 he2 hm2 A2 =>
        rw [e'] at hh2
        subst hh2 hq2
        exact absurd ⟨he2, hm2⟩ hn
      | retry _ _ h2 _ _ ht2 hh2 hn2 A2 =>
        rw [e'] at hh2
        subst hh2
        exact ih path' A2 htD

theorem adaptive_last {f : ℝ × ℝ → ℝ × ℝ} {tol maxstep D t h : ℝ} {p : ℝ × ℝ} {rest : List (ℝ × (ℝ × ℝ))} (A : Adaptive f tol maxstep D t h p rest) (ht : |t| < |D|) (hc : |D| < |t + h|)
    (he : localError f (D - t) p < tol) (hm : euclid p (rkStep f dpA dp5 (D - t) p) < maxstep) : rest = [(D - t, rkStep f dpA dp5 (D - t) p)] := by
  have e : shortened D t h = D - t := if_pos hc
  cases A with
  | finish hfin => linarith
  | accept _ _ h2 _ q2 path2 ht2 hh2 hq2 he2 hm2 A2 =>
    rw [e] at hh2
    subst hh2 hq2
    rw [show t + (D - t) = D by ring] at A2
    cases A2 with
    | finish => rfl
    | accept => exact absurd ‹|D| < |D|› (lt_irrefl _)
    | retry => exact absurd ‹|D| < |D|› (lt_irrefl _)
  | retry _ _ h2 _ _ ht2 hh2 hn2 A2 =>
    rw [e] at hh2
    subst hh2
    exact absurd ⟨he, hm⟩ hn2

theorem Follows.shorter {m : Aquifer ℝ} {confined : Bool} {start : ℝ × ℝ} {D D' maxstep δ : ℝ} {P : ℝ → ℝ × ℝ} (h : Follows m confined start D' maxstep δ P) (hm : 0 ≤ maxstep) (hD : D ≤ D') :
    Follows m confined start D maxstep δ P := by
  obtain ⟨f, L, M, H, ρ, F⟩ := h
  have sub : ∀ q ∈ Tube P D ρ, q ∈ Tube P D' ρ := fun q ⟨t, h0, h1, h2⟩ => ⟨t, h0, h1.trans hD, h2⟩
  have hexp : 22 * maxstep * (Real.exp (L * D) - 1) ≤ 22 * maxstep * (Real.exp (L * D') - 1) :=
    mul_le_mul_of_nonneg_left (by linarith [Real.exp_le_exp.mpr (mul_le_mul_of_nonneg_left hD F.L_pos.le)]) (by linarith)
  exact ⟨f, L, M, H, ρ, F.physical, F.upstream, ⟨F.exact.1, fun t h0 h1 => F.exact.2 t h0 (h1.trans hD)⟩, fun q hq => F.flow q (sub q hq),
    fun a ha b hb => F.lip a (sub a ha) b (sub b hb), fun a ha => F.bound a (sub a ha), F.L_pos, F.M_nonneg, F.H_ge, F.H_le, by linarith [F.wide], fun q hq => F.fast q (sub q hq),
    by linarith [F.precision]⟩

/-! ## Uniform flow -/

/-- in an increasing list of numbers that begins with `a` and ends with `b`, any number from `a` to `b` is between two neighbours -/
theorem between_neighbours {l : List ℝ} {b s : ℝ} : ∀ {a : ℝ}, l ≠ [] → (a :: l).getLast? = some b → a ≤ s → s ≤ b → ∃ c d, [c, d] <:+: a :: l ∧ c ≤ s ∧ s ≤ d := by
  induction l with
  | nil => intro a h; exact absurd rfl h
  | cons c l ih =>
    intro a _ hl h0 h1
    by_cases hs : s ≤ c
    · exact ⟨a, c, ⟨[], l, rfl⟩, h0, hs⟩
    · rcases l with _ | ⟨d, l⟩
      · simp at hl
        subst hl
        exact ⟨a, c, ⟨[], [], rfl⟩, h0, h1⟩
      · obtain ⟨x, y, h2, h3⟩ := ih (a := c) (by simp) (by simpa [List.getLast?_cons] using hl) (not_le.mp hs).le h1
        exact ⟨x, y, h2.trans ⟨[a], [], by simp⟩, h3⟩

/-! ## Two runs -/

theorem runVelocity_none {m : Aquifer ℝ} {confined : Bool} {i : ℕ → ℕ → Option PyErr} (hi : ∀ k n, i k n = none) (k : ℕ) : runVelocity m confined i k = fun _ => m.toX.reverseVelocity confined := by
  funext n p
  unfold runVelocity
  rw [hi, Aquifer.reverseVelocity_eq]

theorem realize_retraced {a : RunArgs} {la : LinAlg} {t : SWell} {q : Dist → ℕ → Except PyErr ℝ}
    {coefs : (Fin 6 → ℝ) → Matrix (Fin 6) (Fin 6) ℝ → Except PyErr (Fin 6 → ℝ)} {recharge : (Fin 6 → ℝ) → ℝ}
    {i : ℕ → ℕ → Option PyErr} {D tol ms u' : ℝ} {f f' g : PField ℝ} {l : List RealizationLog} (hi : ∀ k n, i k n = none)
    (hf : f.WF) (hb : f.body ≠ none) (hf' : f'.WF) (hb' : f'.body ≠ none)
    (h : realize a la t q coefs recharge i f = some (.ok g, l))
    (hr : ∀ L ∈ l, ∀ k : ℕ, (k : ℤ) < a.npaths → computeBacktrace (.fin (t.start a.npaths k).1) (.fin (t.start a.npaths k).2) (.fin D) (.fin tol) (.fin ms)
      (fun _ => L.model.toX.reverseVelocity a.confined) ≠ none) :
    ∃ g' L L', realize (a.retraced D tol ms u') la t q coefs recharge i f' = some (.ok g', [L']) ∧ l = [L] ∧ L.SameModel L' := by
  unfold realize at h ⊢
  have hdm : drawModel (a.retraced D tol ms u') q = drawModel a q := rfl
  rw [hdm]
  cases hmo : drawModel a q with
  | error e => rw [hmo] at h; simp at h
  | ok mo =>
    rw [hmo] at h
    simp only at h ⊢
    rw [show (a.retraced D tol ms u').obs = a.obs from rfl]
    rcases hfit : mo.fitRegionalFlow la a.obs t.xw t.yw with ⟨mo', _ | ⟨ev, cov⟩⟩
    · rw [hfit] at h; simp at h
    · rw [hfit] at h
      simp only at h ⊢
      cases hc : coefs ev cov with
      | error e => rw [hc] at h; simp at h
      | ok c =>
        rw [hc] at h
        simp only at h ⊢
        split at h
        · simp at h
        · rename_i r hcz
          simp only [Option.some.injEq, Prod.mk.injEq] at h
          obtain ⟨ho, rfl⟩ := h
          have hout : r.outcome = .ok () := by
            cases hro : r.outcome with
            | ok _ => rfl
            | error e => rw [hro] at ho; simp [Except.map] at ho
          obtain ⟨h1, h2⟩ := capture_toNat hcz hout
          obtain ⟨r', hr'⟩ := capture_returns (u := u') (w := 1) (d := .fin D) (tol := .fin tol) (ms := .fin ms) (xt := t.xw) (yt := t.yw) (rt := t.rw) (n := a.npaths)
            (fe := runVelocity { mo' with coef := c } a.confined i) hf' (fun k hk => by
              rw [runVelocity_none hi]
              exact hr _ (List.mem_singleton_self _) k hk)
          obtain ⟨-, hl, -, -, -⟩ := capture_spec hf (Or.inl hb) h2
          have hr2 : computeCapturezone t.xw t.yw t.rw (a.npaths.toNat : ℕ) (.fin D) f' u' 1 (.fin tol) (.fin ms) (runVelocity { mo' with coef := c } a.confined i) = some r' := by
            rcases (by omega : 0 ≤ a.npaths ∨ a.npaths = -1) with hp | hp
            · rw [Int.toNat_of_nonneg hp]
              exact hr'
            · rw [← hr', hp]
              have e : startAngles ((-1 : ℤ).toNat : ℕ) = startAngles (-1) := by
                unfold startAngles
                simp [show (-1 : ℤ).toNat = 0 from rfl]
              unfold computeCapturezone
              rw [e]
          obtain ⟨c1, c2, -, -, -⟩ := capture_spec hf' (Or.inl hb') hr2
          have e1 : computeCapturezone t.xw t.yw t.rw (a.retraced D tol ms u').npaths (a.retraced D tol ms u').duration f' (a.retraced D tol ms u').umbra 1
            (a.retraced D tol ms u').tol (a.retraced D tol ms u').maxstep (runVelocity { mo' with coef := c } (a.retraced D tol ms u').confined i) = some r' := hr'
          rw [e1]
          exact ⟨r'.field, _, ⟨{ mo' with coef := c }, ev, cov, recharge c, r'.traces⟩, by simp only [c1]; rfl, rfl, ⟨rfl, rfl, rfl, rfl, by rw [hl, c2]⟩⟩

theorem loop_retraced {a : RunArgs} {env : Env} {t : SWell} {D tol ms u' : ℝ} (hi : ∀ i k n, env.interrupt i k n = none) :
    ∀ (n i : ℕ) (f f' : PField ℝ) (acc acc' : List RealizationLog) (r : RunResult) (g : PField ℝ),
    f.WF → f.body ≠ none → f'.WF → f'.body ≠ none → List.Forall₂ RealizationLog.SameModel acc acc' →
    stochasticLoop a env t n i f acc = some r → r.outcome = .ok g →
    ∃ ls, r.log = acc ++ ls ∧
      ((∀ L ∈ ls, ∀ k : ℕ, (k : ℤ) < a.npaths → computeBacktrace (.fin (t.start a.npaths k).1) (.fin (t.start a.npaths k).2) (.fin D) (.fin tol) (.fin ms)
        (fun _ => L.model.toX.reverseVelocity a.confined) ≠ none) →
      ∃ r' g', stochasticLoop (a.retraced D tol ms u') env t n i f' acc' = some r' ∧ r'.outcome = .ok g' ∧ List.Forall₂ RealizationLog.SameModel r.log r'.log) := by
  intro n
  induction n with
  | zero =>
    intro i f f' acc acc' r g _ _ _ _ hacc h ho
    obtain rfl := Option.some.inj h
    exact ⟨[], by simp, fun _ => ⟨_, f', rfl, rfl, hacc⟩⟩
  | succ n ih =>
    intro i f f' acc acc' r g hf hb hf' hb' hacc h ho
    unfold stochasticLoop at h
    split at h
    · simp at h
    · obtain rfl := Option.some.inj h
      simp at ho
    · rename_i f1 l hreal
      obtain ⟨-, -, -, -, wf1, b1⟩ := realize_run hf hb hreal
      by_cases hl : ∀ L ∈ l, ∀ k : ℕ, (k : ℤ) < a.npaths → computeBacktrace (.fin (t.start a.npaths k).1) (.fin (t.start a.npaths k).2) (.fin D) (.fin tol) (.fin ms)
        (fun _ => L.model.toX.reverseVelocity a.confined) ≠ none
      · obtain ⟨g1', L, L', hr', rfl, hs⟩ := realize_retraced (u' := u') (hi i) hf hb hf' hb' hreal hl
        obtain ⟨-, -, -, -, wf1', b1'⟩ := realize_run hf' hb' hr'
        obtain ⟨ls, e, k⟩ := ih (i+1) f1 g1' (acc ++ [L]) (acc' ++ [L']) r g wf1 b1 wf1' b1' (List.rel_append hacc (.cons hs .nil)) h ho
        refine ⟨L :: ls, by rw [e]; simp, fun hh => ?_⟩
        obtain ⟨r', g', k1, k2, k3⟩ := k fun L' hL' => hh L' (List.mem_cons_of_mem _ hL')
        refine ⟨r', g', ?_, k2, k3⟩
        unfold stochasticLoop
        rw [hr']
        exact k1
      · obtain ⟨ls, e, -⟩ := ih (i+1) f1 f1 (acc ++ l) (acc ++ l) r g wf1 b1 wf1 b1 (List.forall₂_same.mpr fun _ _ => ⟨rfl, rfl, rfl, rfl, rfl⟩) h ho
        refine ⟨l ++ ls, by rw [e]; simp, fun hh => ?_⟩
        exact absurd (fun L hL => hh L (List.mem_append_left _ hL)) hl

theorem realized_retraced {a : RunArgs} {la : LinAlg} {t : SWell} {q : Dist → ℕ → Except PyErr ℝ} {coefs : (Fin 6 → ℝ) → Matrix (Fin 6) (Fin 6) ℝ → Except PyErr (Fin 6 → ℝ)}
    {interrupt : ℕ → ℕ → Option PyErr} {L L' : RealizationLog} {D tol ms u' : ℝ} (R : Realized a la t q coefs interrupt L)
    (R' : Realized (a.retraced D tol ms u') la t q coefs interrupt L') : L.model = L'.model := by
  have R1 : Realized { a with npaths := 0 } la t q coefs interrupt { L with traces := [] } :=
    ⟨R.base, R.wells_length, R.wells, R.conductivity, R.porosity, R.thickness, R.origin, R.fit, R.coef, rfl, fun k tr h => by simp at h⟩
  have R2 : Realized { a with npaths := 0 } la t q coefs interrupt { L' with traces := [] } :=
    ⟨R'.base, R'.wells_length, R'.wells, R'.conductivity, R'.porosity, R'.thickness, R'.origin, R'.fit, R'.coef, rfl, fun k tr h => by simp at h⟩
  exact (realized_unique (fun _ _ _ => rfl) R1 R2).1

end Oneka
