import Verif.Spec.Pool
import Verif.Lemmas.Certain

/-!
# Lemmas for Props/Pool.lean
-/

namespace Oneka

open PField

/-- The same realizations end alike and log the same, whatever has been recorded before. -/
theorem loop_free {a : RunArgs} {env env' : Env} {t : SWell} (hn : 0 ≤ a.npaths) (hla : env'.la = env.la) : ∀ (k i i' : ℕ) (f f' : PField ℝ) (acc acc' : List RealizationLog),
    (∀ j < k, env'.u (i' + j) = env.u (i + j) ∧ env'.mvn (i' + j) = env.mvn (i + j) ∧ env'.interrupt (i' + j) = env.interrupt (i + j)) →
    f.Reachable → f.body ≠ none → (∀ X Y, ¬ f.markedAt X Y) → f'.Reachable → f'.body ≠ none → (∀ X Y, ¬ f'.markedAt X Y) →
    (∃ g l, stochasticLoop a env t k i f acc = some ⟨.ok g, acc ++ l⟩ ∧ ∃ g', stochasticLoop a env' t k i' f' acc' = some ⟨.ok g', acc' ++ l⟩) ∨
    (∀ R F, stochasticLoop a env t k i f acc = some R → R.outcome ≠ .ok F) ∧ (∀ R F, stochasticLoop a env' t k i' f' acc' = some R → R.outcome ≠ .ok F) := by
  intro k
  induction k with
  | zero =>
    intro i i' f f' acc acc' _ _ _ _ _ _ _
    exact .inl ⟨f, [], by simp [stochasticLoop], f', by simp [stochasticLoop]⟩
  | succ k ih =>
    intro i i' f f' acc acc' hs hf hb hc hf' hb' hc'
    obtain ⟨s1, s2, s3⟩ := hs 0 (by omega)
    simp only [Nat.add_zero] at s1 s2 s3
    unfold stochasticLoop
    rw [hla, s1, s2, s3]
    rcases realize_free (la := env.la) (t := t) (recharge := fun c => 2 * (c 0 + c 1)) (recharge' := fun c => 2 * (c 0 + c 1)) hn (q := fun d j => d.sample (env.u i j)) rfl (coefs := env.mvn i)
      (fun _ _ => rfl) (i := env.interrupt i) rfl (reachable_wf hf) hb (reachable_wf hf') hb' with ⟨h1, h2⟩ | ⟨e, h1, h2⟩ | ⟨g, g', l, l', h1, h2⟩
    · rw [h1, h2]
      exact .inr ⟨fun R F h => by simp at h, fun R F h => by simp at h⟩
    · rw [h1, h2]
      refine .inr ⟨fun R F h => ?_, fun R F h => ?_⟩
      all_goals
        obtain rfl := Option.some.inj h
        simp
    · rw [h1, h2]
      simp only
      obtain ⟨b, hb1⟩ := Option.ne_none_iff_exists'.mp hb
      obtain ⟨b', hb1'⟩ := Option.ne_none_iff_exists'.mp hb'
      obtain ⟨L, rfl, R, rc, g1, g2, g3, -⟩ := realize_spec hf hb1 hc h1
      obtain ⟨L', rfl, R', rc', g1', g2', g3', -⟩ := realize_spec hf' hb1' hc' h2
      obtain ⟨u1, u2, u3, u4⟩ := realized_unique (fun _ _ _ => rfl) R R'
      have hL : L' = L := by
        obtain ⟨mo, ev, cov, re, tr⟩ := L
        obtain ⟨mo', ev', cov', re', tr'⟩ := L'
        simp only at u1 u2 u3 u4 rc rc'
        subst u1 u2 u3 u4 rc rc'
        rfl
      subst hL
      obtain ⟨b2, hb2, -⟩ := g2.lattice b hb1
      obtain ⟨b2', hb2', -⟩ := g2'.lattice b' hb1'
      rcases ih (i + 1) (i' + 1) g g' (acc ++ [L']) (acc' ++ [L']) (fun j hj => by
        have := hs (j + 1) (by omega)
        rwa [show i + (j + 1) = i + 1 + j by omega, show i' + (j + 1) = i' + 1 + j by omega] at this) g1 (by rw [hb2]; simp) g3 g1' (by rw [hb2']; simp) g3' with ⟨G, l, e1, G', e2⟩ | h
      · exact .inl ⟨G, L' :: l, by rw [e1]; simp, G', by rw [e2]; simp⟩
      · exact .inr h

/-- Whether a run in two batches returns, and what it logs. -/
theorem pool_create {a : RunArgs} {m n : ℕ} {env e e' : Env} (hp : env.Pools m e e') (hn : 0 ≤ a.npaths) :
    (∃ F f f' l l', createStochastic a (m + n : ℕ) env = some ⟨.ok F, l ++ l'⟩ ∧ createStochastic a m e = some ⟨.ok f, l⟩ ∧ createStochastic a n e' = some ⟨.ok f', l'⟩) ∨
    (∀ R F, createStochastic a (m + n : ℕ) env = some R → R.outcome ≠ .ok F) ∧
      ((∀ R F, createStochastic a m e = some R → R.outcome ≠ .ok F) ∨ ∀ R F, createStochastic a n e' = some R → R.outcome ≠ .ok F) := by
  unfold createStochastic
  cases ht : getWell a.wells a.target with
  | error er =>
    refine .inr ⟨fun R F h => ?_, .inl fun R F h => ?_⟩
    all_goals
      obtain rfl := Option.some.inj h
      simp
  | ok t =>
    simp only
    cases hnew : PField.new a.spacing a.spacing (some t.xw) (some t.yw) with
    | error er =>
      refine .inr ⟨fun R F h => ?_, .inl fun R F h => ?_⟩
      all_goals
        obtain rfl := Option.some.inj h
        simp
    | ok f0 =>
      simp only [Int.toNat_natCast]
      obtain ⟨-, -, -, -, hr0, hm0, -, ⟨b, hb, -⟩, -⟩ := new_spec hnew
      have hb0 : f0.body ≠ none := by rw [hb]; simp
      rw [loop_add]
      rcases loop_free (env := env) (env' := e) (t := t) hn hp.la.1 m 0 0 f0 f0 [] [] (fun j hj => by simpa using hp.first j hj) hr0 hb0 hm0 hr0 hb0 hm0 with ⟨g, l, e1, g', e2⟩ | ⟨h1, h2⟩
      · rw [e1, e2]
        simp only [List.nil_append, Nat.zero_add]
        obtain ⟨-, -, -, -, gr, gi, gm, -⟩ := loop_spec m 0 f0 b [] _ g hr0 hb hm0 e1 rfl
        obtain ⟨b', hb', -⟩ := gi.lattice b hb
        rcases loop_free (env := env) (env' := e') (t := t) hn hp.la.2 n m 0 g f0 l [] (fun j hj => by simpa using hp.second j) gr (by rw [hb']; simp) gm hr0 hb0 hm0 with ⟨G, l', e3, G', e4⟩ | ⟨h1, h2⟩
        · rw [e3, e4]
          exact .inl ⟨G, g', G', l, l', rfl, rfl, rfl⟩
        · exact .inr ⟨h1, .inr h2⟩
      · refine .inr ⟨fun R F h => ?_, .inl h2⟩
        revert h
        split
        · intro h; cases h
        · intro h
          obtain rfl := Option.some.inj h
          simp
        · rename_i f' l hl
          exact absurd rfl (h1 _ f' hl)

end Oneka
