import Verif.Lemmas.Pool
import Verif.Lemmas.Repro
import Verif.Props.Sequence
import Verif.Props.Reach
import Verif.Props.Field

/-!
# C152: runs in batches

Vocabulary: Spec/Pool.lean, Spec/RunReach.lean. Examples: Props/PoolExamples.lean.
-/

namespace Oneka

open PField

/-- **C152.** A run of `m + n` realizations returns if and only if a run of `m` and a run of `n` do that together use the same random numbers. -/
theorem C152_returns (a : RunArgs) (m n : ℕ) {env e e' : Env} (hp : env.Pools m e e') (hn : 0 ≤ a.npaths) :
    (∃ R F, createStochastic a (m + n : ℕ) env = some R ∧ R.outcome = .ok F) ↔
      (∃ r f, createStochastic a m e = some r ∧ r.outcome = .ok f) ∧ ∃ r f, createStochastic a n e' = some r ∧ r.outcome = .ok f := by
  rcases pool_create (n := n) hp hn with ⟨F, f, f', l, l', h1, h2, h3⟩ | ⟨h1, h2⟩
  · exact ⟨fun _ => ⟨⟨_, f, h2, rfl⟩, ⟨_, f', h3, rfl⟩⟩, fun _ => ⟨_, F, h1, rfl⟩⟩
  · constructor
    · rintro ⟨R, F, h, ho⟩
      exact absurd ho (h1 R F h)
    · rintro ⟨⟨r, f, h, ho⟩, ⟨r', f', h', ho'⟩⟩
      rcases h2 with h2 | h2
      · exact absurd ho (h2 r f h)
      · exact absurd ho' (h2 r' f' h')

/-- **C152.** Then the run of `m + n` has the realizations of both. Its total weight is the sum of theirs; it has the nodes of both. If the umbra does not exceed the spacing, the weights everywhere are the sums of theirs;
otherwise they are at least that. -/
theorem C152_weights (a : RunArgs) (m n k : ℕ) (t : SWell) (hk : a.target = k) (ht : a.wells[k]? = some t) {env e e' : Env} (hp : env.Pools m e e') (hn : 0 ≤ a.npaths) (hu : 0 ≤ a.umbra)
    {R r r' : RunResult} {F f f' : PField ℝ} (hR : createStochastic a (m + n : ℕ) env = some R) (hF : R.outcome = .ok F) (hr : createStochastic a m e = some r) (hf : r.outcome = .ok f)
    (hr' : createStochastic a n e' = some r') (hf' : r'.outcome = .ok f') :
    R.log = r.log ++ r'.log ∧ F.total = f.total + f'.total ∧ (∀ X Y, f.IsNode X Y ∨ f'.IsNode X Y → F.IsNode X Y) ∧
    (∀ X Y, f.weightAt X Y + f'.weightAt X Y ≤ F.weightAt X Y) ∧ (a.umbra ≤ a.spacing → ∀ X Y, F.weightAt X Y = f.weightAt X Y + f'.weightAt X Y) := by
  classical
  have hlog : R.log = r.log ++ r'.log := by
    rcases pool_create (n := n) hp hn with ⟨G, g, g', l, l', h1, h2, h3⟩ | ⟨h1, -⟩
    · obtain rfl := Option.some.inj (hR.symm.trans h1)
      obtain rfl := Option.some.inj (hr.symm.trans h2)
      obtain rfl := Option.some.inj (hr'.symm.trans h3)
      rfl
    · exact absurd hF (h1 R F hR)
  obtain ⟨L1, T1, -, W1, N1, -⟩ := C44_frequencies a m k e t hk ht hr hf
  obtain ⟨L2, T2, -, W2, N2, -⟩ := C44_frequencies a n k e' t hk ht hr' hf'
  obtain ⟨L3, T3, -, W3, N3, -⟩ := C44_frequencies a (m + n) k env t hk ht hR hF
  obtain ⟨n1, w1, -⟩ := C74_stochastic a m k e t hk ht hu hr hf
  obtain ⟨n2, w2, -⟩ := C74_stochastic a n k e' t hk ht hu hr' hf'
  obtain ⟨n3, w3, -⟩ := C74_stochastic a (m + n) k env t hk ht hu hR hF
  have hnodes : ∀ X Y, f.IsNode X Y ∨ f'.IsNode X Y → F.IsNode X Y := by
    intro X Y hN
    rw [n1, n2] at hN
    rw [n3, hlog]
    rcases hN with ⟨o, h⟩ | ⟨o, h⟩
    · exact ⟨o, reached_mono le_rfl (fun v hv => by unfold allVertices at hv ⊢; rw [List.flatMap_append]; exact List.mem_append_left _ hv) h⟩
    · exact ⟨o, reached_mono le_rfl (fun v hv => by unfold allVertices at hv ⊢; rw [List.flatMap_append]; exact List.mem_append_right _ hv) h⟩
  refine ⟨hlog, by rw [T1, T2, T3]; push_cast; ring, hnodes, fun X Y => ?_, fun hus X Y => ?_⟩
  · by_cases hN : F.IsNode X Y
    · rw [w3 X Y hN, List.range_add, List.countP_append, List.countP_map, hlog]
      have b1 : f.weightAt X Y ≤ ((List.range m).countP fun i => RecordedBy t.xw t.yw a.spacing a.umbra (r.log ++ r'.log) X Y i : ℕ) := by
        by_cases h1 : f.IsNode X Y
        · rw [w1 X Y h1]
          refine Nat.cast_le.mpr (List.countP_mono_left fun i hi => ?_)
          simp only [decide_eq_true_eq]
          rintro ⟨L, e1, e2⟩
          have hi' : i < r.log.length := by rw [L1]; exact List.mem_range.mp hi
          refine ⟨L, by rw [List.getElem?_append_left hi']; exact e1, ?_⟩
          rw [List.take_append_of_le_length hi'.le]
          exact e2
        · rw [weight_off h1]
          positivity
      have b2 : f'.weightAt X Y ≤ ((List.range n).countP ((fun i => decide (RecordedBy t.xw t.yw a.spacing a.umbra (r.log ++ r'.log) X Y i)) ∘ fun x => m + x) : ℕ) := by
        by_cases h1 : f'.IsNode X Y
        · rw [w2 X Y h1]
          refine Nat.cast_le.mpr (List.countP_mono_left fun i hi => ?_)
          simp only [decide_eq_true_eq, Function.comp]
          rintro ⟨L, e1, before, track, after, p1, p2, p3⟩
          refine ⟨L, by rw [List.getElem?_append_right (by omega), L1, Nat.add_sub_cancel_left]; exact e1, before, track, after, p1, p2, ?_⟩
          refine reached_mono le_rfl ?_ p3
          rw [show m = r.log.length from L1.symm, List.take_length_add_append]
          unfold allVertices
          rw [List.flatMap_append]
          intro v hv
          simp only [List.mem_append] at hv ⊢
          tauto
        · rw [weight_off h1]
          positivity
      push_cast
      linarith
    · rw [weight_off hN, weight_off fun h => hN (hnodes X Y (.inl h)), weight_off fun h => hN (hnodes X Y (.inr h))]
      simp
  · by_cases hN : F.IsNode X Y
    · obtain ⟨p, q, rfl, rfl⟩ := N3 X Y hN
      rw [W1 hu p q (.inr hus), W2 hu p q (.inr hus), W3 hu p q (.inr hus), hlog, List.countP_append]
      push_cast
      rfl
    · rw [weight_off hN, weight_off fun h => hN (hnodes X Y (.inl h)), weight_off fun h => hN (hnodes X Y (.inr h))]
      simp

/-- **C152.** The same of three calls of `oneka` that differ in the number of realizations only: if the umbra does not exceed the spacing, the archived probability is everywhere the average of those of the batches, weighted with their numbers of realizations. -/
theorem C152_archived (a a₁ a₂ : PyArgs) (n n₁ n₂ : Inputs) (env env₁ env₂ : CallEnv) (v v₁ v₂ : PyVal) (hd : a.Denotes n) (hd₁ : a₁.Denotes n₁) (hd₂ : a₂.Denotes n₂) (h : (oneka a env).ending = .returns v)
    (h₁ : (oneka a₁ env₁).ending = .returns v₁) (h₂ : (oneka a₂ env₂).ending = .returns v₂) (hrun : n₁.run = n.run ∧ n₂.run = n.run) (hbuf : n₁.buffer = n.buffer ∧ n₂.buffer = n.buffer)
    (hs : 1 < n₁.nrealizations ∧ 1 < n₂.nrealizations ∧ n.nrealizations = n₁.nrealizations + n₂.nrealizations) (hp : env.run.Pools n₁.nrealizations.toNat env₁.run env₂.run) (fs fs₁ fs₂ : Files) :
    ∃ (d d₁ d₂ : Dict) (f f₁ f₂ : PField ℝ), loadOneka ((oneka a env).events.foldl Effect.apply fs) env.now.archiveName = .ok d ∧ d.get "pfield" = some (.field (.field f)) ∧
      loadOneka ((oneka a₁ env₁).events.foldl Effect.apply fs₁) env₁.now.archiveName = .ok d₁ ∧ d₁.get "pfield" = some (.field (.field f₁)) ∧
      loadOneka ((oneka a₂ env₂).events.foldl Effect.apply fs₂) env₂.now.archiveName = .ok d₂ ∧ d₂.get "pfield" = some (.field (.field f₂)) ∧
      realizations (oneka a env).events = realizations (oneka a₁ env₁).events ++ realizations (oneka a₂ env₂).events ∧
      ∀ X Y, (n₁.nrealizations * (f₁.weightAt X Y / f₁.total) + n₂.nrealizations * (f₂.weightAt X Y / f₂.total)) / n.nrealizations ≤ f.weightAt X Y / f.total ∧
        (n.run.umbra ≤ n.run.spacing → f.weightAt X Y / f.total = (n₁.nrealizations * (f₁.weightAt X Y / f₁.total) + n₂.nrealizations * (f₂.weightAt X Y / f₂.total)) / n.nrealizations) := by
  obtain ⟨s1, s2, s3⟩ := hs
  obtain ⟨-, -, ha, -⟩ := returned_course h
  obtain ⟨⟨k, t, hk, ht⟩, hnp, -, hu, -⟩ := accepted_inputs ha hd
  rcases returned_cases hd h with ⟨-, obs, cols, r, f, pl, im, lines, H⟩ | ⟨c, -⟩ <;> [skip; omega]
  rcases returned_cases hd₁ h₁ with ⟨-, obs₁, cols₁, r₁, f₁, pl₁, im₁, lines₁, H₁⟩ | ⟨c, -⟩ <;> [skip; omega]
  rcases returned_cases hd₂ h₂ with ⟨-, obs₂, cols₂, r₂, f₂, pl₂, im₂, lines₂, H₂⟩ | ⟨c, -⟩ <;> [skip; omega]
  obtain ⟨d, hd1, hd2⟩ := archived_field h H.archived fs
  obtain ⟨d₁, hd3, hd4⟩ := archived_field h₁ H₁.archived fs₁
  obtain ⟨d₂, hd5, hd6⟩ := archived_field h₂ H₂.archived fs₂
  have o₁ : obs₁ = obs := by
    have := H₁.filtered
    simp only [Inputs.wellfield] at this
    rw [hrun.1, hbuf.1] at this
    exact Except.ok.inj (this.symm.trans H.filtered)
  have o₂ : obs₂ = obs := by
    have := H₂.filtered
    simp only [Inputs.wellfield] at this
    rw [hrun.2, hbuf.2] at this
    exact Except.ok.inj (this.symm.trans H.filtered)
  subst o₁ o₂
  have q := H.run
  have q₁ := H₁.run
  have q₂ := H₂.run
  rw [hrun.1, show n₁.nrealizations = ((n₁.nrealizations.toNat : ℕ) : ℤ) by omega] at q₁
  rw [hrun.2, show n₂.nrealizations = ((n₂.nrealizations.toNat : ℕ) : ℤ) by omega] at q₂
  rw [show n.nrealizations = ((n₁.nrealizations.toNat + n₂.nrealizations.toNat : ℕ) : ℤ) by omega] at q
  obtain ⟨x1, -, -, x4, x5⟩ := C152_weights { n.run with obs := obs₂ } _ _ k t hk ht hp hnp.le hu.le q H.outcome q₁ H₁.outcome q₂ H₂.outcome
  obtain ⟨-, T, -⟩ := C44_frequencies { n.run with obs := obs₂ } _ k env.run t hk ht q H.outcome
  obtain ⟨-, T₁, -⟩ := C44_frequencies { n.run with obs := obs₂ } _ k env₁.run t hk ht q₁ H₁.outcome
  obtain ⟨-, T₂, -⟩ := C44_frequencies { n.run with obs := obs₂ } _ k env₂.run t hk ht q₂ H₂.outcome
  have z₁ : ((n₁.nrealizations.toNat : ℕ) : ℝ) = (n₁.nrealizations : ℝ) := by
    exact_mod_cast (by omega : ((n₁.nrealizations.toNat : ℕ) : ℤ) = n₁.nrealizations)
  have z₂ : ((n₂.nrealizations.toNat : ℕ) : ℝ) = (n₂.nrealizations : ℝ) := by
    exact_mod_cast (by omega : ((n₂.nrealizations.toNat : ℕ) : ℤ) = n₂.nrealizations)
  have z : (n.nrealizations : ℝ) = n₁.nrealizations + n₂.nrealizations := by exact_mod_cast s3
  have p₁ : (0:ℝ) < n₁.nrealizations := by exact_mod_cast (by omega : 0 < n₁.nrealizations)
  have p₂ : (0:ℝ) < n₂.nrealizations := by exact_mod_cast (by omega : 0 < n₂.nrealizations)
  push_cast at T
  rw [z₁, z₂] at T
  rw [z₁] at T₁
  rw [z₂] at T₂
  refine ⟨d, d₁, d₂, f, f₁, f₂, hd1, hd2, hd3, hd4, hd5, hd6, by rw [H.realizations_eq, H₁.realizations_eq, H₂.realizations_eq, x1], fun X Y => ?_⟩
  rw [T, T₁, T₂, z, mul_div_cancel₀ _ p₁.ne', mul_div_cancel₀ _ p₂.ne']
  exact ⟨div_le_div_of_nonneg_right (x4 X Y) (by positivity), fun hus => by rw [x5 hus X Y]⟩

/-- **C152.** With an umbra larger than the spacing the batches can have less weight than one run: there are two realizations such that the field with both does not have the sum of the weights. -/
theorem C152_batches_matter (d u : ℝ) (hd : 0 < d) (hu : d < u) :
    ∃ (f0 f g h : PField ℝ) (r s : Realization ℝ) (X Y : ℝ), PField.new d d (some 0) (some 0) = .ok f0 ∧ f0.run ((r.events ++ s.events).map Event.call) = some f ∧
      f0.run (r.events.map Event.call) = some g ∧ f0.run (s.events.map Event.call) = some h ∧ f.weightAt X Y ≠ g.weightAt X Y + h.weightAt X Y := by
  obtain ⟨f0, f, g, r, s, X, Y, hnew, hf, hg, hne⟩ := C11_fails_if_umbra_exceeds_spacing d d u hd hd hu
  obtain ⟨wf0, -⟩ := new_wf hnew
  obtain ⟨p, hp, -⟩ := run_inv (r.events.map Event.call) f0 wf0
  obtain ⟨q, hq, -⟩ := run_inv (s.events.map Event.call) f0 wf0
  simp only [List.flatMap_cons, List.flatMap_nil, List.append_nil] at hf hg
  by_cases e : f.weightAt X Y = p.weightAt X Y + q.weightAt X Y
  · refine ⟨f0, g, q, p, s, r, X, Y, hnew, hg, hq, hp, fun e' => hne ?_⟩
    rw [e, e', add_comm]
  · exact ⟨f0, f, p, q, r, s, X, Y, hnew, hf, hp, hq, e⟩

end Oneka
