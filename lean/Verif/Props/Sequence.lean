import Verif.Lemmas.PropsSequence

/-!
# C84, C85: selecting the target, and the sequence of realizations
-/

namespace Oneka

open PField

/-! ## C84 -/

/-- C84: a negative target index counts from the end of the list of wells. -/
theorem C84_from_the_end (a : RunArgs) (h0 : a.target < 0) (h1 : -(a.wells.length : ℤ) ≤ a.target) (n : ℤ) (env : Env) :
    createStochastic a n env = createStochastic { a with target := a.target + a.wells.length } n env ∧
    createDeterministic a env = createDeterministic { a with target := a.target + a.wells.length } env := by
  unfold createStochastic createDeterministic
  simp only [loop_target, realize_target, getWell_negative h0 h1]
  exact ⟨trivial, trivial⟩

/-- C84: a target index outside the list raises IndexError before anything is computed. -/
theorem C84_outside (a : RunArgs) (h : a.target < -(a.wells.length : ℤ) ∨ (a.wells.length : ℤ) ≤ a.target) (n : ℤ) (env : Env) :
    createStochastic a n env = some ⟨.error .indexError, []⟩ ∧ createDeterministic a env = some ⟨.error .indexError, []⟩ := by
  unfold createStochastic createDeterministic
  rw [getWell_outside h]
  exact ⟨rfl, rfl⟩

/-- C84: a spacing that is not positive raises RangeError before anything is computed. -/
theorem C84_spacing (a : RunArgs) (k : ℕ) (t : SWell) (hk : a.target = k) (ht : a.wells[k]? = some t) (hs : a.spacing ≤ 0) (n : ℤ) (env : Env) :
    createStochastic a n env = some ⟨.error .rangeError, []⟩ ∧ createDeterministic a env = some ⟨.error .rangeError, []⟩ := by
  unfold createStochastic createDeterministic
  rw [hk, getWell_nat ht]
  simp only [PField.new, if_pos hs]
  exact ⟨trivial, trivial⟩

/-- C84: no realizations (zero, or a negative number): the empty field around the target. -/
theorem C84_none (a : RunArgs) (k : ℕ) (t : SWell) (hk : a.target = k) (ht : a.wells[k]? = some t) (hs : 0 < a.spacing) (n : ℤ) (hn : n ≤ 0) (env : Env) :
    ∃ f, createStochastic a n env = some ⟨.ok f, []⟩ ∧ PField.new a.spacing a.spacing (some t.xw) (some t.yw) = .ok f ∧ f.total = 0 ∧ ∀ X Y, f.weightAt X Y = 0 := by
  have hnew : ∃ f, PField.new a.spacing a.spacing (some t.xw) (some t.yw) = .ok f := by
    unfold PField.new
    rw [if_neg (not_le.2 hs), if_neg (not_le.2 hs)]
    exact ⟨_, rfl⟩
  obtain ⟨f, hf⟩ := hnew
  refine ⟨f, ?_, hf, (new_spec hf).2.2.2.1, (new_spec hf).2.2.2.2.2.2.1⟩
  unfold createStochastic
  rw [hk, getWell_nat ht]
  simp only [hf, Int.toNat_of_nonpos hn]
  rfl

/-! ## C85 -/

/-- C85: the first `m` realizations of a run are those of a shorter run with the same random numbers, and the further ones only add to the field: at most one for each. -/
theorem C85_prefix (a : RunArgs) (m n : ℕ) (hmn : m ≤ n) (env : Env)
    {r : RunResult} {f : PField ℝ} (h : createStochastic a n env = some r) (ho : r.outcome = .ok f) :
    ∃ r' f', createStochastic a m env = some r' ∧ r'.outcome = .ok f' ∧ r'.log = r.log.take m ∧
      ∀ X Y, f'.weightAt X Y ≤ f.weightAt X Y ∧ f.weightAt X Y ≤ f'.weightAt X Y + (n - m) := by
  obtain ⟨d, rfl⟩ := Nat.exists_eq_add_of_le hmn
  obtain ⟨c1, c2, c3⟩ := create_add a env m d
  cases hm : createStochastic a m env with
  | none => rw [c1 hm] at h; cases h
  | some r' =>
    obtain ⟨o, l⟩ := r'
    cases o with
    | error e =>
      rw [c2 _ e hm rfl] at h
      obtain rfl := Option.some.inj h
      cases ho
    | ok f' =>
      obtain ⟨t', ht', hr⟩ := c3 _ f' hm rfl
      rw [hr] at h
      unfold createStochastic at hm
      rw [ht'] at hm
      simp only at hm
      split at hm
      · cases hm
      · rename_i f0 hf0
        obtain ⟨_, _, _, _, hreach, hclean, _, ⟨b, hb, _⟩, _⟩ := new_spec hf0
        rw [Int.toNat_natCast] at hm
        obtain ⟨ls, e1, e2, _, hreach', hinv, hclean', _⟩ := loop_spec m 0 f0 b [] _ f' hreach hb hclean hm rfl
        obtain ⟨b', hb', _⟩ := hinv.lattice b hb
        obtain ⟨ls', e1', e2', _, _, _, _, hw, _⟩ := loop_spec d m f' b' _ _ f hreach' hb' hclean' h ho
        refine ⟨_, f', rfl, rfl, ?_, fun X Y => ?_⟩
        · simp only [List.nil_append] at e1
          rw [e1', List.take_left' (by rw [e1, e2])]
        · obtain ⟨j, hj, e⟩ := hw X Y
          have : (j : ℝ) ≤ d := by exact_mod_cast hj
          rw [e]
          push_cast
          exact ⟨by linarith [Nat.cast_nonneg (α := ℝ) j], by linarith⟩

/-- C85: a run that raises, or never returns, does so whatever number of realizations was to follow. -/
theorem C85_failure (a : RunArgs) (m n : ℕ) (hmn : m ≤ n) (env : Env) :
    (createStochastic a m env = none → createStochastic a n env = none) ∧
    (∀ r e, createStochastic a m env = some r → r.outcome = .error e → createStochastic a n env = some r) := by
  obtain ⟨d, rfl⟩ := Nat.exists_eq_add_of_le hmn
  obtain ⟨c1, c2, _⟩ := create_add a env m d
  exact ⟨c1, c2⟩

/-- C85: realizations do not influence each other: two runs, of any lengths, that use the same numbers for realization `i` get the same model, fit and traces for it, whatever happened in the others. -/
theorem C85_independent (a : RunArgs) (n n' k : ℕ) (env env' : Env) (t : SWell) (hk : a.target = k) (ht : a.wells[k]? = some t) {r r' : RunResult} {f f' : PField ℝ}
    (h : createStochastic a n env = some r) (ho : r.outcome = .ok f) (h' : createStochastic a n' env' = some r') (ho' : r'.outcome = .ok f') (i : ℕ) (hi : i < n) (hi' : i < n')
    (hla : env.la = env'.la) (hu : ∀ j ≤ a.wells.length + 2, env.u i j = env'.u i j) (hm : env.mvn i = env'.mvn i) (hint : env.interrupt i = env'.interrupt i) :
    ∃ L L', r.log[i]? = some L ∧ r'.log[i]? = some L' ∧ L.model = L'.model ∧ L.ev = L'.ev ∧ L.cov = L'.cov ∧ L.traces = L'.traces := by
  obtain ⟨L, hL, R⟩ := C45_realizations a n k env t hk ht h ho i hi
  obtain ⟨L', hL', R'⟩ := C45_realizations a n' k env' t hk ht h' ho' i hi'
  rw [← hla, ← hm, ← hint] at R'
  exact ⟨L, L', hL, hL', realized_unique (fun d j hj => by rw [hu j hj]) R R'⟩

/-! ## Examples -/

/-- C84: the last well of `exampleArgs` is its only one, so -1 selects it -/
example (n : ℤ) (env : Env) : createStochastic { exampleArgs with target := -1 } n env = createStochastic exampleArgs n env :=
  (C84_from_the_end { exampleArgs with target := -1 } (by simp) (by simp [exampleArgs]) n env).1

/-- C84: no well 1, no well -2 -/
example (n : ℤ) (env : Env) : createStochastic { exampleArgs with target := 1 } n env = some ⟨.error .indexError, []⟩ ∧
    createStochastic { exampleArgs with target := -2 } n env = some ⟨.error .indexError, []⟩ :=
  ⟨(C84_outside _ (.inr (by simp [exampleArgs])) n env).1, (C84_outside _ (.inl (by simp [exampleArgs])) n env).1⟩

/-- C84: spacing 0 -/
example (n : ℤ) (env : Env) : createStochastic { exampleArgs with spacing := 0 } n env = some ⟨.error .rangeError, []⟩ :=
  (C84_spacing _ 0 _ rfl rfl le_rfl n env).1

/-- C84: minus one realization -/
example (env : Env) : ∃ f, createStochastic exampleArgs (-1) env = some ⟨.ok f, []⟩ ∧ f.total = 0 := by
  obtain ⟨f, h, -, h0, -⟩ := C84_none exampleArgs 0 _ rfl rfl (by norm_num [exampleArgs]) (-1) (by norm_num) env
  exact ⟨f, h, h0⟩

/-- C85: the hypotheses of `C85_prefix` are met, with any two numbers of realizations -/
example (N m n : ℕ) (h : m ≤ n) : ∃ r r', createStochastic exampleArgs n (exampleEnv N) = some r ∧
    createStochastic exampleArgs m (exampleEnv N) = some r' ∧ r'.log = r.log.take m := by
  obtain ⟨r, f, hr, ho⟩ := exampleRun_returns N n
  obtain ⟨r', f', hr', -, hl, -⟩ := C85_prefix exampleArgs m n h (exampleEnv N) hr ho
  exact ⟨r, r', hr, hr', hl⟩

/-- C85: a conductivity `()` makes the first realization raise, and so any longer run -/
example (N n : ℕ) : ∃ r e, createStochastic { exampleArgs with cDist := .tuple [] } (1 + n : ℕ) (exampleEnv N) = some r ∧ r.outcome = .error e := by
  obtain ⟨r, e, h, ho⟩ : ∃ r e, createStochastic { exampleArgs with cDist := .tuple [] } (1 : ℕ) (exampleEnv N) = some r ∧ r.outcome = .error e := by
    have hnew := (C84_none { exampleArgs with cDist := .tuple [] } 0 _ rfl rfl (by norm_num [exampleArgs]) 0 le_rfl (exampleEnv N))
    obtain ⟨f, -, hf, -⟩ := hnew
    have e1 : Dist.sample (.tuple [500, 1000]) (1/2) = .ok (500 + (1000 - 500) * (1/2)) := rfl
    have e2 : Dist.sample (.tuple []) (1/2) = .error .distributionError := rfl
    refine ⟨⟨.error .distributionError, []⟩, .distributionError, ?_, rfl⟩
    unfold createStochastic
    rw [show getWell exampleArgs.wells exampleArgs.target = .ok ⟨0, 0, 0.25, .tuple [500, 1000]⟩ from rfl]
    simp only [hf]
    simp only [Nat.cast_one, Int.toNat_one, stochasticLoop, realize, drawModel, drawWells, exampleArgs, exampleEnv, e1, e2, List.append_nil]
  exact ⟨r, e, (C85_failure _ 1 (1 + n) (by omega) _).2 r e h ho, ho⟩

/-- C85: two runs that are interrupted at different times in realization 1, and use the same numbers in realization 0 -/
example (N N' : ℕ) : ∃ r r' : RunResult, createStochastic exampleArgs 1 (exampleEnv N) = some r ∧
    createStochastic exampleArgs 2 { exampleEnv N with interrupt := fun i => (exampleEnv (if i = 0 then N else N')).interrupt i } = some r' ∧
    ∃ L L', r.log[0]? = some L ∧ r'.log[0]? = some L' ∧ L.traces = L'.traces := by
  obtain ⟨r, f, hr, ho⟩ := exampleRun_returns N 1
  obtain ⟨r', f', hr', ho'⟩ := exampleRun_returns' (fun i => if i = 0 then N else N') 2
  obtain ⟨L, L', h1, h2, -, -, -, h3⟩ := C85_independent exampleArgs 1 2 0 _ _ _ rfl rfl hr ho hr' ho' 0 (by omega) (by omega) rfl (fun _ _ => rfl) rfl rfl
  exact ⟨r, r', hr, hr', L, L', h1, h2, h3⟩

end Oneka
