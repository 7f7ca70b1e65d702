import Verif.Lemmas.Fit

/-!
# C35–C40: fitting the regional flow

`m.fitRegionalFlow la obs xo yo = (m', result)`: the model afterwards and the returned pair (coefficients, covariance) or the
exception. `la` stands for numpy's `lstsq` and `inv`; `la.Correct` is their contract (`Verif/Spec/Aquifer.lean`).
-/

namespace Oneka
open Aquifer Matrix

/-! ## Data used in the examples -/

open Classical in
/-- A correct linear algebra package exists. -/
noncomputable def perfect : LinAlg where
  lstsq rows := if h : ∃ (r : List ((Fin 6 → ℝ) × ℝ)) (c : Fin 6 → ℝ), rows = r.map finRow ∧ ∀ c' : Fin 6 → ℝ,
      (r.map fun r => (∑ i, r.1 i * c i - r.2) ^ 2).sum ≤ (r.map fun r => (∑ i, r.1 i * c' i - r.2) ^ 2).sum
    then .ok h.choose_spec.choose else .error .linAlgError
  inv A := if h : ∃ A' B : Matrix (Fin 6) (Fin 6) ℝ, (A = fun i j => .fin (A' i j)) ∧ A' * B = 1 then .ok h.choose_spec.choose else .error .linAlgError

theorem perfect_correct : perfect.Correct where
  lstsq_min rows c h := by
    unfold perfect at h
    simp only at h
    split_ifs at h with hc
    have e := hc.choose_spec.choose_spec
    rw [Except.ok.inj h] at e
    have e1 := finRow_injective.list_map e.1
    have e2 := e.2
    rwa [← e1] at e2
  lstsq_err rows e h := by
    unfold perfect at h
    simp only at h
    split_ifs at h with hc
    exact (Except.error.inj h).symm
  inv_ok A B h := by
    unfold perfect at h
    simp only at h
    split_ifs at h with hc
    have e := hc.choose_spec.choose_spec
    rw [Except.ok.inj h] at e
    have e1 := finMatrix_injective e.1
    have e2 := e.2
    rw [← e1] at e2
    exact ⟨e2, mul_eq_one_comm.mp e2⟩
  inv_err A e h := by
    unfold perfect at h
    simp only at h
    split_ifs at h with hc
    exact (Except.error.inj h).symm
  inv_singular A e h := by
    unfold perfect at h
    simp only at h
    split_ifs at h with hc
    rintro ⟨B, hB⟩
    exact hc ⟨A, B, rfl, hB⟩

theorem perfect_strict : perfect.Strict := by
  intro rows hr
  unfold perfect
  simp only
  rw [dif_neg]
  rintro ⟨r, c, rfl, -⟩
  obtain ⟨r', hr', h⟩ := hr
  obtain ⟨r'', -, rfl⟩ := List.mem_map.mp hr'
  rcases h with ⟨i, h⟩ | h
  · exact h trivial
  · exact h trivial

/-- An aquifer without wells. -/
def plain : Aquifer ℝ :=
  { base := 0, conductivity := 10, porosity := 0.2, thickness := 20, wells := [], xo := 0, yo := 0, coef := fun _ => 0 }

/-- Six observations in general position. -/
def sixObs : List Obs :=
  [⟨3, 0, 30, 1⟩, ⟨1, 0, 31, 1⟩, ⟨0, 1, 32, 2⟩, ⟨1, 1, 30, 1⟩, ⟨2, 0, 35, 1⟩, ⟨0, 2, 29, 0.5⟩]

/-- they are usable wherever the base is at zero and all wells are at the origin -/
theorem sixObs_usable_of {m : Aquifer ℝ} (hb : m.base = 0) (hw : ∀ w ∈ m.wells, w.xw = 0 ∧ w.yw = 0) : m.Usable sixObs := by
  intro o ho
  simp only [sixObs, List.mem_cons, List.not_mem_nil, or_false] at ho
  refine ⟨?_, ?_, fun w hwm e => ?_⟩
  · rw [hb]
    rcases ho with rfl | rfl | rfl | rfl | rfl | rfl <;> norm_num
  · rcases ho with rfl | rfl | rfl | rfl | rfl | rfl <;> norm_num
  · rw [(hw w hwm).1, (hw w hwm).2] at e
    rcases ho with rfl | rfl | rfl | rfl | rfl | rfl <;> simp at e

theorem sixObs_usable : plain.Usable sixObs := sixObs_usable_of rfl (by simp [plain])

theorem sixObs_general : ¬ OnOneConic sixObs := by
  rintro ⟨c, hc, h⟩
  apply hc
  have h0 := h ⟨3, 0, 30, 1⟩ (by simp [sixObs])
  have h1 := h ⟨1, 0, 31, 1⟩ (by simp [sixObs])
  have h2 := h ⟨0, 1, 32, 2⟩ (by simp [sixObs])
  have h3 := h ⟨1, 1, 30, 1⟩ (by simp [sixObs])
  have h4 := h ⟨2, 0, 35, 1⟩ (by simp [sixObs])
  have h5 := h ⟨0, 2, 29, 0.5⟩ (by simp [sixObs])
  simp only [conic] at h0 h1 h2 h3 h4 h5
  funext i
  fin_cases i <;> simp <;> linarith

theorem perfect_converges : perfect.Converges := by
  intro rows
  unfold perfect
  simp only
  obtain ⟨c, hc⟩ := lstsq_exists rows
  rw [dif_pos ⟨rows, c, rfl, hc⟩]
  exact ⟨_, rfl⟩

/-! ## C35 -/

/-- C35: after a successful fit the model has the given origin and the returned coefficients, everything else unchanged, and its
potential has the least weighted squared misfit among all quadratic regional flows about whatever origin. Example: the fit after C37 below. -/
theorem C35_minimises (la : LinAlg) (hla : la.Correct) (m m' : Aquifer ℝ) (hK : 0 < m.conductivity) (hT : 0 < m.thickness) (obs : List Obs) (xo yo : ℝ) (ev : Fin 6 → ℝ)
    (cov : Matrix (Fin 6) (Fin 6) ℝ) (hu : m.Usable obs) (h : m.fitRegionalFlow la obs xo yo = (m', .ok (ev, cov))) :
    m'.xo = xo ∧ m'.yo = yo ∧ m'.coef = ev ∧ m'.wells = m.wells ∧ m'.base = m.base ∧ m'.conductivity = m.conductivity ∧
    m'.porosity = m.porosity ∧ m'.thickness = m.thickness ∧
    ∀ (c : Fin 6 → ℝ) (a b : ℝ),
      misfit m obs m'.potential ≤ misfit m obs ({ m with xo := a, yo := b, coef := c } : Aquifer ℝ).potential := by
  obtain ⟨rfl, h2, -, -⟩ := fit_ok hla hK hT hu h
  refine ⟨rfl, rfl, rfl, rfl, rfl, rfl, rfl, rfl, fun c a b => ?_⟩
  have key : ∀ (c : Fin 6 → ℝ) (a b : ℝ), ({ m with xo := a, yo := b, coef := c } : Aquifer ℝ).potential =
      fun x y => conic c (x - a) (y - b) + m.potentialWells x y := by
    intro c a b
    funext x y
    rw [potential_eq, potentialWells_eq]
  rw [key, key]
  have := h2 (shift c (xo - a) (yo - b))
  refine this.trans (le_of_eq ?_)
  congr 1
  funext x y
  rw [conic_shift, sub_add_sub_cancel, sub_add_sub_cancel]

/-! ## C37 -/

/-- C37: for usable observations and a converging `lstsq`, the fit raises (LinAlgError, nothing else) exactly if all observations lie on one conic. -/
theorem C37_degenerate (la : LinAlg) (hla : la.Correct) (hc : la.Converges) (m : Aquifer ℝ) (hK : 0 < m.conductivity)
    (hT : 0 < m.thickness) (obs : List Obs) (xo yo : ℝ) (hu : m.Usable obs) :
    (OnOneConic obs → (m.fitRegionalFlow la obs xo yo).2 = .error .linAlgError) ∧
    (¬ OnOneConic obs → ∃ r, (m.fitRegionalFlow la obs xo yo).2 = .ok r) := by
  have hd := rows_degenerate m hK hT xo yo obs hu
  rw [← normal_singular] at hd
  rw [fit_usable hK hT xo yo hu]
  obtain ⟨c, hl⟩ := hc (obs.map (m.rowOf xo yo))
  simp only [hl]
  cases hi : la.inv (fun i j => .fin (gram ((obs.map (m.rowOf xo yo)).map Prod.fst) i j)) with
  | error e =>
    obtain rfl := hla.inv_err _ _ hi
    exact ⟨fun _ => rfl, fun hn => absurd (hd.mp (hla.inv_singular _ _ hi)) hn⟩
  | ok B =>
    refine ⟨fun hon => absurd ⟨B, (hla.inv_ok _ _ hi).1⟩ (hd.mpr hon), fun _ => ⟨_, rfl⟩⟩

/-- C37: so it raises if there are fewer than six distinct locations. -/
theorem C37_few_locations (la : LinAlg) (hla : la.Correct) (hc : la.Converges) (m : Aquifer ℝ) (hK : 0 < m.conductivity) (hT : 0 < m.thickness) (obs : List Obs) (xo yo : ℝ)
    (hu : m.Usable obs) (locs : Finset (ℝ × ℝ)) (hcard : locs.card < 6) (hloc : ∀ o ∈ obs, (o.x, o.y) ∈ locs) :
    (m.fitRegionalFlow la obs xo yo).2 = .error .linAlgError :=
  (C37_degenerate la hla hc m hK hT obs xo yo hu).1 (conic_of_few obs locs hcard hloc)

/-- C37: and if all locations are on one line, however many there are. -/
theorem C37_collinear (la : LinAlg) (hla : la.Correct) (hc : la.Converges) (m : Aquifer ℝ) (hK : 0 < m.conductivity) (hT : 0 < m.thickness) (obs : List Obs) (xo yo : ℝ)
    (hu : m.Usable obs) (a b c : ℝ) (hab : a ≠ 0 ∨ b ≠ 0) (h : ∀ o ∈ obs, a * o.x + b * o.y + c = 0) :
    (m.fitRegionalFlow la obs xo yo).2 = .error .linAlgError :=
  (C37_degenerate la hla hc m hK hT obs xo yo hu).1 (conic_of_collinear obs a b c hab h)

/-- C37: only the set of locations matters, so duplicates (contrary to the docstring) neither cause nor cure the failure. -/
theorem C37_duplicates (la : LinAlg) (hla : la.Correct) (hc : la.Converges) (m : Aquifer ℝ) (hK : 0 < m.conductivity) (hT : 0 < m.thickness) (obs obs' : List Obs) (xo yo : ℝ)
    (hu : m.Usable obs) (hu' : m.Usable obs') (h : ∀ p : ℝ × ℝ, (∃ o ∈ obs, (o.x, o.y) = p) ↔ ∃ o ∈ obs', (o.x, o.y) = p) :
    (∃ r, (m.fitRegionalFlow la obs xo yo).2 = .ok r) ↔ ∃ r, (m.fitRegionalFlow la obs' xo yo).2 = .ok r := by
  have d := C37_degenerate la hla hc m hK hT obs xo yo hu
  have d' := C37_degenerate la hla hc m hK hT obs' xo yo hu'
  by_cases hon : OnOneConic obs
  · rw [d.1 hon, d'.1 ((conic_of_locations obs obs' h).mp hon)]
  · exact iff_of_true (d.2 hon) (d'.2 fun hn => hon ((conic_of_locations obs obs' h).mpr hn))

/-- five distinct locations, the last one given three times -/
example : plain.Usable (sixObs.take 5 ++ [⟨2, 0, 34, 1⟩, ⟨2, 0, 36, 2⟩]) ∧ ((sixObs.take 5).map fun o => (o.x, o.y)).toFinset.card < 6 ∧
    ∀ o ∈ sixObs.take 5 ++ [⟨2, 0, 34, 1⟩, ⟨2, 0, 36, 2⟩], (o.x, o.y) ∈ ((sixObs.take 5).map fun o => (o.x, o.y)).toFinset := by
  refine ⟨?_, (List.toFinset_card_le _).trans_lt (by simp [sixObs]), ?_⟩
  · intro o ho
    rcases List.mem_append.mp ho with h | h
    · exact sixObs_usable o (List.mem_of_mem_take h)
    · simp only [List.mem_cons, List.not_mem_nil, or_false] at h
      rcases h with rfl | rfl <;> exact ⟨by norm_num [plain], by norm_num, by simp [plain, Aquifer.OffWells]⟩
  · intro o ho
    simp only [sixObs, List.take_succ_cons, List.take_zero, List.cons_append, List.nil_append, List.mem_cons, List.not_mem_nil, or_false] at ho
    rcases ho with rfl | rfl | rfl | rfl | rfl | rfl | rfl <;> simp [sixObs]

/-- observations on the line x + y = 2 -/
example : plain.Usable (sixObs.map fun o => { o with y := 2 - o.x }) ∧ ∀ o ∈ sixObs.map fun o => { o with y := 2 - o.x }, 1 * o.x + 1 * o.y + (-2) = 0 := by
  constructor <;> intro o ho <;> obtain ⟨o', ho', rfl⟩ := List.mem_map.mp ho
  · exact ⟨(sixObs_usable o' ho').1, (sixObs_usable o' ho').2.1, by simp [plain, Aquifer.OffWells]⟩
  · simp

/-- the fit of six observations in general position, each given twice, succeeds, about any origin (so C35, C36, C39 and C40 are about something) -/
example (xo yo : ℝ) : ∃ r, (plain.fitRegionalFlow perfect (sixObs ++ sixObs) xo yo).2 = .ok r := by
  refine (C37_degenerate perfect perfect_correct perfect_converges plain (by norm_num [plain]) (by norm_num [plain]) _ xo yo ?_).2 ?_
  · intro o ho
    rcases List.mem_append.mp ho with h | h <;> exact sixObs_usable o h
  · rw [conic_of_locations _ sixObs (fun p => by simp)]
    exact sixObs_general

/-! ## C36 -/

/-- C36: if some regional flow (about the fit's origin) together with the wells reproduces all expected potentials, a successful fit returns its
coefficients. -/
theorem C36_recovers (la : LinAlg) (hla : la.Correct) (m m' : Aquifer ℝ) (hK : 0 < m.conductivity) (hT : 0 < m.thickness)
    (obs : List Obs) (xo yo : ℝ) (ev c : Fin 6 → ℝ) (cov : Matrix (Fin 6) (Fin 6) ℝ) (hu : m.Usable obs)
    (hexact : ∀ o ∈ obs, ({ m with xo := xo, yo := yo, coef := c } : Aquifer ℝ).potential o.x o.y =
      expectedPotential m.conductivity m.thickness (o.z - m.base) o.std)
    (h : m.fitRegionalFlow la obs xo yo = (m', .ok (ev, cov))) : ev = c := by
  have hn := fit_ok_nondegenerate hla hK hT hu h
  obtain ⟨-, h2, -, -⟩ := fit_ok hla hK hT hu h
  have key : ∀ o ∈ obs, conic c (o.x - xo) (o.y - yo) + m.potentialWells o.x o.y =
      expectedPotential m.conductivity m.thickness (o.z - m.base) o.std := by
    intro o ho
    rw [← hexact o ho, potential_eq, potentialWells_eq]
  have z : misfit m obs (fun x y => conic c (x - xo) (y - yo) + m.potentialWells x y) = 0 := by
    refine (sum_sq_eq_zero obs _).mpr fun o ho => ?_
    show (conic c (o.x - xo) (o.y - yo) + m.potentialWells o.x o.y - _) / _ = 0
    rw [key o ho, sub_self, zero_div]
  have z0 : misfit m obs (fun x y => conic ev (x - xo) (y - yo) + m.potentialWells x y) = 0 :=
    le_antisymm ((h2 c).trans z.le) (misfit_nonneg m obs _)
  have z' := (sum_sq_eq_zero obs _).mp z0
  have agree : ∀ o ∈ obs, conic ev (o.x - xo) (o.y - yo) = conic c (o.x - xo) (o.y - yo) := by
    intro o ho
    have := z' o ho
    rw [div_eq_zero_iff] at this
    rcases this with h | h
    · have := key o ho; linarith
    · exact absurd h (potentialStd_ne m hK hT o (hu o ho).1 (hu o ho).2.1)
  have := conic_eq_of_agree hn agree
  refine conic_injective fun u v => ?_
  have := this (u + xo) (v + yo)
  simpa using this

/-- the expected potential of a flat head 30 over thickness 20 is reproduced by the constant flow 4000 -/
example : ∃ obs : List Obs, plain.Usable obs ∧ ¬ OnOneConic obs ∧ ∀ o ∈ obs,
    ({ plain with xo := 3, yo := 4, coef := ![0, 0, 0, 0, 0, 4000] } : Aquifer ℝ).potential o.x o.y =
      expectedPotential plain.conductivity plain.thickness (o.z - plain.base) o.std := by
  refine ⟨sixObs.map fun o => { o with z := 30 }, ?_, ?_, ?_⟩
  · intro o ho
    obtain ⟨o', ho', rfl⟩ := List.mem_map.mp ho
    exact ⟨by norm_num [plain], (sixObs_usable o' ho').2.1, (sixObs_usable o' ho').2.2⟩
  · rw [conic_of_locations _ sixObs (fun p => by simp [sixObs])]
    exact sixObs_general
  · intro o ho
    obtain ⟨o', -, rfl⟩ := List.mem_map.mp ho
    rw [potential_eq]
    simp [conic, plain, expectedPotential, potentialOfHead]
    norm_num

/-! ## C38 -/

/-- C38: RangeError exactly if some observation is not above the base (with positive standard deviations, or at least one well: otherwise a division by zero comes first, see C86). -/
theorem C38_range (la : LinAlg) (hla : la.Correct) (m : Aquifer ℝ) (hT : 0 < m.thickness) (obs : List Obs) (xo yo : ℝ)
    (hz : m.wells ≠ [] ∨ (0 < m.conductivity ∧ ∀ o ∈ obs, 0 < o.std)) :
    (m.fitRegionalFlow la obs xo yo).2 = .error .rangeError ↔ ∃ o ∈ obs, o.z ≤ m.base := by
  constructor
  · intro h
    by_contra hn
    push Not at hn
    obtain ⟨rows, hrows⟩ := constructFit_returns m xo yo obs fun o ho => ⟨hn o ho, hz.imp id fun h => potentialStd_ne m h.1 hT o (hn o ho) (h.2 o ho)⟩
    unfold fitRegionalFlow at h
    rw [hrows] at h
    simp only [computeFit] at h
    cases hl : la.lstsq rows with
    | error e =>
      simp only [hl, Except.error.injEq] at h
      rw [hla.lstsq_err _ _ hl] at h
      exact absurd h (by decide)
    | ok c =>
      cases hi : la.inv (normalMatrix (rows.map Prod.fst)) with
      | error e =>
        simp only [hl, hi, Except.error.injEq] at h
        rw [hla.inv_err _ _ hi] at h
        exact absurd h (by decide)
      | ok B => simp only [hl, hi, reduceCtorEq] at h
  · intro h
    unfold fitRegionalFlow
    rw [constructFit_err m hT xo yo obs hz h]

/-- C38: a fit that raises, for whatever reason, leaves the model unchanged. -/
theorem C38_unchanged (la : LinAlg) (m : Aquifer ℝ) (obs : List Obs) (xo yo : ℝ) (e : PyErr)
    (h : (m.fitRegionalFlow la obs xo yo).2 = .error e) : (m.fitRegionalFlow la obs xo yo).1 = m :=
  fit_error (e := e) (Prod.ext rfl h)

example : ∃ o ∈ [(⟨0, 0, 30, 1⟩ : Obs), ⟨1, 0, -3, 1⟩], o.z ≤ plain.base := ⟨⟨1, 0, -3, 1⟩, by simp, by norm_num [plain]⟩

/-! ## C39 -/

/-- C39: fits about two origins give the same potential at every point. Example: the fit after C37 above. -/
theorem C39_origin (la : LinAlg) (hla : la.Correct) (m m₁ m₂ : Aquifer ℝ) (hK : 0 < m.conductivity) (hT : 0 < m.thickness)
    (obs : List Obs) (hu : m.Usable obs) (x₁ y₁ x₂ y₂ : ℝ) (r₁ r₂ : (Fin 6 → ℝ) × Matrix (Fin 6) (Fin 6) ℝ)
    (h₁ : m.fitRegionalFlow la obs x₁ y₁ = (m₁, .ok r₁)) (h₂ : m.fitRegionalFlow la obs x₂ y₂ = (m₂, .ok r₂)) (x y : ℝ) :
    m₁.potential x y = m₂.potential x y := by
  obtain ⟨ev₁, cov₁⟩ := r₁
  obtain ⟨ev₂, cov₂⟩ := r₂
  have hn := fit_ok_nondegenerate hla hK hT hu h₁
  obtain ⟨rfl, a, -, -⟩ := fit_ok hla hK hT hu h₁
  obtain ⟨rfl, b, -, -⟩ := fit_ok hla hK hT hu h₂
  obtain ⟨e₁, he₁⟩ := conic_average ev₁ ev₂ x₁ y₁ x₂ y₂
  obtain ⟨e₂, he₂⟩ := conic_average ev₂ ev₁ x₂ y₂ x₁ y₁
  have agree := misfit_unique m hK hT obs hu (fun x y => conic ev₁ (x - x₁) (y - y₁) + m.potentialWells x y)
    (fun x y => conic ev₂ (x - x₂) (y - y₂) + m.potentialWells x y)
    (by
      refine (a e₁).trans (le_of_eq ?_)
      congr 1
      funext x y
      rw [he₁]; ring)
    (by
      refine (b e₂).trans (le_of_eq ?_)
      congr 1
      funext x y
      rw [he₂]; ring)
  have := conic_eq_of_agree hn (c := ev₁) (d := ev₂) (a := x₁) (b := y₁) (a' := x₂) (b' := y₂) (fun o ho => by
    have := agree o ho
    simpa using this)
  rw [potential_eq, potential_eq]
  simp only
  rw [this x y]

/-! ## C40 -/

/-- C40: the covariance matrix is symmetric positive definite, and the two-sided inverse of the weighted normal matrix. Example: the fit after C37 above. -/
theorem C40_covariance (la : LinAlg) (hla : la.Correct) (m m' : Aquifer ℝ) (hK : 0 < m.conductivity) (hT : 0 < m.thickness) (obs : List Obs)
    (xo yo : ℝ) (ev : Fin 6 → ℝ) (cov : Matrix (Fin 6) (Fin 6) ℝ) (hu : m.Usable obs)
    (h : m.fitRegionalFlow la obs xo yo = (m', .ok (ev, cov))) :
    cov.PosDef ∧ ∃ N : Matrix (Fin 6) (Fin 6) ℝ, cov * N = 1 ∧ N * cov = 1 ∧
      ∀ i j, N i j = (obs.map fun o =>
        let φ : Fin 6 → ℝ := ![(o.x - xo) ^ 2, (o.y - yo) ^ 2, (o.x - xo) * (o.y - yo), o.x - xo, o.y - yo, 1]
        φ i * φ j / (potentialStd m.conductivity m.thickness (o.z - m.base) o.std) ^ 2).sum := by
  obtain ⟨rfl, -, h3, h4⟩ := fit_ok hla hK hT hu h
  set N := gram ((obs.map (m.rowOf xo yo)).map Prod.fst) with hN
  have hpd : N.PosDef := by
    refine Matrix.PosDef.of_dotProduct_mulVec_pos ?_ fun c hc => ?_
    · rw [Matrix.IsHermitian, Matrix.conjTranspose_eq_transpose_of_trivial]; exact normal_symm _
    · simp only [star_trivial]
      rw [normal_quad]
      refine lt_of_le_of_ne (sum_sq_nonneg _ _) fun h0 => hc ?_
      have hk := (normal_kernel ((obs.map (m.rowOf xo yo)).map Prod.fst) c).mpr ((sum_sq_eq_zero _ _).mp h0.symm)
      calc c = (cov * N) *ᵥ c := by rw [h4, Matrix.one_mulVec]
        _ = 0 := by rw [← Matrix.mulVec_mulVec, hk, Matrix.mulVec_zero]
  have hinv : cov = N⁻¹ := (Matrix.inv_eq_right_inv h3).symm
  refine ⟨by rw [hinv]; exact hpd.inv, N, h4, h3, fun i j => ?_⟩
  rw [hN]
  unfold gram
  rw [List.map_map, List.map_map]
  congr 1
  refine List.map_congr_left fun o _ => ?_
  simp only [Function.comp, rowOf, mono]
  ring

/-- C40: in the confined case, scaling all standard deviations by `s > 0` scales the covariance by `s²` and keeps the
coefficients. Example: the fit after C37 above. -/
theorem C40_scaling (la : LinAlg) (hla : la.Correct) (m m₁ m₂ : Aquifer ℝ) (hK : 0 < m.conductivity) (hT : 0 < m.thickness)
    (obs : List Obs) (hu : m.Usable obs) (hconf : ∀ o ∈ obs, m.thickness ≤ o.z - m.base) (s : ℝ) (hs : 0 < s) (xo yo : ℝ)
    (ev₁ ev₂ : Fin 6 → ℝ) (cov₁ cov₂ : Matrix (Fin 6) (Fin 6) ℝ)
    (h₁ : m.fitRegionalFlow la obs xo yo = (m₁, .ok (ev₁, cov₁)))
    (h₂ : m.fitRegionalFlow la (obs.map fun o => { o with std := s * o.std }) xo yo = (m₂, .ok (ev₂, cov₂))) :
    ev₂ = ev₁ ∧ cov₂ = (s ^ 2) • cov₁ := by
  have hn := fit_ok_nondegenerate hla hK hT hu h₁
  obtain ⟨-, a, a1, a2⟩ := fit_ok hla hK hT hu h₁
  obtain ⟨-, b, b1, b2⟩ := fit_ok hla hK hT (fun o ho => by
    obtain ⟨o', ho', rfl⟩ := List.mem_map.mp ho
    exact ⟨(hu o' ho').1, mul_pos hs (hu o' ho').2.1, (hu o' ho').2.2⟩) h₂
  -- the misfits are proportional
  have scale : ∀ Φ, misfit m (obs.map fun o => { o with std := s * o.std }) Φ = (1 / s ^ 2) * misfit m obs Φ := by
    intro Φ
    unfold misfit
    rw [List.map_map]
    clear hn a a1 a2 b b1 b2 h₁ h₂
    induction obs with
    | nil => simp
    | cons o os ih =>
      simp only [List.map_cons, List.sum_cons, Function.comp_def]
      have ih' := ih (fun p hp => hu p (by simp [hp])) (fun p hp => hconf p (by simp [hp]))
      simp only [Function.comp_def] at ih'
      rw [ih', mul_add]
      congr 1
      have hc := hconf o (by simp)
      simp only [expectedPotential, potentialStd, if_neg (not_lt.mpr hc), add_zero]
      rw [show m.conductivity * min (o.z - m.base) m.thickness * (s * o.std) = s * (m.conductivity * min (o.z - m.base) m.thickness * o.std) by ring,
        div_mul_eq_div_div_swap, div_pow _ s]
      ring
  have hs2 : 0 < 1 / s ^ 2 := by positivity
  have b' : ∀ c', misfit m obs (fun x y => conic ev₂ (x - xo) (y - yo) + m.potentialWells x y) ≤
      misfit m obs (fun x y => conic c' (x - xo) (y - yo) + m.potentialWells x y) := by
    intro c'
    have := b c'
    rw [scale, scale] at this
    exact le_of_mul_le_mul_left this hs2
  obtain ⟨e₁, he₁⟩ := conic_average ev₁ ev₂ xo yo xo yo
  have agree := misfit_unique m hK hT obs hu (fun x y => conic ev₁ (x - xo) (y - yo) + m.potentialWells x y)
    (fun x y => conic ev₂ (x - xo) (y - yo) + m.potentialWells x y)
    (by
      refine (a e₁).trans (le_of_eq ?_)
      congr 1; funext x y; rw [he₁]; ring)
    (by
      refine (b' e₁).trans (le_of_eq ?_)
      congr 1; funext x y; rw [he₁]; ring)
  have hev : ev₁ = ev₂ := by
    have := conic_eq_of_agree hn (c := ev₁) (d := ev₂) (a := xo) (b := yo) (a' := xo) (b' := yo) (fun o ho => by
      have := agree o ho; simpa using this)
    refine conic_injective fun u v => ?_
    have := this (u + xo) (v + yo)
    simpa using this
  refine ⟨hev.symm, ?_⟩
  -- the normal matrices are proportional
  have hN : gram (((obs.map fun o => { o with std := s * o.std }).map (m.rowOf xo yo)).map Prod.fst) =
      (1 / s ^ 2) • gram ((obs.map (m.rowOf xo yo)).map Prod.fst) := by
    ext i j
    simp only [gram, Matrix.smul_apply, smul_eq_mul, List.map_map]
    clear hn a a1 a2 b b1 b2 h₁ h₂ agree he₁ scale b' hu hconf
    induction obs with
    | nil => simp
    | cons o os ih =>
      simp only [List.map_cons, List.sum_cons]
      rw [ih, mul_add]
      congr 1
      simp only [Function.comp, rowOf, potentialStd]
      rw [show m.conductivity * min (o.z - m.base) m.thickness * (s * o.std) = s * (m.conductivity * min (o.z - m.base) m.thickness * o.std) by ring,
        div_mul_eq_div_div_swap, div_mul_eq_div_div_swap]
      ring
  set N := gram ((obs.map (m.rowOf xo yo)).map Prod.fst)
  rw [hN] at b2
  have : (cov₂ * ((1 / s ^ 2) • N)) * (s ^ 2 • cov₁) = cov₂ := by
    rw [Matrix.mul_assoc, Matrix.smul_mul, Matrix.mul_smul N, a1, smul_smul]
    have : 1 / s ^ 2 * s ^ 2 = 1 := by field_simp
    rw [this, one_smul, Matrix.mul_one]
  rw [b2, Matrix.one_mul] at this
  exact this.symm

end Oneka
