import Mathlib.MeasureTheory.Integral.Pi
import Mathlib.Probability.Independence.Basic
import Verif.Props.Estimator

/-!
# Measurements that meet the hypotheses of C106 and C107

Each level is read too high or too low by one standard deviation, with equal chances and independently.
-/

namespace Oneka
open MeasureTheory ProbabilityTheory Matrix Aquifer

/-- a fair coin -/
noncomputable def coin : Measure Bool := (2⁻¹ : ENNReal) • Measure.dirac true + (2⁻¹ : ENNReal) • Measure.dirac false

instance : IsProbabilityMeasure coin := ⟨by simp [coin, ENNReal.inv_two_add_inv_two]⟩

/-- too high or too low -/
def sign (b : Bool) : ℝ := if b then 1 else -1

/-- the levels as read -/
def readings {n : ℕ} (site : Fin n → Site) (level : Fin n → ℝ) (i : Fin n) (ω : Fin n → Bool) : ℝ := level i + sign (ω i) * (site i).std

theorem coin_integral (f : Bool → ℝ) : ∫ b, f b ∂coin = (f true + f false) / 2 := by
  unfold coin
  haveI : ∀ b : Bool, IsFiniteMeasure ((2⁻¹ : ENNReal) • Measure.dirac b) := fun b => ⟨by simp⟩
  rw [integral_add_measure (Integrable.of_finite) (Integrable.of_finite), integral_smul_measure, integral_smul_measure, integral_dirac, integral_dirac]
  simp
  ring

theorem readings_measure {n : ℕ} (site : Fin n → Site) (level : Fin n → ℝ) : Measures (Measure.pi fun _ : Fin n => coin) site level (readings site level) := by
  have hlp : ∀ i, MemLp (readings site level i) 2 (Measure.pi fun _ : Fin n => coin) := fun i => MemLp.of_discrete
  have hmean : ∀ i, ∫ ω, readings site level i ω ∂(Measure.pi fun _ : Fin n => coin) = level i := by
    intro i
    have := integral_comp_eval (μ := fun _ : Fin n => coin) (i := i) (f := fun b => level i + sign b * (site i).std) (measurable_of_finite _).aestronglyMeasurable
    unfold readings
    rw [this, coin_integral]
    simp [sign]
    ring
  refine ⟨hlp, hmean, fun i j => ?_⟩
  split_ifs with h
  · subst h
    rw [covariance_self (hlp i).aemeasurable, variance_eq_integral (hlp i).aemeasurable, hmean]
    have := integral_comp_eval (μ := fun _ : Fin n => coin) (i := i) (f := fun b => (level i + sign b * (site i).std - level i) ^ 2) (measurable_of_finite _).aestronglyMeasurable
    unfold readings
    rw [this, coin_integral]
    simp [sign]
  · have hi := iIndepFun_pi (μ := fun _ : Fin n => coin) (X := fun i b => level i + sign b * (site i).std) fun i => (measurable_of_finite _).aemeasurable
    exact (hi.indepFun h).covariance_eq_zero (hlp i) (hlp j)

/-- six sites in general position -/
noncomputable def sixSites : Fin 6 → Site := ![⟨3, 0, 1⟩, ⟨1, 0, 1⟩, ⟨0, 1, 2⟩, ⟨1, 1, 1⟩, ⟨2, 0, 1⟩, ⟨0, 2, 0.5⟩]

/-- seven sites -/
noncomputable def sevenSites : Fin 7 → Site := ![⟨3, 0, 1⟩, ⟨1, 0, 1⟩, ⟨0, 1, 2⟩, ⟨1, 1, 1⟩, ⟨2, 0, 1⟩, ⟨0, 2, 0.5⟩, ⟨2, 2, 1⟩]

theorem sixSites_suitable : plain.Suitable sixSites := by
  refine ⟨fun i => by fin_cases i <;> norm_num [sixSites], fun i w hw => by simp [plain] at hw, ?_⟩
  rintro ⟨c, hc, h⟩
  apply hc
  have h0 := h 0
  have h1 := h 1
  have h2 := h 2
  have h3 := h 3
  have h4 := h 4
  have h5 := h 5
  simp [conic, sixSites] at h0 h1 h2 h3 h4 h5
  funext i
  fin_cases i <;> simp <;> linarith

theorem sevenSites_suitable : plain.Suitable sevenSites := by
  refine ⟨fun i => by fin_cases i <;> norm_num [sevenSites], fun i w hw => by simp [plain] at hw, ?_⟩
  rintro ⟨c, hc, h⟩
  apply hc
  have h0 := h 0
  have h1 := h 1
  have h2 := h 2
  have h3 := h 3
  have h4 := h 4
  have h5 := h 5
  simp [conic, sevenSites] at h0 h1 h2 h3 h4 h5
  funext i
  fin_cases i <;> simp <;> linarith

/-- a flow to the west under pressure, seen from seven sites -/
theorem west_levels : ∃ level : Fin 7 → ℝ, plain.HasLevels 0 0 ![0, 0, 0, 100, 0, 6000] sevenSites level ∧ ∀ i, 40 ≤ level i := by
  have hw : ∀ x y, plain.potentialWells x y = 0 := fun x y => by rw [potentialWells_eq]; simp [plain]
  have hp : ∀ i, 6000 ≤ conic ![0, 0, 0, 100, 0, 6000] ((sevenSites i).x - 0) ((sevenSites i).y - 0) := by
    intro i
    have e : conic ![0, 0, 0, 100, 0, 6000] ((sevenSites i).x - 0) ((sevenSites i).y - 0) = 100 * (sevenSites i).x + 6000 := by
      have e3 : (![0, 0, 0, 100, 0, 6000] : Fin 6 → ℝ) 3 = 100 := rfl
      have e4 : (![0, 0, 0, 100, 0, 6000] : Fin 6 → ℝ) 4 = 0 := rfl
      have e5 : (![0, 0, 0, 100, 0, 6000] : Fin 6 → ℝ) 5 = 6000 := rfl
      have e2 : (![0, 0, 0, 100, 0, 6000] : Fin 6 → ℝ) 2 = 0 := rfl
      have e1 : (![0, 0, 0, 100, 0, 6000] : Fin 6 → ℝ) 1 = 0 := rfl
      have e0 : (![0, 0, 0, 100, 0, 6000] : Fin 6 → ℝ) 0 = 0 := rfl
      unfold conic
      rw [e0, e1, e2, e3, e4, e5]
      ring
    have hx : 0 ≤ (sevenSites i).x := by fin_cases i <;> norm_num [sevenSites]
    rw [e]
    linarith
  obtain ⟨l, h1, -, h3⟩ := levels_exist (m := plain) (site := sevenSites) (xo := 0) (yo := 0) (by norm_num [plain]) (by norm_num [plain]) ![0, 0, 0, 100, 0, 6000] (fun i => by
    rw [hw]
    have := hp i
    norm_num [plain] at this ⊢
    linarith)
  refine ⟨l, h1, fun i => ?_⟩
  rw [h3, hw]
  have := hp i
  norm_num [plain] at this ⊢
  linarith

theorem sevenSites_std (i : Fin 7) : (sevenSites i).std ≤ 2 := by
  fin_cases i <;> norm_num [sevenSites]

theorem sixSites_std (i : Fin 6) : (sixSites i).std ≤ 2 := by
  fin_cases i <;> norm_num [sixSites]

theorem reading_near {n : ℕ} {site : Fin n → Site} (level : Fin n → ℝ) {i : Fin n} (h0 : 0 < (site i).std) (h2 : (site i).std ≤ 2) (ω : Fin n → Bool) :
    |readings site level i ω - level i| ≤ 2 := by
  unfold readings sign
  split_ifs <;> rw [abs_le] <;> constructor <;> linarith

/-- C106 applies to seven confined levels … -/
example : ∃ level : Fin 7 → ℝ, plain.HasLevels 0 0 ![0, 0, 0, 100, 0, 6000] sevenSites level ∧
    ∃ (C : (Fin 7 → Bool) → Fin 6 → ℝ) (V : Matrix (Fin 6) (Fin 6) ℝ),
      (∀ᵐ ω ∂(Measure.pi fun _ : Fin 7 => coin), plain.fitRegionalFlow perfect (observed sevenSites fun i => readings sevenSites level i ω) 0 0 =
        ({ plain with xo := 0, yo := 0, coef := C ω }, .ok (C ω, V))) ∧
      ∫ ω, C ω 3 ∂(Measure.pi fun _ : Fin 7 => coin) = 100 := by
  obtain ⟨level, h1, h2⟩ := west_levels
  obtain ⟨C, V, hf, -, hm, -, -⟩ := C106_confined_partial perfect perfect_correct perfect_converges plain (by norm_num [plain]) (by norm_num [plain]) 0 0 sevenSites sevenSites_suitable _ level h1
    (readings sevenSites level) (readings_measure _ _) (Filter.Eventually.of_forall fun ω i => by
      have := abs_le.mp (reading_near level (sevenSites_suitable.std_pos i) (sevenSites_std i) ω)
      have := h2 i
      norm_num [plain]
      linarith)
  exact ⟨level, h1, C, V, hf, by rw [hm]; rfl⟩

/-- … and an estimate that is right for every confined flow exists: the coefficients of the fit are one, so the comparison is not empty -/
example : ∃ (α : Fin 7 → ℝ) (b : ℝ) (φ : Fin 6 → ℝ), φ ≠ 0 ∧ ∀ c' level', plain.HasLevels 0 0 c' sevenSites level' → (∀ i, plain.thickness ≤ level' i - plain.base) →
    ∑ i, α i * level' i + b = φ ⬝ᵥ c' := by
  have hK : (0:ℝ) < plain.conductivity := by norm_num [plain]
  have hT : (0:ℝ) < plain.thickness := by norm_num [plain]
  refine ⟨fun i => plain.smoother 0 0 sevenSites 3 i / (sevenSites i).std, ∑ i, plain.smoother 0 0 sevenSites 3 i * plain.offset sevenSites i, Pi.single 3 1, fun e => by simpa using congrFun e 3,
    fun c' level' h1 h2 => ?_⟩
  have e : plain.smoother 0 0 sevenSites *ᵥ (fun i => level' i / (sevenSites i).std + plain.offset sevenSites i) = c' := by
    rw [level_confined hK hT sevenSites_suitable h1 h2, Matrix.mulVec_mulVec, smoother_design hK hT sevenSites_suitable, Matrix.one_mulVec]
  have e3 : ∑ i, plain.smoother 0 0 sevenSites 3 i * (level' i / (sevenSites i).std + plain.offset sevenSites i) = c' 3 := congrFun e 3
  rw [← Finset.sum_add_distrib, single_one_dotProduct, ← e3]
  exact Finset.sum_congr rfl fun i _ => by ring

/-- C106 fails for six unconfined levels: still water at level 10, of which the fit finds too much -/
example : ∃ (C : (Fin 6 → Bool) → Fin 6 → ℝ) (V : (Fin 6 → Bool) → Matrix (Fin 6) (Fin 6) ℝ),
    (∀ᵐ ω ∂(Measure.pi fun _ : Fin 6 => coin), plain.fitRegionalFlow perfect (observed sixSites fun i => readings sixSites (fun _ => 10) i ω) 0 0 =
      ({ plain with xo := 0, yo := 0, coef := C ω }, .ok (C ω, V ω))) ∧
    ∫ ω, ({ plain with xo := 0, yo := 0, coef := C ω } : Aquifer ℝ).potential 0 1 ∂(Measure.pi fun _ : Fin 6 => coin) = 540 := by
  have hK : (0:ℝ) < plain.conductivity := by norm_num [plain]
  have hT : (0:ℝ) < plain.thickness := by norm_num [plain]
  have hp : ∀ x y, ({ plain with xo := 0, yo := 0, coef := ![0, 0, 0, 0, 0, 500] } : Aquifer ℝ).potential x y = 500 := by
    intro x y
    rw [potential_eq]
    simp [conic, plain]
  have hl : plain.HasLevels 0 0 ![0, 0, 0, 0, 0, 500] sixSites fun _ => 10 := by
    intro i
    obtain ⟨h, h1, -, -, hu⟩ := C32_inverse ({ plain with xo := 0, yo := 0, coef := ![0, 0, 0, 0, 0, 500] } : Aquifer ℝ) hK hT (sixSites i).x (sixSites i).y (by rw [hp]; norm_num)
    rw [h1, ← hu (10 - plain.base) (by norm_num [plain]) (by rw [hp]; norm_num [plain, potentialOfHead])]
  obtain ⟨C, V, h1, h2⟩ := C106_fails_unconfined perfect perfect_correct perfect_converges plain hK hT 0 0 sixSites sixSites_suitable _ _ hl
    (readings sixSites fun _ => 10) (readings_measure _ _) (Filter.Eventually.of_forall fun ω i => by
      have := abs_le.mp (reading_near (fun _ => 10) (sixSites_suitable.std_pos i) (sixSites_std i) ω)
      norm_num [plain]
      constructor <;> linarith)
  refine ⟨C, V, h1, ?_⟩
  have := h2 2
  rw [hp, show sixSites 2 = ⟨0, 1, 2⟩ from rfl] at this
  rw [this]
  norm_num [plain]

/-- C107: seven levels, the first raised from 30 to 31 -/
example : ∃ m₁ r₁ m₂ r₂, plain.fitRegionalFlow perfect (observed sevenSites fun _ => 30) 0 0 = (m₁, .ok r₁) ∧
    plain.fitRegionalFlow perfect (observed sevenSites (Function.update (fun _ => 30) 0 31)) 0 0 = (m₂, .ok r₂) ∧
    m₁.potential (sevenSites 0).x (sevenSites 0).y < m₂.potential (sevenSites 0).x (sevenSites 0).y :=
  C107_confined_partial perfect perfect_correct perfect_converges plain (by norm_num [plain]) (by norm_num [plain]) 0 0 sevenSites sevenSites_suitable _
    (fun i => by norm_num [plain]) 0 31 (by norm_num)

/-- C107 fails: the level at the third site, measured with standard deviation 2, is raised from 19.99 to 20 -/
example : ∃ m₁ r₁ m₂ r₂, plain.fitRegionalFlow perfect (observed sixSites fun _ => 19.99) 0 0 = (m₁, .ok r₁) ∧
    plain.fitRegionalFlow perfect (observed sixSites (Function.update (fun _ => 19.99) 2 (plain.base + plain.thickness))) 0 0 = (m₂, .ok r₂) ∧ (19.99 : ℝ) < plain.base + plain.thickness ∧
    m₂.potential (sixSites 2).x (sixSites 2).y < m₁.potential (sixSites 2).x (sixSites 2).y :=
  C107_fails_at_thickness perfect perfect_correct perfect_converges plain (by norm_num [plain]) (by norm_num [plain]) 0 0 sixSites sixSites_suitable _
    (fun i => by norm_num [plain]) 2 (by norm_num [plain]) (by rw [show sixSites 2 = ⟨0, 1, 2⟩ from rfl]; norm_num [plain])

end Oneka
