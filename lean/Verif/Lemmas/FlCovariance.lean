import Verif.Spec.FlCovariance
import Verif.Lemmas.FlFit

/-!
# Lemmas about the covariance matrix in floating-point arithmetic
-/

namespace Oneka
open Matrix Aquifer

/-- the sums of the absolute values of products of regressors -/
def absGram {α : Type} (l : List α) (R : α → Fin 6 → ℝ) (i k : Fin 6) : ℝ := (l.map fun o => |R o i| * |R o k|).sum

theorem absGram_nonneg {α : Type} (l : List α) (R : α → Fin 6 → ℝ) (i k : Fin 6) : 0 ≤ absGram l R i k :=
  List.sum_nonneg fun t ht => by
    obtain ⟨o, -, rfl⟩ := List.mem_map.mp ht
    positivity

theorem abs_gram_le {α : Type} (l : List α) (R : α → Fin 6 → ℝ) (i k : Fin 6) : |gram (l.map R) i k| ≤ absGram l R i k := by
  unfold Aquifer.gram absGram
  rw [List.map_map]
  induction l with
  | nil => simp
  | cons o l ih =>
    simp only [List.map_cons, List.sum_cons, Function.comp_def] at ih ⊢
    refine (abs_add_le _ _).trans ?_
    rw [abs_mul]
    linarith

/-- sums over a list and over indices -/
theorem absGram_form {α : Type} (l : List α) (R : α → Fin 6 → ℝ) (a b : Fin 6 → ℝ) :
    ∑ i, |a i| * ∑ k, absGram l R i k * |b k| = (l.map fun o => (∑ i, |R o i| * |a i|) * ∑ k, |R o k| * |b k|).sum := by
  induction l with
  | nil => simp [absGram]
  | cons o l ih =>
    have : ∀ i k, absGram (o :: l) R i k = |R o i| * |R o k| + absGram l R i k := fun i k => by simp [absGram]
    simp only [this, List.map_cons, List.sum_cons, add_mul, Finset.sum_add_distrib, mul_add]
    rw [ih]
    congr 1
    rw [Finset.sum_mul]
    refine Finset.sum_congr rfl fun i _ => ?_
    rw [Finset.mul_sum, Finset.mul_sum]
    exact Finset.sum_congr rfl fun k _ => by ring

theorem form_bound {α : Type} (l : List α) (R : α → Fin 6 → ℝ) {ω : ℝ} (hω : 0 ≤ ω) (a b w : Fin 6 → ℝ) (h : ∀ i, |w i| ≤ ω * ∑ k, absGram l R i k * |b k|) :
    |a ⬝ᵥ w| ≤ ω * (‖vec l fun o => ∑ i, |R o i| * |a i|‖ * ‖vec l fun o => ∑ i, |R o i| * |b i|‖) := by
  have h1 : |a ⬝ᵥ w| ≤ ω * ∑ i, |a i| * ∑ k, absGram l R i k * |b k| := by
    refine (Finset.abs_sum_le_sum_abs _ _).trans ?_
    rw [Finset.mul_sum]
    refine Finset.sum_le_sum fun i _ => ?_
    rw [abs_mul]
    have := mul_le_mul_of_nonneg_left (h i) (abs_nonneg (a i))
    linarith
  rw [absGram_form, ← vec_inner] at h1
  exact h1.trans (mul_le_mul_of_nonneg_left (real_inner_le_norm _ _) hω)

theorem gram_norm {α : Type} (l : List α) (R : α → Fin 6 → ℝ) (a : Fin 6 → ℝ) : a ⬝ᵥ (gram (l.map R) *ᵥ a) = ‖vec l fun o => ∑ i, R o i * a i‖ ^ 2 := by
  rw [normal_quad, List.map_map, vec_norm_sq]
  rfl

theorem gram_triangle {α : Type} (l : List α) (R : α → Fin 6 → ℝ) (a b : Fin 6 → ℝ) :
    ‖vec l fun o => ∑ i, R o i * (a + b) i‖ ≤ ‖vec l fun o => ∑ i, R o i * a i‖ + ‖vec l fun o => ∑ i, R o i * b i‖ := by
  refine le_trans (le_of_eq ?_) (norm_add_le _ _)
  rw [vec_add]
  congr 1
  congr 1
  funext o
  rw [← Finset.sum_add_distrib]
  exact Finset.sum_congr rfl fun i _ => by simp [mul_add]

/-- a column of an approximate inverse -/
theorem column_near {α : Type} (l : List α) (R : α → Fin 6 → ℝ) {V : Matrix (Fin 6) (Fin 6) ℝ} (hV : gram (l.map R) * V = 1) {ρ : ℝ} (hρ0 : 0 ≤ ρ) (hρ : ρ < 1) (j : Fin 6) (v : Fin 6 → ℝ)
    (h : ∀ a : Fin 6 → ℝ, |a ⬝ᵥ (gram (l.map R) *ᵥ v - Pi.single j 1)| ≤ ρ * (‖vec l fun o => ∑ i, R o i * a i‖ * ‖vec l fun o => ∑ i, R o i * v i‖)) :
    (v - fun i => V i j) ⬝ᵥ (gram (l.map R) *ᵥ (v - fun i => V i j)) ≤ (ρ / (1 - ρ) * √(V j j)) ^ 2 := by
  set c : Fin 6 → ℝ := fun i => V i j with hc
  set d := v - c with hd
  have hGc : gram (l.map R) *ᵥ c = Pi.single j 1 := by
    have : c = V *ᵥ Pi.single j 1 := by rw [Matrix.mulVec_single_one]; rfl
    rw [this, Matrix.mulVec_mulVec, hV, Matrix.one_mulVec]
  have hdd : d ⬝ᵥ (gram (l.map R) *ᵥ d) = d ⬝ᵥ (gram (l.map R) *ᵥ v - Pi.single j 1) := by
    rw [← hGc, ← Matrix.mulVec_sub]
  have hcn : ‖vec l fun o => ∑ i, R o i * c i‖ = √(V j j) := by
    have : c ⬝ᵥ (gram (l.map R) *ᵥ c) = V j j := by rw [hGc, dotProduct_single, mul_one]
    rw [gram_norm] at this
    rw [← this, Real.sqrt_sq (norm_nonneg _)]
  have h1 := (le_abs_self _).trans (h d)
  rw [← hdd, gram_norm] at h1
  rw [gram_norm]
  have h2 := gram_triangle l R d c
  rw [show d + c = v by rw [hd]; abel, hcn] at h2
  set n := ‖vec l fun o => ∑ i, R o i * d i‖ with hn
  have hn0 : 0 ≤ n := norm_nonneg _
  have h3 : n ≤ ρ * ‖vec l fun o => ∑ i, R o i * v i‖ := by
    rcases hn0.eq_or_lt with h0 | h0
    · rw [← h0]; exact mul_nonneg hρ0 (norm_nonneg _)
    · by_contra hlt
      push Not at hlt
      nlinarith
  have h4 := mul_le_mul_of_nonneg_left h2 hρ0
  refine pow_le_pow_left₀ hn0 ?_ 2
  rw [div_mul_eq_mul_div, le_div_iff₀ (by linarith)]
  linarith

/-- entries that are near give variances and correlations that are near -/
theorem correlation_near {V V' : Matrix (Fin 6) (Fin 6) ℝ} {τ : ℝ} (hτ : τ < 1) (hpos : ∀ i, 0 < V i i) (hcor : ∀ i j, |V i j| ≤ √(V i i) * √(V j j))
    (h : ∀ i j, |V' i j - V i j| ≤ τ * (√(V i i) * √(V j j))) (i j : Fin 6) :
    |V' i j / (√(V' i i) * √(V' j j)) - V i j / (√(V i i) * √(V j j))| ≤ 2 * τ / (1 - τ) := by
  have diag : ∀ k, (1 - τ) * V k k ≤ V' k k ∧ V' k k ≤ (1 + τ) * V k k := by
    intro k
    have := h k k
    rw [Real.mul_self_sqrt (hpos k).le, abs_le] at this
    constructor <;> linarith [this.1, this.2]
  have pi := hpos i
  have pj := hpos j
  have si := Real.sqrt_pos.mpr pi
  have sj := Real.sqrt_pos.mpr pj
  have hτ0 : 0 ≤ τ := by
    have := (abs_nonneg _).trans (h i j)
    by_contra hlt
    push Not at hlt
    have := mul_neg_of_neg_of_pos hlt (mul_pos si sj)
    linarith
  set P := √(V i i) * √(V j j) with hP
  set Q := √(V' i i) * √(V' j j) with hQ
  have hP0 : 0 < P := mul_pos si sj
  have root : ∀ k, √(1 - τ) * √(V k k) ≤ √(V' k k) ∧ √(V' k k) ≤ √(1 + τ) * √(V k k) := by
    intro k
    rw [← Real.sqrt_mul (by linarith), ← Real.sqrt_mul (by linarith)]
    exact ⟨Real.sqrt_le_sqrt (diag k).1, Real.sqrt_le_sqrt (diag k).2⟩
  have q1 : (1 - τ) * P ≤ Q := by
    have := mul_le_mul (root i).1 (root j).1 (by positivity) (Real.sqrt_nonneg _)
    have e := Real.mul_self_sqrt (by linarith : 0 ≤ 1 - τ)
    calc (1 - τ) * P = √(1 - τ) * √(V i i) * (√(1 - τ) * √(V j j)) := by rw [hP]; nth_rewrite 1 [← e]; ring
      _ ≤ Q := this
  have q2 : Q ≤ (1 + τ) * P := by
    have := mul_le_mul (root i).2 (root j).2 (by positivity) (by positivity)
    have e := Real.mul_self_sqrt (by linarith : 0 ≤ 1 + τ)
    calc Q ≤ √(1 + τ) * √(V i i) * (√(1 + τ) * √(V j j)) := this
      _ = (1 + τ) * P := by rw [hP]; nth_rewrite 3 [← e]; ring
  have hQ0 : 0 < Q := lt_of_lt_of_le (mul_pos (by linarith) hP0) q1
  have e : V' i j / Q - V i j / P = ((V' i j - V i j) * P + V i j * (P - Q)) / (Q * P) := by
    field_simp
    ring
  rw [e, abs_div, abs_of_pos (mul_pos hQ0 hP0), div_le_div_iff₀ (mul_pos hQ0 hP0) (by linarith)]
  have a1 : |(V' i j - V i j) * P + V i j * (P - Q)| ≤ 2 * τ * P * P := by
    refine (abs_add_le _ _).trans ?_
    rw [abs_mul (V' i j - V i j) P, abs_mul (V i j) (P - Q), abs_of_pos hP0]
    have b1 := mul_le_mul_of_nonneg_right (h i j) hP0.le
    have b2 : |P - Q| ≤ τ * P := abs_le.mpr ⟨by linarith, by linarith⟩
    have b3 := mul_le_mul (hcor i j) b2 (abs_nonneg _) hP0.le
    linarith
  have a2 := mul_le_mul_of_nonneg_right a1 (by linarith : 0 ≤ 1 - τ)
  have a3 := mul_le_mul_of_nonneg_left (mul_le_mul_of_nonneg_right q1 hP0.le) (by linarith : 0 ≤ 2 * τ)
  linarith

theorem inverse_diag_cauchy {rows : List (Fin 6 → ℝ)} {V : Matrix (Fin 6) (Fin 6) ℝ} (hg : gram rows * V = 1) (i j : Fin 6) : |V i j| ≤ √(V i i) * √(V j j) := by
  have hG : gram rows *ᵥ (V *ᵥ Pi.single j 1) = Pi.single j 1 := by rw [Matrix.mulVec_mulVec, hg, Matrix.one_mulVec]
  have h := inverse_cauchy hg (Pi.single i 1) (V *ᵥ Pi.single j 1)
  have h1 := inverse_nonneg hg (Pi.single i 1)
  rw [hG, dotProduct_single, mul_one, single_dotProduct, one_mul, single_dotProduct, one_mul, Matrix.mulVec_single_one, Matrix.mulVec_single_one] at h
  rw [single_dotProduct, one_mul, Matrix.mulVec_single_one] at h1
  change V i j ^ 2 ≤ V i i * V j j at h
  change 0 ≤ V i i at h1
  rw [← Real.sqrt_mul h1, ← Real.sqrt_sq_eq_abs]
  exact Real.sqrt_le_sqrt h

theorem inverse_diag_pos {rows : List (Fin 6 → ℝ)} {V : Matrix (Fin 6) (Fin 6) ℝ} (hg : gram rows * V = 1) (j : Fin 6) : 0 < V j j := by
  have h1 := inverse_nonneg hg (Pi.single j 1)
  rw [single_dotProduct, one_mul, Matrix.mulVec_single_one] at h1
  change 0 ≤ V j j at h1
  rcases h1.eq_or_lt with h0 | h0
  · exfalso
    have hz : ∀ i, V i j = 0 := by
      intro i
      have := inverse_diag_cauchy hg i j
      rw [← h0, Real.sqrt_zero, mul_zero] at this
      exact abs_nonpos_iff.mp this
    have h2 := congrFun (congrFun hg j) j
    rw [Matrix.mul_apply, Matrix.one_apply_eq] at h2
    simp [hz] at h2
  · exact h0

variable [LibM] [LibObs]

namespace Aquifer

omit [LibM] [LibObs] in
/-- the normal matrix of the rounded rows -/
theorem normal_near {la : FlLinAlg} {γ : List (Fin 6 → Fl) → ℝ} (hm : la.Multiplies γ) (obs : List FlObs) (R : FlObs → Fin 6 → ℝ) (R' : FlObs → Fin 6 → Fl) {e : ℝ} (he : 0 ≤ e)
    (h : ∀ o ∈ obs, ∀ i, |(R' o i).val - R o i| ≤ e * |R o i|) (hγ : 0 ≤ γ (obs.map R')) (i j : Fin 6) :
    |(la.normal (obs.map R') i j).val - gram (obs.map R) i j| ≤ ((1 + γ (obs.map R')) * (1 + e) ^ 2 - 1) * absGram obs R i j := by
  have h1 := hm (obs.map R') i j
  rw [List.map_map, List.map_map] at h1
  have p : ∀ o ∈ obs, |(R' o i).val * (R' o j).val| ≤ (1 + e) ^ 2 * (|R o i| * |R o j|) := by
    intro o ho
    have a := (abs_sub_abs_le_abs_sub _ _).trans (h o ho i)
    have b := (abs_sub_abs_le_abs_sub _ _).trans (h o ho j)
    rw [abs_mul]
    have := mul_le_mul (show |(R' o i).val| ≤ (1 + e) * |R o i| by linarith) (show |(R' o j).val| ≤ (1 + e) * |R o j| by linarith) (abs_nonneg _) (by positivity)
    linarith
  have q : ∀ o ∈ obs, |(R' o i).val * (R' o j).val - R o i * R o j| ≤ ((1 + e) ^ 2 - 1) * (|R o i| * |R o j|) := by
    intro o ho
    have a := h o ho i
    have b := h o ho j
    have s : (R' o i).val * (R' o j).val - R o i * R o j = ((R' o i).val - R o i) * ((R' o j).val - R o j) + ((R' o i).val - R o i) * R o j + R o i * ((R' o j).val - R o j) := by ring
    rw [s]
    refine (abs_add_three _ _ _).trans ?_
    rw [abs_mul, abs_mul, abs_mul]
    have t1 := mul_le_mul a b (abs_nonneg _) (by positivity)
    have t2 := mul_le_mul_of_nonneg_right a (abs_nonneg (R o j))
    have t3 := mul_le_mul_of_nonneg_left b (abs_nonneg (R o i))
    linarith
  have P : ((obs.map fun o => |(R' o i).val * (R' o j).val|)).sum ≤ (1 + e) ^ 2 * absGram obs R i j := by
    rw [absGram, ← List.sum_map_mul_left]
    exact List.sum_le_sum p
  have Q : |(obs.map fun o => (R' o i).val * (R' o j).val).sum - gram (obs.map R) i j| ≤ ((1 + e) ^ 2 - 1) * absGram obs R i j := by
    rw [absGram, ← List.sum_map_mul_left]
    unfold gram
    rw [List.map_map]
    clear h1 P p h hγ
    induction obs with
    | nil => simp
    | cons o l ih =>
      simp only [List.map_cons, List.sum_cons, Function.comp_def]
      have i1 := ih fun o' h' => q o' (List.mem_cons_of_mem _ h')
      have i2 := q o List.mem_cons_self
      simp only [Function.comp_def] at i1
      refine le_trans ?_ (add_le_add i2 i1)
      refine le_trans (le_of_eq ?_) (abs_add_le _ _)
      congr 1
      ring
  have h2 := mul_le_mul_of_nonneg_left P hγ
  have h3 := abs_sub_le (la.normal (obs.map R') i j).val (obs.map fun o => (R' o i).val * (R' o j).val).sum (gram (obs.map R) i j)
  simp only [Function.comp_def] at h1
  nlinarith

theorem flFit_cov {la : FlLinAlg} {m m' : Aquifer Fl} {obs : List FlObs} {xo yo : Fl} {rows : List ((Fin 6 → Fl) × Fl)}
    (hr : m.flConstructFit xo yo obs = .ok rows) {c' : Fin 6 → Fl} {V' : Matrix (Fin 6) (Fin 6) Fl} (hf : m.flFitRegionalFlow la obs xo yo = (m', .ok (c', V'))) :
    la.inv (la.normal (rows.map Prod.fst)) = .ok V' := by
  unfold flFitRegionalFlow at hf
  rw [hr] at hf
  cases hl : la.lstsq rows with
  | error e => simp only [hl, Prod.mk.injEq, reduceCtorEq, and_false] at hf
  | ok c =>
    cases hi : la.inv (la.normal (rows.map Prod.fst)) with
    | error e => simp only [hl, hi, Prod.mk.injEq, reduceCtorEq, and_false] at hf
    | ok B =>
      simp only [hl, hi, Prod.mk.injEq, Except.ok.injEq] at hf
      rw [hf.2.2]

omit [LibM] [LibObs] in
/-- the terms of a quadratic and its values -/
theorem determined_vec {m : Aquifer Fl} (hK : 0 < m.conductivity.val) (hT : 0 < m.thickness.val) {obs : List FlObs} {xo yo : Fl} (hu : m.exact.Usable (obs.map FlObs.exact)) {κ : ℝ}
    (hκ : m.exact.Determined (obs.map FlObs.exact) xo.val yo.val κ) (a : Fin 6 → ℝ) :
    ‖vec obs fun o => ∑ i, |(m.exact.rowOf xo.val yo.val o.exact).1 i| * |a i|‖ ≤ κ * ‖vec obs fun o => ∑ i, (m.exact.rowOf xo.val yo.val o.exact).1 i * a i‖ := by
  have h := hκ a
  rw [List.map_map, List.map_map] at h
  rw [vec_norm, vec_norm]
  convert h using 2
  · congr 1
    refine List.map_congr_left fun o ho => ?_
    obtain ⟨hz, hs, -⟩ := hu o.exact (List.mem_map.mpr ⟨o, ho, rfl⟩)
    have hS := std_pos (K := m.exact.conductivity) (T := m.exact.thickness) hK hT (by linarith : 0 < o.exact.z - m.exact.base) hs
    rw [row_terms _ _ _ _ hS]
    rfl
  · congr 2
    refine List.map_congr_left fun o ho => ?_
    rw [row_value]
    rfl

/-- a column of the returned matrix, and a matrix near the normal matrix -/
theorem flFit_columns (hlog : LogAccurate) (hl : LibObs.Accurate) {la : FlLinAlg} {γ : List (Fin 6 → Fl) → ℝ} (hγ : ∀ rows, 0 ≤ γ rows) (hmul : la.Multiplies γ) {δ : Matrix (Fin 6) (Fin 6) Fl → ℝ}
    (hδ : ∀ A, 0 ≤ δ A) {m : Aquifer Fl} (hK : 0 < m.conductivity.val) (hT : 0 < m.thickness.val) (hn : m.wells.length ≤ 2 ^ 40) {obs : List FlObs} {xo yo : Fl}
    (hu : m.exact.Usable (obs.map FlObs.exact)) (hc : ∀ o ∈ obs, m.exact.LevelClear o.exact) {κ : ℝ} (hκ0 : 0 ≤ κ) (hκ : m.exact.Determined (obs.map FlObs.exact) xo.val yo.val κ)
    {rows : List ((Fin 6 → Fl) × Fl)} (hrows : m.flConstructFit xo yo obs = .ok rows) {ρ : ℝ}
    (hρ : κ ^ 2 * ((1 + γ (rows.map Prod.fst)) * (1 + δ (la.normal (rows.map Prod.fst))) * (1 + 2 ^ (-49 : ℤ)) ^ 2 - 1) ≤ ρ) :
    (∀ (v w a : Fin 6 → ℝ), (∀ i, |w i| ≤ ((1 + γ (rows.map Prod.fst)) * (1 + δ (la.normal (rows.map Prod.fst))) * (1 + 2 ^ (-49 : ℤ)) ^ 2 - 1) *
        ∑ k, absGram obs (fun o => (m.exact.rowOf xo.val yo.val o.exact).1) i k * |v k|) → |a ⬝ᵥ w| ≤ ρ *
        (‖vec obs fun o => ∑ i, (m.exact.rowOf xo.val yo.val o.exact).1 i * a i‖ * ‖vec obs fun o => ∑ i, (m.exact.rowOf xo.val yo.val o.exact).1 i * v i‖)) ∧
    ∀ i j, |(la.normal (rows.map Prod.fst) i j).val - gram (obs.map fun o => (m.exact.rowOf xo.val yo.val o.exact).1) i j| ≤
      ((1 + γ (rows.map Prod.fst)) * (1 + 2 ^ (-49 : ℤ)) ^ 2 - 1) * absGram obs (fun o => (m.exact.rowOf xo.val yo.val o.exact).1) i j := by
  obtain ⟨row, h1, h2⟩ := flRows hlog hl m hK hT hn obs xo yo hu hc
  rw [flConstruct_ok m xo yo row obs h1, Except.ok.injEq] at hrows
  subst hrows
  rw [List.map_map] at hρ ⊢
  have hg := hγ (obs.map (Prod.fst ∘ row))
  have hd := hδ (la.normal (obs.map (Prod.fst ∘ row)))
  have hω : 0 ≤ (1 + γ (obs.map (Prod.fst ∘ row))) * (1 + δ (la.normal (obs.map (Prod.fst ∘ row)))) * (1 + 2 ^ (-49 : ℤ)) ^ 2 - 1 := by
    have e : (0:ℝ) ≤ 2 ^ (-49 : ℤ) := by positivity
    generalize (2:ℝ) ^ (-49 : ℤ) = e at *
    nlinarith [mul_nonneg hg hd, mul_nonneg e e, mul_nonneg (add_nonneg (add_nonneg hg hd) (mul_nonneg hg hd)) (add_nonneg (add_nonneg e e) (mul_nonneg e e))]
  constructor
  · intro v w a hw
    refine (form_bound obs _ hω a v w hw).trans ?_
    have ha := determined_vec hK hT hu hκ a
    have hv := determined_vec hK hT hu hκ v
    set X := ‖vec obs fun o => ∑ i, (m.exact.rowOf xo.val yo.val o.exact).1 i * a i‖
    set Y := ‖vec obs fun o => ∑ i, (m.exact.rowOf xo.val yo.val o.exact).1 i * v i‖
    have hX : 0 ≤ X := norm_nonneg _
    have hY : 0 ≤ Y := norm_nonneg _
    have := mul_le_mul_of_nonneg_left (mul_le_mul ha hv (norm_nonneg _) (mul_nonneg hκ0 hX)) hω
    refine this.trans ?_
    have := mul_le_mul_of_nonneg_right hρ (mul_nonneg hX hY)
    linarith
  · refine normal_near hmul obs _ (Prod.fst ∘ row) (by positivity) (fun o ho i => ?_) hg
    have := ((h2 o ho).1 i).1
    have e : 16 * eps = 2 ^ (-49 : ℤ) := by unfold eps; norm_num [_root_.zpow_neg]
    rw [e] at this
    exact this

/-- the columns of the returned matrix -/
theorem flFit_inverse (hlog : LogAccurate) (hl : LibObs.Accurate) {la : FlLinAlg} {γ : List (Fin 6 → Fl) → ℝ} (hγ : ∀ rows, 0 ≤ γ rows) (hmul : la.Multiplies γ) {δ : Matrix (Fin 6) (Fin 6) Fl → ℝ}
    (hδ : ∀ A, 0 ≤ δ A) (hinv : la.Inverts δ) {la₀ : LinAlg} (hla₀ : la₀.Correct) {m : Aquifer Fl} (hK : 0 < m.conductivity.val) (hT : 0 < m.thickness.val) (hn : m.wells.length ≤ 2 ^ 40) {obs : List FlObs}
    {xo yo : Fl} (hu : m.exact.Usable (obs.map FlObs.exact)) (hc : ∀ o ∈ obs, m.exact.LevelClear o.exact) {κ : ℝ} (hκ0 : 0 ≤ κ) (hκ : m.exact.Determined (obs.map FlObs.exact) xo.val yo.val κ)
    {rows : List ((Fin 6 → Fl) × Fl)} (hrows : m.flConstructFit xo yo obs = .ok rows) {ρ : ℝ} (hρ0 : 0 ≤ ρ) (hρ1 : ρ < 1)
    (hρ : κ ^ 2 * ((1 + γ (rows.map Prod.fst)) * (1 + δ (la.normal (rows.map Prod.fst))) * (1 + 2 ^ (-49 : ℤ)) ^ 2 - 1) ≤ ρ)
    {m' : Aquifer Fl} {c' : Fin 6 → Fl} {V' : Matrix (Fin 6) (Fin 6) Fl} (hf : m.flFitRegionalFlow la obs xo yo = (m', .ok (c', V')))
    {m₀ : Aquifer ℝ} {c : Fin 6 → ℝ} {V : Matrix (Fin 6) (Fin 6) ℝ} (hf₀ : m.exact.fitRegionalFlow la₀ (obs.map FlObs.exact) xo.val yo.val = (m₀, .ok (c, V))) :
    gram (obs.map fun o => (m.exact.rowOf xo.val yo.val o.exact).1) * V = 1 ∧
    ∀ j, ((fun i => (V' i j).val) - fun i => V i j) ⬝ᵥ (gram (obs.map fun o => (m.exact.rowOf xo.val yo.val o.exact).1) *ᵥ ((fun i => (V' i j).val) - fun i => V i j)) ≤ (ρ / (1 - ρ) * √(V j j)) ^ 2 := by
  obtain ⟨-, hg, -⟩ := fit_excess hla₀ hK hT hu hf₀
  have hg' : gram (obs.map fun o => (m.exact.rowOf xo.val yo.val o.exact).1) * V = 1 := by
    rw [List.map_map, List.map_map] at hg
    exact hg
  refine ⟨hg', fun j => ?_⟩
  have hV := hinv _ _ (flFit_cov hrows hf)
  obtain ⟨form, near⟩ := flFit_columns hlog hl hγ hmul hδ hK hT hn hu hc hκ0 hκ hrows hρ
  set R : FlObs → Fin 6 → ℝ := fun o => (m.exact.rowOf xo.val yo.val o.exact).1 with hR
  set N := la.normal (rows.map Prod.fst) with hN
  have g0 := hγ (rows.map Prod.fst)
  have d0 := hδ N
  set g := γ (rows.map Prod.fst)
  set d := δ N
  refine column_near obs R hg' hρ0 hρ1 j _ fun a => form _ _ a fun i => ?_
  set E : ℝ := (1 + 2 ^ (-49 : ℤ)) ^ 2 with hE
  have hE1 : 1 ≤ E := one_le_pow₀ (le_add_of_nonneg_right (by positivity))
  have size : ∀ k, |(N i k).val| ≤ (1 + g) * E * absGram obs R i k := by
    intro k
    have h1 := near i k
    have h2 := abs_gram_le obs R i k
    have h3 := abs_sub_abs_le_abs_sub (N i k).val (gram (obs.map R) i k)
    linarith
  have e1 : (gram (obs.map R) *ᵥ (fun i => (V' i j).val) - (Pi.single j 1 : Fin 6 → ℝ)) i =
      (∑ k, (N i k).val * (V' k j).val - if i = j then 1 else 0) - ∑ k, ((N i k).val - gram (obs.map R) i k) * (V' k j).val := by
    simp only [Pi.sub_apply, Matrix.mulVec, dotProduct, Pi.single_apply, sub_mul, Finset.sum_sub_distrib]
    ring
  rw [e1]
  refine (abs_sub _ _).trans ?_
  have t1 : d * ∑ k, |(N i k).val * (V' k j).val| ≤ d * ((1 + g) * E) * ∑ k, absGram obs R i k * |(V' k j).val| := by
    rw [mul_assoc]
    refine mul_le_mul_of_nonneg_left ?_ d0
    rw [Finset.mul_sum]
    refine Finset.sum_le_sum fun k _ => ?_
    rw [abs_mul, ← mul_assoc]
    exact mul_le_mul_of_nonneg_right (size k) (abs_nonneg _)
  have t2 : |∑ k, ((N i k).val - gram (obs.map R) i k) * (V' k j).val| ≤ ((1 + g) * E - 1) * ∑ k, absGram obs R i k * |(V' k j).val| := by
    refine (Finset.abs_sum_le_sum_abs _ _).trans ?_
    rw [Finset.mul_sum]
    refine Finset.sum_le_sum fun k _ => ?_
    rw [abs_mul, ← mul_assoc]
    exact mul_le_mul_of_nonneg_right (near i k) (abs_nonneg _)
  have := hV i j
  linarith

/-- a matrix near the normal matrix is regular -/
theorem flFit_regular (hlog : LogAccurate) (hl : LibObs.Accurate) {la : FlLinAlg} {γ : List (Fin 6 → Fl) → ℝ} (hγ : ∀ rows, 0 ≤ γ rows) (hmul : la.Multiplies γ) {δ : Matrix (Fin 6) (Fin 6) Fl → ℝ}
    (hδ : ∀ A, 0 ≤ δ A) {m : Aquifer Fl} (hK : 0 < m.conductivity.val) (hT : 0 < m.thickness.val) (hn : m.wells.length ≤ 2 ^ 40) {obs : List FlObs}
    {xo yo : Fl} (hu : m.exact.Usable (obs.map FlObs.exact)) (hc : ∀ o ∈ obs, m.exact.LevelClear o.exact) {κ : ℝ} (hκ0 : 0 ≤ κ) (hκ : m.exact.Determined (obs.map FlObs.exact) xo.val yo.val κ)
    {rows : List ((Fin 6 → Fl) × Fl)} (hrows : m.flConstructFit xo yo obs = .ok rows)
    (hρ : κ ^ 2 * ((1 + γ (rows.map Prod.fst)) * (1 + δ (la.normal (rows.map Prod.fst))) * (1 + 2 ^ (-49 : ℤ)) ^ 2 - 1) < 1) {E : Matrix (Fin 6) (Fin 6) ℝ}
    (hE : ∀ i j, |E i j - (la.normal (rows.map Prod.fst) i j).val| ≤ δ (la.normal (rows.map Prod.fst)) * |(la.normal (rows.map Prod.fst) i j).val|) {x : Fin 6 → ℝ} (hx : E *ᵥ x = 0) :
    ∀ o ∈ obs, ∑ i, (m.exact.rowOf xo.val yo.val o.exact).1 i * x i = 0 := by
  obtain ⟨form, near⟩ := flFit_columns hlog hl hγ hmul hδ hK hT hn hu hc hκ0 hκ hrows le_rfl
  set R : FlObs → Fin 6 → ℝ := fun o => (m.exact.rowOf xo.val yo.val o.exact).1 with hR
  set N := la.normal (rows.map Prod.fst) with hN
  have d0 := hδ N
  set g := γ (rows.map Prod.fst)
  set d := δ N
  have key := form x (gram (obs.map R) *ᵥ x) x ?_
  · rw [gram_norm] at key
    have key' := (le_abs_self _).trans key
    set n := ‖vec obs fun o => ∑ i, R o i * x i‖ with hn'
    have hn0 : n = 0 := by
      have : 0 ≤ n := norm_nonneg _
      by_contra hne
      have hp : 0 < n := lt_of_le_of_ne this (Ne.symm hne)
      have := mul_lt_mul_of_pos_right hρ (mul_pos hp hp)
      rw [pow_two n] at key'
      linarith
    rw [hn', vec_norm] at hn0
    have h0 := Real.sqrt_eq_zero'.mp hn0
    intro o ho
    have h1 : (∑ i, R o i * x i) ^ 2 ≤ (obs.map fun o => (∑ i, R o i * x i) ^ 2).sum :=
      List.single_le_sum (fun t ht => by obtain ⟨p, -, rfl⟩ := List.mem_map.mp ht; exact sq_nonneg _) _ (List.mem_map.mpr ⟨o, ho, rfl⟩)
    exact pow_eq_zero_iff (two_ne_zero) |>.mp (le_antisymm (h1.trans h0) (sq_nonneg _))
  · intro i
    have e1 : (gram (obs.map R) *ᵥ x) i = ∑ k, (gram (obs.map R) i k - E i k) * x k := by
      have := congrFun hx i
      simp only [Matrix.mulVec, dotProduct, Pi.zero_apply, sub_mul, Finset.sum_sub_distrib] at this ⊢
      rw [this, sub_zero]
    rw [e1, Finset.mul_sum]
    refine (Finset.abs_sum_le_sum_abs _ _).trans (Finset.sum_le_sum fun k _ => ?_)
    rw [abs_mul, ← mul_assoc]
    refine mul_le_mul_of_nonneg_right ?_ (abs_nonneg _)
    have s1 := near i k
    have s2 := hE i k
    have s3 := abs_gram_le obs R i k
    have s4 := abs_sub_abs_le_abs_sub (N i k).val (gram (obs.map R) i k)
    have s5 := abs_sub_le (E i k) (N i k).val (gram (obs.map R) i k)
    rw [abs_sub_comm]
    have s6 : d * |(N i k).val| ≤ d * ((1 + g) * (1 + 2 ^ (-49 : ℤ)) ^ 2 * absGram obs R i k) := mul_le_mul_of_nonneg_left (by linarith) d0
    linarith

end Aquifer
end Oneka
