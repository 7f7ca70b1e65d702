import Verif.Lemmas.RunMeas
import Verif.Lemmas.Iid
import Verif.Lemmas.PropsCauses

/-! Helper lemmas for C96. -/

namespace Oneka

open MeasureTheory

/-- the model as it was before the fit -/
theorem Realized.drawn {a : RunArgs} {la : LinAlg} {t : SWell} {q : Dist → ℕ → Except PyErr ℝ}
    {coefs : (Fin 6 → ℝ) → Matrix (Fin 6) (Fin 6) ℝ → Except PyErr (Fin 6 → ℝ)} {interrupt : ℕ → ℕ → Option PyErr} {L : RealizationLog}
    (R : Realized a la t q coefs interrupt L) : ∃ m, DrawnModel a q m ∧ (m.fitRegionalFlow la a.obs t.xw t.yw).2 = .ok (L.ev, L.cov) ∧
      L.model = { m with xo := t.xw, yo := t.yw, coef := L.model.coef } := by
  refine ⟨⟨L.model.base, L.model.conductivity, L.model.porosity, L.model.thickness, L.model.wells, 0, 0, fun _ => 0⟩,
    ⟨R.base, R.wells_length, R.wells, R.conductivity, R.porosity, R.thickness, ⟨rfl, rfl⟩, rfl⟩, ?_, ?_⟩
  · rw [← R.fit]
    exact fit_congr (m := L.model) (m' := ⟨L.model.base, L.model.conductivity, L.model.porosity, L.model.thickness, L.model.wells, 0, 0, fun _ => 0⟩) rfl rfl rfl rfl _ _ _
  · have h := R.origin
    generalize L.model = A at *
    cases A
    simp only at h ⊢
    rw [h.1, h.2]

theorem realized_not_endless {a : RunArgs} {la : LinAlg} {t : SWell} {q : Dist → ℕ → Except PyErr ℝ}
    {coefs : (Fin 6 → ℝ) → Matrix (Fin 6) (Fin 6) ℝ → Except PyErr (Fin 6 → ℝ)} {interrupt : ℕ → ℕ → Option PyErr} {L : RealizationLog}
    (R : Realized a la t q coefs interrupt L) : ¬ EndlessTrace a la t q coefs interrupt := by
  rintro ⟨m, ev, cov, c, h1, h2, h3, k, hk, h4⟩
  obtain ⟨m', g1, g2, g3⟩ := R.drawn
  obtain rfl : m = m' := h1.unique g1
  rw [g2] at h2
  obtain ⟨rfl, rfl⟩ := Prod.mk.inj (Except.ok.inj h2)
  have hc := R.coef
  rw [h3] at hc
  obtain rfl := Except.ok.inj hc
  have hl : k < L.traces.length := by rw [R.traces_length]; omega
  have := R.traces k _ (List.getElem?_eq_getElem hl)
  rw [g3] at this
  have e := h4.symm.trans this
  cases e

section
variable {a : RunArgs} {la : LinAlg} {mv : NormalGen} {t : SWell} {k n : ℕ} {x : ℕ → Numbers}

/-- A run returns iff each of its realizations can be carried out. -/
theorem run_returns_iff (hk : a.target = k) (ht : a.wells[k]? = some t) (hs : 0 < a.spacing) (hn : 0 ≤ a.npaths) :
    (∃ r f, createStochastic a n (envOf la mv x) = some r ∧ r.outcome = .ok f) ↔ ∀ i < n, ReturnsWith a la mv t (x i) := by
  constructor
  · rintro ⟨r, f, h, ho⟩ i hi
    obtain ⟨L, -, R⟩ := C45_realizations a n k _ t hk ht h ho i hi
    exact ⟨L, R⟩
  · intro h
    cases hr : createStochastic a n (envOf la mv x) with
    | none =>
      obtain ⟨j, hj, he⟩ := stochastic_endless hk ht hr
      obtain ⟨L, R⟩ := h j hj
      exact absurd he (realized_not_endless R)
    | some r =>
      cases ho : r.outcome with
      | ok f => exact ⟨r, f, rfl, ho⟩
      | error e =>
        exfalso
        obtain ⟨i, hi, hf⟩ := C65_only_parameters_raise a n k _ t hk ht hs hn hr ho
        obtain ⟨L, R⟩ := h i hi
        obtain ⟨m, g1, g2, -⟩ := R.drawn
        rcases hf with hf | ⟨m', g1', hf⟩
        · exact g1.not_fails hf
        · obtain rfl := g1.unique g1'
          rcases hf with hf | ⟨ev, cov, hf, hf'⟩
          · rw [show (envOf la mv x).la = la from rfl, g2] at hf; cases hf
          · rw [show (envOf la mv x).la = la from rfl, g2] at hf
            obtain ⟨rfl, rfl⟩ := Prod.mk.inj (Except.ok.inj hf)
            have := R.coef
            rw [show mv L.ev L.cov (x i).2 = _ from hf'] at this
            cases this

open Classical in
/-- Counting realizations in the log is counting them among the numbers. -/
theorem count_log {log : List RealizationLog} (X Y : ℝ) (hl : log.length = n)
    (h : ∀ i L, log[i]? = some L → Realized a la t (fun d j => d.sample ((x i).1 j)) (fun ev cov => mv ev cov (x i).2) (fun _ _ => none) L) :
    log.countP (fun L => L.Captures a.umbra X Y) = ((Finset.range n).filter fun i => x i ∈ {y | CapturedWith a la mv t X Y y}).card := by
  have key : ∀ i L, log[i]? = some L → (L.Captures a.umbra X Y ↔ CapturedWith a la mv t X Y (x i)) := by
    intro i L hL
    refine ⟨fun hc => ⟨L, h i L hL, hc⟩, ?_⟩
    rintro ⟨L', R', hc⟩
    have := (realized_unique (fun _ _ _ => rfl) (h i L hL) R').2.2.2
    unfold RealizationLog.Captures
    rw [this]
    exact hc
  clear h
  subst hl
  induction log using List.reverseRecOn with
  | nil => simp
  | append_singleton l L ih =>
    rw [List.countP_append, ih fun i L' h => key i L' (by
      rw [List.getElem?_append_left (List.getElem?_eq_some_iff.mp h).1]; exact h)]
    rw [List.length_append, List.length_singleton, Finset.range_add_one, Finset.filter_insert]
    have e := key l.length L (by simp)
    by_cases hc : CapturedWith a la mv t X Y (x l.length)
    · rw [if_pos (show x l.length ∈ {y | CapturedWith a la mv t X Y y} from hc), Finset.card_insert_of_notMem (by simp)]
      simp [e, hc]
    · rw [if_neg (show ¬ x l.length ∈ {y | CapturedWith a la mv t X Y y} from hc)]
      simp [e, hc]

theorem captured_returns {X Y : ℝ} : {y | CapturedWith a la mv t X Y y} ⊆ {y | ReturnsWith a la mv t y} := fun _ ⟨L, R, _⟩ => ⟨L, R⟩

open Classical in
/-- What a returned run archives. -/
theorem run_weight (hk : a.target = k) (ht : a.wells[k]? = some t) (hu : 0 ≤ a.umbra) {r : RunResult} {f : PField ℝ} (h : createStochastic a n (envOf la mv x) = some r) (ho : r.outcome = .ok f)
    (p q : ℤ) (hpq : (|p| ≤ 1 ∧ |q| ≤ 1) ∨ a.umbra ≤ a.spacing) :
    f.total = n ∧ f.weightAt (t.xw + p * a.spacing) (t.yw + q * a.spacing) =
      (((Finset.range n).filter fun i => x i ∈ {y | CapturedWith a la mv t (t.xw + p * a.spacing) (t.yw + q * a.spacing) y}).card : ℝ) := by
  obtain ⟨h1, h2, -, h4, -⟩ := C44_frequencies a n k _ t hk ht h ho
  refine ⟨h2, ?_⟩
  have hc := count_log (a := a) (la := la) (mv := mv) (t := t) (x := x) (log := r.log) (t.xw + p * a.spacing) (t.yw + q * a.spacing) h1 ?_
  · rw [h4 hu p q hpq, ← hc]
  · intro i L hL
    have hi : i < n := by rw [← h1]; exact (List.getElem?_eq_some_iff.mp hL).1
    obtain ⟨L', hL', R⟩ := C45_realizations a n k _ t hk ht h ho i hi
    rw [hL] at hL'
    obtain rfl := Option.some.inj hL'
    exact R

end

theorem frequency_error {n : ℕ} (hn : 0 < n) {c p ε : ℝ} (h : ε ≤ |c / n - p|) : ε * n ≤ |c - n * p| := by
  have hn' : (0:ℝ) < n := Nat.cast_pos.mpr hn
  have e : c - n * p = (c / n - p) * n := by field_simp
  rw [e, abs_mul, abs_of_pos hn']
  exact mul_le_mul_of_nonneg_right h hn'.le

end Oneka
