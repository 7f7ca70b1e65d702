import Verif.Model.Smooth
import Verif.Spec.Smooth
import Verif.Props.Runs
import Verif.Lemmas.Sensitivity
import Verif.Lemmas.Visualize

/-!
# Lemmas for Props/Smooth.lean
-/

namespace Oneka

open Finset

/-- a weighted list sum over the kernel is a sum over the window in one direction -/
theorem kernel_sum (σ : ℝ) (F : ℤ → ℝ) :
    ((gaussKernel σ).zipIdx.map fun wk => wk.1 * F ((wk.2 : ℤ) - kernelRadius σ)).sum =
      (∑ a ∈ Icc (-(smoothReach σ : ℤ)) (smoothReach σ), Real.exp (-((a:ℝ) ^ 2 / (2 * σ ^ 2))) * F a) / ∑ a ∈ Icc (-(smoothReach σ : ℤ)) (smoothReach σ), Real.exp (-((a:ℝ) ^ 2 / (2 * σ ^ 2))) := by
  set r := kernelRadius σ with hr
  have hrr : smoothReach σ = r := rfl
  have hre : ∀ G : ℤ → ℝ, ∑ a ∈ Icc (-(r : ℤ)) r, G a = ∑ k ∈ range (2 * r + 1), G ((k:ℤ) - r) := by
    intro G
    symm
    refine Finset.sum_bij (fun (k : ℕ) _ => (k:ℤ) - r) ?_ ?_ ?_ ?_
    · intro k hk
      rw [Finset.mem_range] at hk
      rw [Finset.mem_Icc]
      omega
    · intro a _ b _ h
      omega
    · intro b hb
      rw [Finset.mem_Icc] at hb
      exact ⟨(b + r).toNat, by rw [Finset.mem_range]; omega, by omega⟩
    · intro k _
      rfl
  have hexp : ∀ k : ℕ, Real.exp (-(1/2) / (σ * σ) * ((k : ℝ) - r) ^ 2) = Real.exp (-((((k:ℤ) - r : ℤ) : ℝ) ^ 2 / (2 * σ ^ 2))) := by
    intro k
    congr 1
    push_cast
    rcases eq_or_ne σ 0 with h | h
    · simp [h]
    · field_simp
  have hsum : ((List.range (2 * r + 1)).map fun (k : ℕ) => Real.exp (-(1/2) / (σ * σ) * ((k : ℝ) - r) ^ 2)).sum = ∑ a ∈ Icc (-(r : ℤ)) r, Real.exp (-((a:ℝ) ^ 2 / (2 * σ ^ 2))) := by
    rw [hre, ← List.sum_toFinset _ (List.nodup_range), List.toFinset_range]
    exact Finset.sum_congr rfl fun k _ => hexp k
  rw [hrr, hre (fun a => Real.exp (-((a:ℝ) ^ 2 / (2 * σ ^ 2))) * F a), Finset.sum_div, ← hsum]
  have hk : (gaussKernel σ).zipIdx.map (fun wk => wk.1 * F ((wk.2 : ℤ) - r)) =
      (List.range (2 * r + 1)).map fun (k : ℕ) => Real.exp (-(1/2) / (σ * σ) * ((k : ℝ) - r) ^ 2) / ((List.range (2 * r + 1)).map fun (k : ℕ) => Real.exp (-(1/2) / (σ * σ) * ((k : ℝ) - r) ^ 2)).sum * F ((k : ℤ) - r) := by
    apply List.ext_getElem?
    intro n
    unfold gaussKernel
    simp only [List.getElem?_map, List.getElem?_zipIdx, ← hr]
    by_cases h : n < 2 * r + 1
    · simp [List.getElem?_range h]
    · rw [List.getElem?_eq_none (by simp; omega)]
      rfl
  rw [hk, ← List.sum_toFinset _ (List.nodup_range), List.toFinset_range]
  refine Finset.sum_congr rfl fun k _ => ?_
  rw [hexp k]
  ring

theorem bell_pos (σ : ℝ) (d : ℤ × ℤ) : 0 < bell σ d := Real.exp_pos _

theorem zero_mem_window (σ : ℝ) : (0, 0) ∈ smoothWindow σ := by
  unfold smoothWindow
  rw [Finset.mem_product, Finset.mem_Icc]
  simp

theorem bell_sum_pos (σ : ℝ) : 0 < ∑ d ∈ smoothWindow σ, bell σ d := Finset.sum_pos (fun d _ => bell_pos σ d) ⟨_, zero_mem_window σ⟩

theorem bell_split (σ : ℝ) (a b : ℤ) : bell σ (a, b) = Real.exp (-((a:ℝ) ^ 2 / (2 * σ ^ 2))) * Real.exp (-((b:ℝ) ^ 2 / (2 * σ ^ 2))) := by
  rw [← Real.exp_add]
  unfold bell
  congr 1
  ring

theorem reach_zero {σ : ℝ} (h : σ < 1/8) : smoothReach σ = 0 := by
  unfold smoothReach
  rw [Nat.floor_eq_zero]
  linarith

theorem window_single {σ : ℝ} (h : σ < 1/8) : smoothWindow σ = {(0, 0)} := by
  unfold smoothWindow
  rw [reach_zero h]
  rfl

theorem average_single {σ : ℝ} (h : σ < 1/8) (p : ℤ × ℤ → ℝ) : bellAverage σ p = p (0, 0) := by
  unfold bellAverage
  rw [window_single h, Finset.sum_singleton, Finset.sum_singleton]
  exact mul_div_cancel_left₀ _ (bell_pos σ _).ne'

/-- the two passes together -/
theorem filter_entry (g : Grid ℝ) (σ : ℝ) {i j : ℕ} (hi : i < g.rows) (hj : j < g.cols) :
    (gaussianFilter g σ).val i j = bellAverage σ fun d => g.beyond (i + d.1) (j + d.2) := by
  unfold gaussianFilter
  split_ifs with h
  swap
  · rw [average_single (by norm_num at h; linarith)]
    simp [Grid.beyond, hi, hj]
  set A := Icc (-(smoothReach σ : ℤ)) (smoothReach σ) with hA
  set e := fun a : ℤ => Real.exp (-((a:ℝ) ^ 2 / (2 * σ ^ 2))) with he
  have hS : 0 < ∑ a ∈ A, e a := Finset.sum_pos (fun a _ => Real.exp_pos _) ⟨0, by rw [hA, Finset.mem_Icc]; simp⟩
  have h1 : ∀ b : ℤ, zeroPadded (passRows (gaussKernel σ) (kernelRadius σ) g) i (j + b) = (∑ a ∈ A, e a * g.beyond (i + a) (j + b)) / ∑ a ∈ A, e a := by
    intro b
    rw [← kernel_sum σ fun a => g.beyond (i + a) (j + b)]
    unfold zeroPadded passRows
    simp only
    split_ifs with hin
    · congr 1
      refine List.map_congr_left fun wk _ => ?_
      unfold Grid.beyond zeroPadded
      rw [Int.toNat_natCast, Int.toNat_of_nonneg hin.2.2.1, add_sub_assoc]
    · have hout : ∀ a : ℤ, g.beyond (i + a) (j + b) = 0 := by
        intro a
        unfold Grid.beyond
        rw [if_neg]
        intro hc
        exact hin ⟨by omega, by omega, hc.2.2.1, hc.2.2.2⟩
      simp [hout]
  have h2 : (passCols (gaussKernel σ) (kernelRadius σ) (passRows (gaussKernel σ) (kernelRadius σ) g)).val i j =
      (∑ b ∈ A, e b * zeroPadded (passRows (gaussKernel σ) (kernelRadius σ) g) i (j + b)) / ∑ b ∈ A, e b := by
    rw [← kernel_sum σ fun b => zeroPadded (passRows (gaussKernel σ) (kernelRadius σ) g) i (j + b)]
    unfold passCols
    simp only [add_sub_assoc]
  rw [h2]
  unfold bellAverage
  have e1 : ∑ d ∈ smoothWindow σ, bell σ d = (∑ a ∈ A, e a) * ∑ b ∈ A, e b := by
    unfold smoothWindow
    rw [Finset.sum_product, Finset.sum_mul_sum]
    exact Finset.sum_congr rfl fun a _ => Finset.sum_congr rfl fun b _ => bell_split σ a b
  have e2 : ∑ d ∈ smoothWindow σ, bell σ d * g.beyond (i + d.1) (j + d.2) = ∑ b ∈ A, e b * ∑ a ∈ A, e a * g.beyond (i + a) (j + b) := by
    unfold smoothWindow
    rw [Finset.sum_product_right]
    refine Finset.sum_congr rfl fun b _ => ?_
    rw [Finset.mul_sum]
    refine Finset.sum_congr rfl fun a _ => ?_
    rw [bell_split σ a b]
    ring
  rw [e1, e2, Finset.sum_div, Finset.sum_div]
  refine Finset.sum_congr rfl fun b _ => ?_
  rw [h1]
  field_simp

theorem filter_shape (g : Grid ℝ) (σ : ℝ) : (gaussianFilter g σ).rows = g.rows ∧ (gaussianFilter g σ).cols = g.cols := by
  unfold gaussianFilter
  split_ifs <;> exact ⟨rfl, rfl⟩

/-! ## Averages -/

section
variable {σ : ℝ} {p : ℤ × ℤ → ℝ}

theorem average_nonneg (h : ∀ d ∈ smoothWindow σ, 0 ≤ p d) : 0 ≤ bellAverage σ p :=
  div_nonneg (Finset.sum_nonneg fun d hd => mul_nonneg (bell_pos σ d).le (h d hd)) (bell_sum_pos σ).le

theorem average_sub (c : ℝ) : c - bellAverage σ p = bellAverage σ fun d => c - p d := by
  unfold bellAverage
  rw [eq_div_iff (bell_sum_pos σ).ne', sub_mul, div_mul_cancel₀ _ (bell_sum_pos σ).ne', Finset.mul_sum, ← Finset.sum_sub_distrib]
  exact Finset.sum_congr rfl fun d _ => by ring

theorem average_le {c : ℝ} (h : ∀ d ∈ smoothWindow σ, p d ≤ c) : bellAverage σ p ≤ c := by
  rw [← sub_nonneg, average_sub]
  exact average_nonneg fun d hd => sub_nonneg.mpr (h d hd)

theorem average_zero (h : ∀ d ∈ smoothWindow σ, 0 ≤ p d) : bellAverage σ p = 0 ↔ ∀ d ∈ smoothWindow σ, p d = 0 := by
  unfold bellAverage
  rw [div_eq_zero_iff, or_iff_left (bell_sum_pos σ).ne', Finset.sum_eq_zero_iff_of_nonneg fun d hd => mul_nonneg (bell_pos σ d).le (h d hd)]
  exact forall₂_congr fun d _ => by rw [mul_eq_zero, or_iff_right (bell_pos σ d).ne']

theorem average_one (h : ∀ d ∈ smoothWindow σ, p d ≤ 1) : bellAverage σ p = 1 ↔ ∀ d ∈ smoothWindow σ, p d = 1 := by
  rw [eq_comm, ← sub_eq_zero, average_sub, average_zero fun d hd => sub_nonneg.mpr (h d hd)]
  exact forall₂_congr fun d _ => by rw [sub_eq_zero, eq_comm]

end

/-! ## The sum over a table -/

/-- Averaging over the window loses what lies near the border, and nothing else. -/
theorem sum_average {G : Finset (ℤ × ℤ)} {P : ℤ × ℤ → ℝ} (h0 : ∀ q, 0 ≤ P q) (hout : ∀ q, q ∉ G → P q = 0) (σ : ℝ) :
    ∑ q ∈ G, bellAverage σ (fun d => P (q + d)) ≤ ∑ q ∈ G, P q ∧
    (∑ q ∈ G, bellAverage σ (fun d => P (q + d)) = ∑ q ∈ G, P q ↔ ∀ q ∈ G, 0 < P q → ∀ d ∈ smoothWindow σ, q - d ∈ G) := by
  have hshift : ∀ d, ∑ q ∈ G, P (q + d) = ∑ q ∈ G with q - d ∈ G, P q := by
    intro d
    rw [← Finset.sum_filter_ne_zero]
    symm
    rw [← Finset.sum_filter_ne_zero]
    refine Finset.sum_bij (fun q _ => q - d) ?_ ?_ ?_ ?_
    · intro q hq
      simp only [Finset.mem_filter] at hq ⊢
      exact ⟨hq.1.2, by rw [sub_add_cancel]; exact hq.2⟩
    · intro a _ b _ h
      exact sub_left_injective h
    · intro b hb
      simp only [Finset.mem_filter] at hb
      refine ⟨b + d, ?_, add_sub_cancel_right b d⟩
      simp only [Finset.mem_filter, add_sub_cancel_right]
      refine ⟨⟨?_, hb.1⟩, hb.2⟩
      by_contra hn
      exact hb.2 (hout _ hn)
    · intro q _
      rw [sub_add_cancel]
  have hswap : ∑ q ∈ G, bellAverage σ (fun d => P (q + d)) = bellAverage σ fun d => ∑ q ∈ G, P (q + d) := by
    unfold bellAverage
    rw [← Finset.sum_div, Finset.sum_comm]
    congr 1
    exact Finset.sum_congr rfl fun d _ => by rw [Finset.mul_sum]
  have hle : ∀ d, ∑ q ∈ G, P (q + d) ≤ ∑ q ∈ G, P q := by
    intro d
    rw [hshift]
    exact Finset.sum_le_sum_of_subset_of_nonneg (Finset.filter_subset _ _) fun q _ _ => h0 q
  have heq : ∀ d, ∑ q ∈ G, P (q + d) = ∑ q ∈ G, P q ↔ ∀ q ∈ G, 0 < P q → q - d ∈ G := by
    intro d
    rw [hshift, ← Finset.sum_filter_add_sum_filter_not G (fun q => q - d ∈ G) P]
    rw [left_eq_add, Finset.sum_eq_zero_iff_of_nonneg fun q _ => h0 q]
    constructor
    · intro h q hq hpos
      by_contra hn
      exact hpos.ne' (h q (Finset.mem_filter.mpr ⟨hq, hn⟩))
    · intro h q hq
      rw [Finset.mem_filter] at hq
      by_contra hn
      exact hq.2 (h q hq.1 (lt_of_le_of_ne (h0 q) (Ne.symm hn)))
  refine ⟨?_, ?_⟩
  · rw [hswap]
    exact average_le fun d _ => hle d
  · rw [hswap, eq_comm, ← sub_eq_zero, average_sub, average_zero fun d _ => sub_nonneg.mpr (hle d)]
    simp only [sub_eq_zero]
    constructor
    · intro h q hq hpos d hd
      exact (heq d).mp (h d hd).symm q hq hpos
    · intro h d hd
      exact ((heq d).mpr fun q hq hpos => h q hq hpos d hd).symm

end Oneka
