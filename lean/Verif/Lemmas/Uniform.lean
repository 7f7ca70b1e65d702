import Verif.Lemmas.Terminate

namespace Oneka

theorem dp5_const {V : Type} [AddCommGroup V] [Module ℝ V] (v : V) (h : ℝ) (p : V) :
    rkStep (fun _ => v) dpA dp5 h p = p + h • v := by
  obtain ⟨k1, k2, k3, k4, k5, k6, k7, H⟩ := exists_dpStages (fun _ => v) h p
  rw [dp_step5 _ h p H]
  obtain ⟨rfl, rfl, rfl, rfl, rfl, rfl, -⟩ := H
  module

theorem uniform_path {v q0 : ℝ × ℝ} {tol maxstep : ℝ} (path : List (ℝ × (ℝ × ℝ))) (p : ℝ × ℝ) (t0 : ℝ)
    (h : DPPath (fun _ => v) tol maxstep p path) (hp : p = q0 + t0 • v) :
    p :: path.map Prod.snd = (List.scanl (· + ·) t0 (path.map Prod.fst)).map (fun t => q0 + t • v) := by
  induction path generalizing p t0 with
  | nil => simp [hp]
  | cons a path ih =>
    obtain ⟨h', q'⟩ := a
    obtain ⟨h1, -, -, h4⟩ := h
    rw [dp5_const] at h1
    simp only [List.map_cons, List.scanl_cons]
    rw [← ih q' (t0 + h') h4 (by rw [h1, hp]; module), hp]

theorem scanl_last (l : List ℝ) (t0 : ℝ) : (List.scanl (· + ·) t0 l).getLast? = some (t0 + l.sum) := by
  induction l generalizing t0 with
  | nil => simp
  | cons a l ih =>
    rw [List.scanl_cons, List.getLast?_cons, ih]
    simp [add_assoc]

theorem scanl_ge (l : List ℝ) (t0 D : ℝ) (hl : ∀ h ∈ l, 0 < h * D) :
    ∀ t ∈ List.scanl (· + ·) t0 l, t0 * D ≤ t * D := by
  induction l generalizing t0 with
  | nil => simp
  | cons a l ih =>
    intro t ht
    rw [List.scanl_cons, List.mem_cons] at ht
    rcases ht with rfl | ht
    · rfl
    · have h1 := ih (t0 + a) (fun h hh => hl h (List.mem_cons_of_mem _ hh)) t ht
      have h2 := hl a List.mem_cons_self
      nlinarith

theorem scanl_pairwise (l : List ℝ) (t0 D : ℝ) (hl : ∀ h ∈ l, 0 < h * D) :
    (List.scanl (· + ·) t0 l).Pairwise (fun a b => a * D < b * D) := by
  induction l generalizing t0 with
  | nil => simp
  | cons a l ih =>
    rw [List.scanl_cons, List.pairwise_cons]
    refine ⟨fun t ht => ?_, ih _ (fun h hh => hl h (List.mem_cons_of_mem _ hh))⟩
    have h1 := scanl_ge l (t0 + a) D (fun h hh => hl h (List.mem_cons_of_mem _ hh)) t ht
    have h2 := hl a List.mem_cons_self
    nlinarith

end Oneka
