import Verif.Spec.Order
import Verif.Lemmas.Utilities
import Verif.Lemmas.FilterLog
import Verif.Lemmas.FlVariate

/-!
# The order of the wells
-/

namespace Oneka

theorem XR.add_right (x y z : XR) : x + y + z = x + z + y := by
  show XR.add (XR.add x y) z = XR.add (XR.add x z) y
  cases x <;> cases y <;> cases z <;> simp only [XR.add]
  congr 1
  ring

theorem foldl_reorder {α β : Type} {f : β → α → β} (hf : ∀ b a a', f (f b a) a' = f (f b a') a) {l l' : List α} (h : l.Perm l') (b : β) : l.foldl f b = l'.foldl f b := by
  induction h generalizing b with
  | nil => rfl
  | cons x _ ih => exact ih _
  | swap x y l =>
    show l.foldl f (f (f b y) x) = l.foldl f (f (f b x) y)
    rw [hf]
  | trans _ _ ih1 ih2 => exact (ih1 b).trans (ih2 b)

section
variable {m m' : Aquifer ℝ} (h : m.SameButOrder m')
include h

theorem toX_wells_perm : m.toX.wells.Perm m'.toX.wells := h.wells.map _

theorem potentialWells_reorder (x y : XR) : m'.toX.potentialWells x y = m.toX.potentialWells x y := by
  unfold Aquifer.potentialWells
  refine (foldl_reorder ?_ (toX_wells_perm h) _).symm
  intro b a a'
  exact XR.add_right _ _ _

theorem potential_reorder (x y : XR) : m'.toX.potential x y = m.toX.potential x y := by
  unfold Aquifer.potential
  rw [potentialWells_reorder h]
  have e1 : m'.toX.xo = m.toX.xo := congrArg XR.fin h.xo
  have e2 : m'.toX.yo = m.toX.yo := congrArg XR.fin h.yo
  have e3 : m'.toX.coef = m.toX.coef := by
    funext i
    exact congrArg (fun c : Fin 6 → ℝ => XR.fin (c i)) h.coef
  rw [e1, e2, e3]

theorem discharge_reorder (x y : XR) : m'.toX.discharge x y = m.toX.discharge x y := by
  unfold Aquifer.discharge
  have e1 : m'.toX.xo = m.toX.xo := congrArg XR.fin h.xo
  have e2 : m'.toX.yo = m.toX.yo := congrArg XR.fin h.yo
  have e3 : m'.toX.coef = m.toX.coef := by
    funext i
    exact congrArg (fun c : Fin 6 → ℝ => XR.fin (c i)) h.coef
  simp only [e1, e2, e3]
  exact (foldl_reorder (fun b a a' => Prod.ext (XR.add_right _ _ _) (XR.add_right _ _ _)) (toX_wells_perm h) _).symm

theorem head_reorder (x y : XR) : m'.toX.head x y = m.toX.head x y := by
  unfold Aquifer.head
  have e1 : m'.toX.conductivity = m.toX.conductivity := congrArg XR.fin h.conductivity
  have e2 : m'.toX.thickness = m.toX.thickness := congrArg XR.fin h.thickness
  simp only [potential_reorder h, e1, e2]

theorem velocity_reorder (x y : XR) : m'.toX.velocity x y = m.toX.velocity x y := by
  unfold Aquifer.velocity
  have e1 : m'.toX.porosity = m.toX.porosity := congrArg XR.fin h.porosity
  have e2 : m'.toX.thickness = m.toX.thickness := congrArg XR.fin h.thickness
  simp only [head_reorder h, discharge_reorder h, e1, e2]

theorem velocityConfined_reorder (x y : XR) : m'.toX.velocityConfined x y = m.toX.velocityConfined x y := by
  unfold Aquifer.velocityConfined
  have e1 : m'.toX.porosity = m.toX.porosity := congrArg XR.fin h.porosity
  have e2 : m'.toX.thickness = m.toX.thickness := congrArg XR.fin h.thickness
  simp only [discharge_reorder h, e1, e2]

theorem runVelocity_reorder (c : Bool) (int : ℕ → ℕ → Option PyErr) : runVelocity m' c int = runVelocity m c int := by
  funext k n p
  unfold runVelocity Aquifer.backVelocity
  rw [velocity_reorder h, velocityConfined_reorder h]

theorem fitRow_reorder (xo yo : ℝ) (o : Obs) : m'.fitRow xo yo o = m.fitRow xo yo o := by
  unfold Aquifer.fitRow Aquifer.fosm
  have e : m'.wells.isEmpty = m.wells.isEmpty := by
    rw [Bool.eq_iff_iff, List.isEmpty_iff, List.isEmpty_iff]
    exact ⟨fun e => List.perm_nil.mp (e ▸ h.wells), fun e => List.nil_perm.mp (e ▸ h.wells)⟩
  simp only [potentialWells_reorder h, h.base, h.conductivity, h.thickness, e]

theorem fit_reorder (la : LinAlg) (obs : List Obs) (xo yo : ℝ) :
    (m'.fitRegionalFlow la obs xo yo).2 = (m.fitRegionalFlow la obs xo yo).2 ∧ (m.fitRegionalFlow la obs xo yo).1.SameButOrder (m'.fitRegionalFlow la obs xo yo).1 := by
  have e : m'.constructFit xo yo obs = m.constructFit xo yo obs := by
    induction obs with
    | nil => rfl
    | cons o os ih => simp only [Aquifer.constructFit, fitRow_reorder h, ih]
  unfold Aquifer.fitRegionalFlow
  rw [e]
  cases m.constructFit xo yo obs with
  | error e => exact ⟨rfl, h⟩
  | ok rows =>
    simp only []
    cases Aquifer.computeFit la rows with
    | error e => exact ⟨rfl, h⟩
    | ok r => exact ⟨rfl, ⟨h.base, h.conductivity, h.porosity, h.thickness, h.wells, rfl, rfl, rfl⟩⟩

end

/-! ## Drawing the wells -/

theorem Reorders.length {α : Type} {σ : Equiv.Perm ℕ} {l l' : List α} (h : Reorders σ l l') : l'.length = l.length := by
  have key : ∀ j, j < l'.length ↔ σ j < l.length := fun j => by
    have := h.at_ j
    by_cases hj : j < l'.length
    · rw [List.getElem?_eq_getElem hj] at this
      exact ⟨fun _ => (List.getElem?_eq_some_iff.mp this.symm).1, fun _ => hj⟩
    · rw [List.getElem?_eq_none (not_lt.mp hj)] at this
      exact ⟨fun c => absurd c hj, fun c => absurd c (not_lt.mpr (List.getElem?_eq_none_iff.mp this.symm))⟩
  have key2 : ∀ j, σ j < l.length ↔ j < l.length := fun j => by
    constructor
    · intro c
      by_contra hc
      rw [h.beyond j (not_lt.mp hc)] at c
      exact hc c
    · intro c
      by_contra hc
      have := h.beyond (σ j) (not_lt.mp hc)
      have := σ.injective this
      rw [this] at hc
      exact hc c
  have : ∀ j, j < l'.length ↔ j < l.length := fun j => (key j).trans (key2 j)
  have a := this l.length
  have b := this l'.length
  omega

theorem Reorders.zip_perm {α : Type} {σ : Equiv.Perm ℕ} {l l' : List α} (h : Reorders σ l l') : l.zipIdx.Perm (l'.zipIdx.map fun p => (p.1, σ p.2)) := by
  have nd : ∀ (l : List α), l.zipIdx.Nodup := fun l => by
    refine List.Nodup.of_map Prod.snd ?_
    rw [List.zipIdx_map_snd]
    exact List.nodup_range'
  refine (List.perm_ext_iff_of_nodup (nd _) ((nd _).map ?_)).mpr ?_
  · rintro ⟨a, i⟩ ⟨b, j⟩ e
    simp only [Prod.mk.injEq] at e ⊢
    exact ⟨e.1, σ.injective e.2⟩
  · rintro ⟨a, k⟩
    rw [List.mem_zipIdx_iff_getElem?, List.mem_map]
    constructor
    · intro e
      refine ⟨(a, σ.symm k), ?_, by simp⟩
      rw [List.mem_zipIdx_iff_getElem?]
      show l'[σ.symm k]? = some a
      rw [h.at_, σ.apply_symm_apply]
      exact e
    · rintro ⟨⟨b, j⟩, e1, e2⟩
      rw [List.mem_zipIdx_iff_getElem?] at e1
      simp only [Prod.mk.injEq] at e1 e2
      obtain ⟨rfl, rfl⟩ := e2
      rw [← h.at_]
      exact e1

theorem Reorders.perm {α : Type} {σ : Equiv.Perm ℕ} {l l' : List α} (h : Reorders σ l l') : l.Perm l' := by
  have := h.zip_perm.map Prod.fst
  rwa [List.map_map, show (Prod.fst ∘ fun p : α × ℕ => (p.1, σ p.2)) = Prod.fst from rfl, List.zipIdx_map_fst, List.zipIdx_map_fst] at this

/-- every reordering is given by a permutation -/
theorem reorders_of_perm {α : Type} {l l' : List α} (h : l.Perm l') : ∃ σ, Reorders σ l l' := by
  induction h with
  | nil => exact ⟨1, fun _ => rfl, fun _ _ => rfl⟩
  | @cons x l l' hp ih =>
    obtain ⟨σ, h⟩ := ih
    refine ⟨⟨fun | 0 => 0 | j + 1 => σ j + 1, fun | 0 => 0 | j + 1 => σ.symm j + 1, ?_, ?_⟩, ?_, ?_⟩
    · rintro (_ | j) <;> simp
    · rintro (_ | j) <;> simp
    · rintro (_ | j)
      · rfl
      · exact h.at_ j
    · rintro (_ | j) hj
      · rfl
      · exact congrArg (· + 1) (h.beyond j (Nat.le_of_succ_le_succ hj))
  | swap x y l =>
    refine ⟨Equiv.swap 0 1, ?_, ?_⟩
    · rintro (_ | _ | j)
      · rfl
      · rfl
      · rw [Equiv.swap_apply_of_ne_of_ne (by omega) (by omega)]
        rfl
    · intro j hj
      have : 2 ≤ j := by simp at hj; omega
      exact Equiv.swap_apply_of_ne_of_ne (by omega) (by omega)
  | @trans l1 l2 l3 _ _ ih1 ih2 =>
    obtain ⟨σ1, h1⟩ := ih1
    obtain ⟨σ2, h2⟩ := ih2
    refine ⟨σ2.trans σ1, fun j => ?_, fun j hj => ?_⟩
    · rw [h2.at_, h1.at_]
      rfl
    · show σ1 (σ2 j) = j
      rw [h2.beyond j (h1.length ▸ hj), h1.beyond j hj]

/-- draws of a list of wells, each with its number -/
def drawPairs (q : Dist → ℕ → Except PyErr ℝ) : List (SWell × ℕ) → Except PyErr (List (Well ℝ))
  | [] => .ok []
  | (w, j) :: ws =>
    match q w.q j with
    | .error e => .error e
    | .ok v =>
      match drawPairs q ws with
      | .error e => .error e
      | .ok r => .ok (⟨w.xw, w.yw, w.rw, v⟩ :: r)

theorem drawWells_pairs (q : Dist → ℕ → Except PyErr ℝ) (ws : List SWell) (j : ℕ) : drawWells q ws j = drawPairs q (ws.zipIdx j) := by
  induction ws generalizing j with
  | nil => rfl
  | cons w ws ih => simp only [drawWells, List.zipIdx_cons, drawPairs, ih]; cases q w.q j <;> rfl

theorem drawPairs_map (q : Dist → ℕ → Except PyErr ℝ) (σ : Equiv.Perm ℕ) (l : List (SWell × ℕ)) : drawPairs (fun d j => q d (σ j)) l = drawPairs q (l.map fun p => (p.1, σ p.2)) := by
  induction l with
  | nil => rfl
  | cons p l ih => obtain ⟨w, j⟩ := p; simp only [List.map_cons, drawPairs, ih]

/-- what happens to draws in another order, if there is only one exception they can raise -/
theorem drawPairs_perm {q : Dist → ℕ → Except PyErr ℝ} {e0 : PyErr} {l l' : List (SWell × ℕ)} (h : l.Perm l') (hq : ∀ p ∈ l, ∀ e, q p.1.q p.2 = .error e → e = e0) :
    (drawPairs q l = .error e0 ∧ drawPairs q l' = .error e0) ∨ ∃ r r', drawPairs q l = .ok r ∧ drawPairs q l' = .ok r' ∧ r.Perm r' := by
  induction h with
  | nil => exact .inr ⟨[], [], rfl, rfl, .nil⟩
  | cons p _ ih =>
    obtain ⟨w, j⟩ := p
    simp only [drawPairs]
    cases hw : q w.q j with
    | error e =>
      have := hq (w, j) List.mem_cons_self e hw
      subst this
      exact .inl ⟨rfl, rfl⟩
    | ok v =>
      rcases ih fun p hp => hq p (List.mem_cons_of_mem _ hp) with ⟨h1, h2⟩ | ⟨r, r', h1, h2, h3⟩
      · exact .inl ⟨by simp only [h1], by simp only [h2]⟩
      · exact .inr ⟨⟨w.xw, w.yw, w.rw, v⟩ :: r, ⟨w.xw, w.yw, w.rw, v⟩ :: r', by simp only [h1], by simp only [h2], h3.cons _⟩
  | swap p p' l =>
    obtain ⟨w, j⟩ := p
    obtain ⟨w', j'⟩ := p'
    simp only [drawPairs]
    have e1 : ∀ (l : List (SWell × ℕ)), (∀ p ∈ l, ∀ e, q p.1.q p.2 = .error e → e = e0) → ∀ e, drawPairs q l = .error e → e = e0 := by
      intro l
      induction l with
      | nil => intro _ e he; cases he
      | cons p l ih =>
        intro hp e he
        obtain ⟨w, j⟩ := p
        simp only [drawPairs] at he
        cases hw : q w.q j with
        | error e' =>
          rw [hw] at he
          cases he
          exact hp (w, j) List.mem_cons_self _ hw
        | ok v =>
          rw [hw] at he
          simp only [] at he
          cases hr : drawPairs q l with
          | error e' =>
            rw [hr] at he
            cases he
            exact ih (fun p hp' => hp p (List.mem_cons_of_mem _ hp')) _ hr
          | ok r =>
            rw [hr] at he
            cases he
    have a := hq (w', j') List.mem_cons_self
    have b := hq (w, j) (List.mem_cons_of_mem _ List.mem_cons_self)
    have c := e1 l fun p hp => hq p (List.mem_cons_of_mem _ (List.mem_cons_of_mem _ hp))
    simp only at a b
    cases hw : q w.q j with
    | error e =>
      obtain rfl := b e hw
      cases hw' : q w'.q j' with
      | error e' =>
        obtain rfl := a e' hw'
        exact .inl ⟨rfl, rfl⟩
      | ok v' => exact .inl ⟨rfl, rfl⟩
    | ok v =>
      cases hw' : q w'.q j' with
      | error e' =>
        obtain rfl := a e' hw'
        exact .inl ⟨rfl, rfl⟩
      | ok v' =>
        cases hr : drawPairs q l with
        | error e =>
          obtain rfl := c e hr
          exact .inl ⟨rfl, rfl⟩
        | ok r => exact .inr ⟨_, _, rfl, rfl, .swap _ _ _⟩
  | @trans l1 l2 l3 h12 h23 ih1 ih2 =>
    have hq2 : ∀ p ∈ l2, ∀ e, q p.1.q p.2 = .error e → e = e0 := fun p hp => hq p (h12.mem_iff.mpr hp)
    rcases ih1 hq with ⟨h1, h2⟩ | ⟨r, r', h1, h2, h3⟩
    · rcases ih2 hq2 with ⟨k1, k2⟩ | ⟨r, r', k1, -, -⟩
      · exact .inl ⟨h1, k2⟩
      · rw [h2] at k1; cases k1
    · rcases ih2 hq2 with ⟨k1, k2⟩ | ⟨s, s', k1, k2, k3⟩
      · rw [h2] at k1; cases k1
      · rw [h2] at k1
        cases k1
        exact .inr ⟨_, _, h1, k2, h3.trans k3⟩

theorem sample_proper {d : Dist} (hd : d.Proper) {u : ℝ} (hu : 0 ≤ u ∧ u < 1) {e : PyErr} (h : d.sample u = .error e) : e = .valueError := by
  match d, hd with
  | .const c, _ => cases h
  | .tuple [a, b], _ =>
    rw [exact_pair] at h
    cases h
  | .tuple [a, m, b], _ =>
    by_cases c : a ≤ m ∧ m ≤ b ∧ a < b
    · rw [exact_triple c.1 c.2.1 c.2.2 hu.1 hu.2] at h
      cases h
    · simp only [Dist.sample, Dist.toPy, List.map, generateRandomVariate, npTriangular, PyVal.num] at h
      split_ifs at h with c1 c2 c3 c4
      · cases h; rfl
      · cases h; rfl
      · cases h; rfl
      all_goals
        exfalso
        refine c ?_
        have h1 : ¬ m < a := c1
        have h2 : ¬ b < m := c2
        have h3 : ¬ (a ≤ b ∧ b ≤ a) := c3
        refine ⟨not_lt.mp h1, not_lt.mp h2, ?_⟩
        rw [not_and_or, not_le, not_le] at h3
        rcases h3 with h3 | h3
        · linarith [not_lt.mp h1, not_lt.mp h2]
        · exact h3

theorem mean_proper {d : Dist} (hd : d.Proper) {e : PyErr} (h : d.mean = .error e) : e = .valueError := by
  match d, hd with
  | .const c, _ => cases h
  | .tuple [a, b], _ =>
    rw [exact_mean_pair] at h
    cases h
  | .tuple [a, m, b], _ =>
    rw [exact_mean_triple] at h
    cases h

end Oneka
