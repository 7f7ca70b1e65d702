import Verif.Lemmas.FlField

/-! # What holds of `ProbabilityField` in any arithmetic, and bounds that survive rounding -/

namespace Oneka

section loops
variable {F : Type} [Add F] [Sub F] [LE F] [DecidableLE F]

theorem growLow_returned (x d g : F) (n s : ℕ) (r : F × ℕ × ℕ) (h : growLow x d g n s = some r) :
    ∃ m, r.2.1 = n + m ∧ r.2.2 = s + m ∧ ¬ x ≤ r.1 := by
  refine growLow.partial_correctness x d (fun _ n s r => ∃ m, r.2.1 = n + m ∧ r.2.2 = s + m ∧ ¬ x ≤ r.1) ?_ g n s r h
  intro rec ih g n s r h
  split_ifs at h with hc
  · obtain ⟨m, h1, h2, h3⟩ := ih _ _ _ _ h
    exact ⟨m + 1, by omega, by omega, h3⟩
  · obtain rfl := Option.some.inj h
    exact ⟨0, rfl, rfl, hc⟩

theorem growHigh_returned (x d g : F) (n : ℕ) (r : F × ℕ) (h : growHigh x d g n = some r) :
    ∃ m, r.2 = n + m ∧ ¬ r.1 ≤ x := by
  refine growHigh.partial_correctness x d (fun _ n r => ∃ m, r.2 = n + m ∧ ¬ r.1 ≤ x) ?_ g n r h
  intro rec ih g n r h
  split_ifs at h with hc
  · obtain ⟨m, h1, h3⟩ := ih _ _ _ h
    exact ⟨m + 1, by omega, h3⟩
  · obtain rfl := Option.some.inj h
    exact ⟨0, rfl, hc⟩

/-- A loop whose step is lost never ends. -/
theorem growLow_stuck {x d g : F} (h : x ≤ g) (hg : g - d = g) (n s : ℕ) : growLow x d g n s = none := by
  by_contra hc
  obtain ⟨r, hr⟩ := Option.ne_none_iff_exists'.mp hc
  have : ∀ g' n s r, growLow x d g' n s = some r → g' ≠ g := by
    intro g' n s r h'
    refine growLow.partial_correctness x d (fun g' _ _ _ => g' ≠ g) ?_ g' n s r h'
    intro rec ih g' n s r h' e
    subst e
    rw [if_pos h, hg] at h'
    exact ih _ _ _ _ h' rfl
  exact this g n s r hr rfl

end loops

namespace PField
variable {F : Type} [Zero F] [Add F] [Sub F] [Mul F] [Div F] [NatCast F] [IntCast F] [LT F] [LE F] [DecidableLT F] [DecidableLE F] [DecidableEq F]

/-- The arrays have the shape that the field announces. -/
structure Shaped (f : PField F) : Prop where
  empty : f.body = none → f.nrows = 0 ∧ f.ncols = 0
  grid : ∀ b, f.body = some b → 3 ≤ f.nrows ∧ 3 ≤ f.ncols ∧ b.pgrid.rows = f.nrows ∧ b.pgrid.cols = f.ncols ∧
    b.rgrid.rows = f.nrows ∧ b.rgrid.cols = f.ncols

/-- What `expand` does to a field with a grid, in any arithmetic. -/
structure Grown (f : PField F) (b : Body F) (x0 x1 y0 y1 : F) (f' : PField F) (b' : Body F) (r c : ℕ) : Prop where
  body : f'.body = some b'
  dx : f'.deltax = f.deltax
  dy : f'.deltay = f.deltay
  left : ¬ x0 ≤ b'.xmin
  right : ¬ b'.xmax ≤ x1
  bottom : ¬ y0 ≤ b'.ymin
  top : ¬ b'.ymax ≤ y1
  total : b'.totalWeight = b.totalWeight
  rows : r + f.nrows ≤ f'.nrows
  cols : c + f.ncols ≤ f'.ncols
  pval : ∀ i j, i < f'.nrows → j < f'.ncols → b'.pgrid.val i j = if r ≤ i ∧ i < r + f.nrows ∧ c ≤ j ∧ j < c + f.ncols then b.pgrid.val (i - r) (j - c) else 0
  rval : ∀ i j, i < f'.nrows → j < f'.ncols → b'.rgrid.val i j = if r ≤ i ∧ i < r + f.nrows ∧ c ≤ j ∧ j < c + f.ncols then b.rgrid.val (i - r) (j - c) else false
  shaped : f'.Shaped

variable [PyFloor F]

theorem expand_grown (f : PField F) (b : Body F) (hf : f.Shaped) (hb : f.body = some b) (x0 x1 y0 y1 : F) (hx : ¬ x1 < x0) (hy : ¬ y1 < y0)
    {R : Except PyErr (PField F)} (h : f.expand x0 x1 y0 y1 = some R) : ∃ f' b' r c, R = .ok f' ∧ Grown f b x0 x1 y0 y1 f' b' r c := by
  obtain ⟨hr3, hc3, hpr, hpc, hrr, hrc⟩ := hf.grid b hb
  have hne : ¬ (f.ncols = 0 ∨ f.nrows = 0) := by omega
  unfold expand at h
  rw [if_neg hx, if_neg hy, if_neg hne, hb] at h
  dsimp only at h
  cases e1 : growLow x0 f.deltax b.xmin f.ncols 0 with
  | none => rw [e1] at h; simp at h
  | some q1 =>
  obtain ⟨G1, n1, c⟩ := q1
  obtain ⟨ml, h1, h1', k1⟩ := growLow_returned _ _ _ _ _ _ e1
  rw [e1] at h; dsimp only at h
  cases e2 : growHigh x1 f.deltax b.xmax n1 with
  | none => rw [e2] at h; simp at h
  | some q2 =>
  obtain ⟨G2, n2⟩ := q2
  obtain ⟨mr, h2, k2⟩ := growHigh_returned _ _ _ _ _ e2
  rw [e2] at h; dsimp only at h
  cases e3 : growLow y0 f.deltay b.ymin f.nrows 0 with
  | none => rw [e3] at h; simp at h
  | some q3 =>
  obtain ⟨G3, n3, r⟩ := q3
  obtain ⟨mb, h3, h3', k3⟩ := growLow_returned _ _ _ _ _ _ e3
  rw [e3] at h; dsimp only at h
  cases e4 : growHigh y1 f.deltay b.ymax n3 with
  | none => rw [e4] at h; simp at h
  | some q4 =>
  obtain ⟨G4, n4⟩ := q4
  obtain ⟨mt, h4, k4⟩ := growHigh_returned _ _ _ _ _ e4
  rw [e4] at h
  dsimp only at h h1 h1' h2 h3 h3' h4 k1 k2 k3 k4
  by_cases hch : n4 ≠ f.nrows ∨ n2 ≠ f.ncols
  · simp only [if_pos hch] at h
    have g1 : min (r + f.nrows) n4 - r = f.nrows := by omega
    have g2 : min (c + f.ncols) n2 - c = f.ncols := by omega
    simp only [Grid.blit, Grid.full, hrr, hrc, hpr, hpc, g1, g2, and_self, if_true, Option.some.injEq] at h
    refine ⟨_, _, r, c, h.symm, ⟨rfl, rfl, rfl, k1, k2, k3, k4, rfl, by dsimp only; omega, by dsimp only; omega, ?_, ?_, ⟨by simp, ?_⟩⟩⟩
    · intro i j _ _; rfl
    · intro i j _ _; rfl
    · intro c' hc'
      obtain rfl := Option.some.inj hc'
      exact ⟨by dsimp only; omega, by dsimp only; omega, rfl, rfl, rfl, rfl⟩
  · simp only [if_neg hch, Option.some.injEq] at h
    have z1 : c = 0 := by omega
    have z2 : r = 0 := by omega
    refine ⟨_, _, r, c, h.symm, ⟨rfl, rfl, rfl, k1, k2, k3, k4, rfl, by dsimp only; omega, by dsimp only; omega, ?_, ?_, ⟨by simp, ?_⟩⟩⟩
    · intro i j hi hj; dsimp only at hi hj; rw [if_pos (by omega), z1, z2]; rfl
    · intro i j hi hj; dsimp only at hi hj; rw [if_pos (by omega), z1, z2]; rfl
    · intro c' hc'
      obtain rfl := Option.some.inj hc'
      exact ⟨hr3, hc3, hpr, hpc, hrr, hrc⟩

theorem expand_fresh (f : PField F) (hf : f.Shaped) (hb : f.body = none) (x0 x1 y0 y1 : F) (hx : ¬ x1 < x0) (hy : ¬ y1 < y0) :
    ∃ f' b', f.expand x0 x1 y0 y1 = some (.ok f') ∧ f'.body = some b' ∧ b'.xmin = x0 - f.deltax ∧ b'.ymin = y0 - f.deltay ∧ b'.totalWeight = 0 ∧
      (∀ i j, b'.pgrid.val i j = 0) ∧ (∀ i j, b'.rgrid.val i j = false) ∧ f'.Shaped := by
  obtain ⟨hn, hc⟩ := hf.empty hb
  unfold expand
  rw [if_neg hx, if_neg hy, if_pos (Or.inl hc)]
  refine ⟨_, _, rfl, rfl, rfl, rfl, rfl, fun _ _ => rfl, fun _ _ => rfl, ⟨by simp, ?_⟩⟩
  intro c hc'
  obtain rfl := Option.some.inj hc'
  exact ⟨by dsimp only; omega, by dsimp only; omega, rfl, rfl, rfl, rfl⟩

theorem new_shaped {dx dy : F} {xo yo : Option F} {f : PField F} (h : new dx dy xo yo = .ok f) : f.Shaped := by
  unfold new at h
  split_ifs at h
  split at h
  · obtain rfl := Except.ok.inj h
    refine ⟨by simp, ?_⟩
    intro b hb
    obtain rfl := Option.some.inj hb
    exact ⟨le_refl _, le_refl _, rfl, rfl, rfl, rfl⟩
  · obtain rfl := Except.ok.inj h
    exact ⟨fun _ => ⟨rfl, rfl⟩, by simp⟩

theorem expand_shaped {f : PField F} (hf : f.Shaped) {x0 x1 y0 y1 : F} {R : Except PyErr (PField F)} (h : f.expand x0 x1 y0 y1 = some R) :
    (R = .error .rangeError ∧ (x1 < x0 ∨ y1 < y0)) ∨ ∃ f', R = .ok f' ∧ f'.Shaped ∧ f'.body ≠ none := by
  by_cases hx : x1 < x0
  · unfold expand at h
    rw [if_pos hx] at h
    exact Or.inl ⟨(Option.some.inj h).symm, Or.inl hx⟩
  · by_cases hy : y1 < y0
    · unfold expand at h
      rw [if_neg hx, if_pos hy] at h
      exact Or.inl ⟨(Option.some.inj h).symm, Or.inr hy⟩
    · right
      cases hb : f.body with
      | none =>
        obtain ⟨f', b', e, hb', _, _, _, _, _, s⟩ := expand_fresh f hf hb x0 x1 y0 y1 hx hy
        rw [e] at h
        exact ⟨f', (Option.some.inj h).symm, s, by rw [hb']; simp⟩
      | some b =>
        obtain ⟨f', b', r, c, e, g⟩ := expand_grown f b hf hb x0 x1 y0 y1 hx hy h
        exact ⟨f', e, g.shaped, by rw [g.body]; simp⟩

theorem insert_shaped {f : PField F} (hf : f.Shaped) (ax ay bx «by» u : F) {R : Except PyErr (PField F)} (h : f.insert ax ay bx «by» u = R) :
    (R = .error .attributeError ∧ f.body = none) ∨ ∃ f' b g', f.body = some b ∧ f' = { f with body := some { b with rgrid := g' } } ∧ R = .ok f' ∧ f'.Shaped := by
  cases hb : f.body with
  | none => left; unfold insert at h; rw [hb] at h; exact ⟨h.symm, rfl⟩
  | some b =>
    right
    obtain ⟨hr3, hc3, hpr, hpc, hrr, hrc⟩ := hf.grid b hb
    obtain ⟨g', e, r, c, _⟩ := f.insert_marks b hb hrr hrc ax ay bx «by» u
    rw [e] at h
    refine ⟨_, b, g', rfl, rfl, h.symm, ⟨by simp, ?_⟩⟩
    intro c' hc'
    obtain rfl := Option.some.inj hc'
    exact ⟨hr3, hc3, hpr, hpc, r, c⟩

theorem rasterLoop_shaped (x y : List F) (u : F) (is : List ℕ) : ∀ (f : PField F) (b : Body F), f.Shaped → f.body = some b →
    (∀ i ∈ is, i + 1 < x.length) → ∀ {f' : PField F} {e : Except PyErr Unit}, rasterLoop x y u is f = (f', e) →
    f'.Shaped ∧ (∃ g', f' = { f with body := some { b with rgrid := g' } }) ∧ (e = .ok () ∨ (e = .error .indexError ∧ y.length < x.length)) := by
  induction is with
  | nil =>
    intro f b hf hb _ f' e h
    simp only [rasterLoop, Prod.mk.injEq] at h
    obtain ⟨rfl, rfl⟩ := h
    refine ⟨hf, ⟨b.rgrid, ?_⟩, Or.inl rfl⟩
    cases f
    simp only at hb
    subst hb
    rfl
  | cons i is ih =>
    intro f b hf hb hlen f' e h
    have hi := hlen i (by simp)
    have self : ∃ g', f = { f with body := some { b with rgrid := g' } } := by
      refine ⟨b.rgrid, ?_⟩
      cases f
      simp only at hb
      subst hb
      rfl
    simp only [rasterLoop] at h
    split at h
    · rename_i ax ay bx by' _ _ _ _
      rcases insert_shaped hf ax ay bx by' u rfl with ⟨_, hn⟩ | ⟨f1, b1, g1, hb1, e1, e2, s1⟩
      · rw [hb] at hn; simp at hn
      · rw [e2] at h
        obtain rfl := Option.some.inj (hb.symm.trans hb1)
        dsimp only at h
        obtain ⟨s, ⟨g2, e3⟩, r⟩ := ih f1 { b with rgrid := g1 } s1 (by rw [e1]) (fun k hk => hlen k (by simp [hk])) h
        exact ⟨s, ⟨g2, by rw [e3, e1]⟩, r⟩
    · rename_i hne
      obtain ⟨rfl, rfl⟩ := Prod.mk.inj h
      refine ⟨hf, self, Or.inr ⟨rfl, ?_⟩⟩
      by_contra hc
      exact hne x[i] y[i] x[i+1] y[i+1] (List.getElem?_eq_getElem _) (List.getElem?_eq_getElem _) (List.getElem?_eq_getElem _) (List.getElem?_eq_getElem _)

end PField
end Oneka
