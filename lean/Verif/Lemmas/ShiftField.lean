import Verif.Spec.Shift

/-!
# The probability field elsewhere
-/

namespace Oneka

variable {s : ℝ × ℝ}

theorem growLow_shift (t x d g : ℝ) (n k : ℕ) : growLow (x + t) d (g + t) n k = (growLow x d g n k).map fun r => (r.1 + t, r.2) := by
  have key : ∀ t x g r, growLow x d g n k = some r → growLow (x + t) d (g + t) n k = some (r.1 + t, r.2) := by
    intro t x g r h
    refine growLow.partial_correctness x d (fun g n k r => growLow (x + t) d (g + t) n k = some (r.1 + t, r.2)) ?_ g n k r h
    intro f ih g n k r h
    rw [growLow]
    simp only [add_le_add_iff_right]
    split_ifs at h ⊢ with c
    · have := ih _ _ _ _ h
      rw [show g - d + t = g + t - d by ring] at this
      exact this
    · cases h
      rfl
  cases e : growLow x d g n k with
  | some r => exact key t x g r e
  | none =>
    cases e' : growLow (x + t) d (g + t) n k with
    | none => rfl
    | some r =>
      have := key (-t) _ _ _ e'
      rw [add_neg_cancel_right, add_neg_cancel_right, e] at this
      cases this

theorem growHigh_shift (t x d g : ℝ) (n : ℕ) : growHigh (x + t) d (g + t) n = (growHigh x d g n).map fun r => (r.1 + t, r.2) := by
  have key : ∀ t x g r, growHigh x d g n = some r → growHigh (x + t) d (g + t) n = some (r.1 + t, r.2) := by
    intro t x g r h
    refine growHigh.partial_correctness x d (fun g n r => growHigh (x + t) d (g + t) n = some (r.1 + t, r.2)) ?_ g n r h
    intro f ih g n r h
    rw [growHigh]
    simp only [add_le_add_iff_right]
    split_ifs at h ⊢ with c
    · have := ih _ _ _ h
      rw [show g + d + t = g + t + d by ring] at this
      exact this
    · cases h
      rfl
  cases e : growHigh x d g n with
  | some r => exact key t x g r e
  | none =>
    cases e' : growHigh (x + t) d (g + t) n with
    | none => rfl
    | some r =>
      have := key (-t) _ _ _ e'
      rw [add_neg_cancel_right, add_neg_cancel_right, e] at this
      cases this

theorem new_shift (dx dy xo yo : ℝ) : PField.new dx dy (some (xo + s.1)) (some (yo + s.2)) = (PField.new dx dy (some xo) (some yo)).map (PField.shift s) := by
  unfold PField.new
  split_ifs
  · rfl
  · rfl
  · simp only [Except.map, PField.shift, Option.map_some, Body.shift]
    congr 4 <;> ring

theorem expand_shift (f : PField ℝ) (x0 x1 y0 y1 : ℝ) : (f.shift s).expand (x0 + s.1) (x1 + s.1) (y0 + s.2) (y1 + s.2) = (f.expand x0 x1 y0 y1).map (Except.map (PField.shift s)) := by
  unfold PField.expand
  have hc : (f.shift s).ncols = f.ncols := rfl
  have hr : (f.shift s).nrows = f.nrows := rfl
  simp only [add_lt_add_iff_right, hc, hr]
  split_ifs with h1 h2 h3
  · rfl
  · rfl
  · simp only [PField.shift, Option.map_some, Except.map, Body.shift]
    have e1 : x1 + s.1 - (x0 + s.1 - f.deltax) = x1 - (x0 - f.deltax) := by ring
    have e2 : y1 + s.2 - (y0 + s.2 - f.deltay) = y1 - (y0 - f.deltay) := by ring
    rw [e1, e2]
    congr 4 <;> ring
  · cases hb : f.body with
    | none => simp [PField.shift, hb, Except.map]
    | some b =>
      simp only [PField.shift, hb, Option.map_some, Body.shift, growLow_shift, growHigh_shift]
      cases growLow x0 f.deltax b.xmin f.ncols 0 with
      | none => rfl
      | some r1 =>
        obtain ⟨bx0, nc, cs⟩ := r1
        simp only [Option.map_some]
        cases growHigh x1 f.deltax b.xmax nc with
        | none => rfl
        | some r2 =>
          obtain ⟨bx1, nc'⟩ := r2
          simp only [Option.map_some]
          cases growLow y0 f.deltay b.ymin f.nrows 0 with
          | none => rfl
          | some r3 =>
            obtain ⟨by0, nr, rs⟩ := r3
            simp only [Option.map_some]
            cases growHigh y1 f.deltay b.ymax nr with
            | none => rfl
            | some r4 =>
              obtain ⟨by1, nr'⟩ := r4
              simp only [Option.map_some]
              split_ifs
              · cases (Grid.full nr' nc' false).blit rs f.nrows cs f.ncols b.rgrid <;> cases (Grid.full nr' nc' (0:ℝ)).blit rs f.nrows cs f.ncols b.pgrid <;> rfl
              · rfl

theorem distance_shift (np : Bool) (ax ay bx by' cx cy : ℝ) (u v : ℝ) : distancesquared np (ax + u) (ay + v) (bx + u) (by' + v) (cx + u) (cy + v) = distancesquared np ax ay bx by' cx cy := by
  unfold distancesquared
  simp only [add_sub_add_right_eq_sub]

theorem insertCell_shift (f : PField ℝ) (b : Body ℝ) (ax ay bx by' u2 : ℝ) (g : Grid Bool) (i j : ℤ) :
    (f.shift s).insertCell (b.shift s) (ax + s.1) (ay + s.2) (bx + s.1) (by' + s.2) u2 g i j = f.insertCell b ax ay bx by' u2 g i j := by
  unfold PField.insertCell
  have e1 : (b.shift s).xmin + (j : ℝ) * (f.shift s).deltax = b.xmin + j * f.deltax + s.1 := by simp only [Body.shift, PField.shift]; ring
  have e2 : (b.shift s).ymin + (i : ℝ) * (f.shift s).deltay = b.ymin + i * f.deltay + s.2 := by simp only [Body.shift, PField.shift]; ring
  rw [e1, e2, distance_shift]

theorem pyMin2_shift (a b t : ℝ) : pyMin2 (a + t) (b + t) = pyMin2 a b + t := by
  unfold pyMin2
  simp only [add_lt_add_iff_right]
  split_ifs <;> rfl

theorem pyMax2_shift (a b t : ℝ) : pyMax2 (a + t) (b + t) = pyMax2 a b + t := by
  unfold pyMax2
  simp only [add_lt_add_iff_right]
  split_ifs <;> rfl

theorem insert_shift (f : PField ℝ) (ax ay bx by' u : ℝ) :
    (f.shift s).insert (ax + s.1) (ay + s.2) (bx + s.1) (by' + s.2) u = (f.insert ax ay bx by' u).map (PField.shift s) := by
  unfold PField.insert
  cases hb : f.body with
  | none => simp [PField.shift, hb, Except.map]
  | some b =>
    have hb' : (f.shift s).body = some (b.shift s) := by simp [PField.shift, hb]
    simp only [hb', insertCell_shift, pyMin2_shift, pyMax2_shift]
    have e1 : ∀ p : ℝ, p + s.1 - u - (b.shift s).xmin = p - u - b.xmin := by intro p; simp only [Body.shift]; ring
    have e2 : ∀ p : ℝ, p + s.1 + u - (b.shift s).xmin = p + u - b.xmin := by intro p; simp only [Body.shift]; ring
    have e3 : ∀ p : ℝ, p + s.2 - u - (b.shift s).ymin = p - u - b.ymin := by intro p; simp only [Body.shift]; ring
    have e4 : ∀ p : ℝ, p + s.2 + u - (b.shift s).ymin = p + u - b.ymin := by intro p; simp only [Body.shift]; ring
    have e5 : (f.shift s).deltax = f.deltax := rfl
    have e6 : (f.shift s).deltay = f.deltay := rfl
    have e7 : (f.shift s).ncols = f.ncols := rfl
    have e8 : (f.shift s).nrows = f.nrows := rfl
    have e9 : (b.shift s).rgrid = b.rgrid := rfl
    simp only [e1, e2, e3, e4, e5, e6, e7, e8, e9]
    generalize List.foldlM (m := Except PyErr) _ b.rgrid _ = z
    cases z <;> rfl

theorem rasterLoop_shift (x y : List ℝ) (u : ℝ) (l : List ℕ) (f : PField ℝ) :
    PField.rasterLoop (x.map (· + s.1)) (y.map (· + s.2)) u l (f.shift s) = ((PField.rasterLoop x y u l f).1.shift s, (PField.rasterLoop x y u l f).2) := by
  induction l generalizing f with
  | nil => rfl
  | cons i l ih =>
    simp only [PField.rasterLoop, List.getElem?_map]
    cases x[i]? with
    | none => rfl
    | some ax =>
      cases y[i]? with
      | none => rfl
      | some ay =>
        cases x[i+1]? with
        | none => rfl
        | some bx =>
          cases y[i+1]? with
          | none => rfl
          | some by' =>
            simp only [Option.map_some, insert_shift]
            cases f.insert ax ay bx by' u with
            | error e => rfl
            | ok f' => exact ih f'

theorem pyMin_shift (l : List ℝ) (t : ℝ) : pyMin (l.map (· + t)) = (pyMin l).map (· + t) := by
  cases l with
  | nil => rfl
  | cons a l =>
    simp only [pyMin, List.map_cons, Option.map_some, Option.some.injEq]
    induction l generalizing a with
    | nil => rfl
    | cons b l ih =>
      simp only [List.map_cons, List.foldl_cons, add_lt_add_iff_right]
      split_ifs
      · exact ih b
      · exact ih a

theorem pyMax_shift (l : List ℝ) (t : ℝ) : pyMax (l.map (· + t)) = (pyMax l).map (· + t) := by
  cases l with
  | nil => rfl
  | cons a l =>
    simp only [pyMax, List.map_cons, Option.map_some, Option.some.injEq]
    induction l generalizing a with
    | nil => rfl
    | cons b l ih =>
      simp only [List.map_cons, List.foldl_cons, add_lt_add_iff_right]
      split_ifs
      · exact ih b
      · exact ih a

theorem rasterize_shift (f : PField ℝ) (x y : List ℝ) (u : ℝ) :
    (f.shift s).rasterize (x.map (· + s.1)) (y.map (· + s.2)) u = (f.rasterize x y u).map fun r => (r.1.shift s, r.2) := by
  unfold PField.rasterize
  simp only [pyMin_shift, pyMax_shift, List.length_map]
  cases pyMin x with
  | none => rfl
  | some x0 =>
    cases pyMax x with
    | none => rfl
    | some x1 =>
      cases pyMin y with
      | none => rfl
      | some y0 =>
        cases pyMax y with
        | none => rfl
        | some y1 =>
          simp only [Option.map_some, expand_shift]
          cases f.expand x0 x1 y0 y1 with
          | none => rfl
          | some r =>
            cases r with
            | error e => rfl
            | ok f1 => simp only [Option.map_some, Except.map, rasterLoop_shift]

theorem register_shift (f : PField ℝ) (w : ℝ) : (f.shift s).register w = (f.register w).map (PField.shift s) := by
  unfold PField.register
  cases hb : f.body with
  | none => simp [PField.shift, hb, Except.map]
  | some b =>
    have hb' : (f.shift s).body = some (b.shift s) := by simp [PField.shift, hb]
    simp only [hb']
    have e1 : (b.shift s).rgrid = b.rgrid := rfl
    have e2 : (b.shift s).pgrid = b.pgrid := rfl
    simp only [e1, e2]
    split_ifs <;> rfl

end Oneka
