import Verif.Model.AnyCapturezone
import Verif.Lemmas.Binary64Path
import Verif.Lemmas.Binary64Field
import Verif.Lemmas.FlZone
import Verif.Lemmas.FlStarts

/-! # Capture zones with binary64 numbers -/

namespace Oneka
open Aquifer

section
variable [LibM]

theorem zoneAngles_fl (n : ℕ) : zoneAngles (F := Fl) n = flAngles n := rfl

theorem zoneStart_fl (x y r θ : Fl) : zoneStart x y r θ = flStart x y r θ := rfl

theorem zonePaths_fl (x y r D u tol ms : Fl) (fe : Fl × Fl → Except PyErr (Fl × Fl)) (l : List Fl) (f : PField Fl) : zonePaths x y r D u tol ms fe l f = flCaptureLoop x y r D u tol ms fe l f := by
  induction l generalizing f with
  | nil => rfl
  | cons θ l ih =>
    unfold zonePaths flCaptureLoop
    rw [zoneStart_fl]
    cases computeBacktrace (flStart x y r θ).1 (flStart x y r θ).2 D tol ms (fun _ => fe) with
    | none => rfl
    | some t =>
      simp only
      cases f.rasterize (t.vertices.map Prod.fst) (t.vertices.map Prod.snd) u with
      | none => rfl
      | some p =>
        obtain ⟨f', e | e⟩ := p
        · rfl
        · exact ih f'

theorem zone_fl (x y r : Fl) (n : ℕ) (D : Fl) (f : PField Fl) (u w tol ms : Fl) (fe : Fl × Fl → Except PyErr (Fl × Fl)) : zone x y r n D f u w tol ms fe = flCapturezone x y r n D f u w tol ms fe := by
  unfold zone flCapturezone
  rw [zonePaths_fl, zoneAngles_fl]
  cases flCaptureLoop x y r D u tol ms fe (flAngles n) f with
  | none => rfl
  | some p =>
    obtain ⟨f', e | e⟩ := p
    · rfl
    · simp only
      cases f'.register w <;> rfl

theorem zoneModels_fl (x y r : Fl) (n : ℕ) (D u tol ms : Fl) (c : Bool) (l : List (Aquifer Fl)) (f : PField Fl) : zoneModels x y r n D u tol ms c l f = flZoneLoop x y r n D u tol ms c l f := by
  induction l generalizing f with
  | nil => rfl
  | cons m l ih =>
    unfold zoneModels flZoneLoop
    rw [zone_fl]
    cases flCapturezone x y r n D f u ((1 : ℕ) : Fl) tol ms (m.backVelocity c) with
    | none => rfl
    | some p =>
      obtain ⟨f', e | e⟩ := p
      · rfl
      · exact ih f'

/-- with numbers of 53 digits, the code for any kind of numbers is that of C105 -/
theorem zones_eq_flZones (x y r : Fl) (n : ℕ) (D u d tol ms : Fl) (c : Bool) (l : List (Aquifer Fl)) : zones x y r n D u d tol ms c l = flZones x y r n D u d tol ms c l := by
  unfold zones flZones
  cases PField.new d d (some x) (some y) with
  | error e => rfl
  | ok f0 =>
    simp only [zoneModels_fl]
    cases flZoneLoop x y r n D u tol ms c l f0 with
    | none => rfl
    | some p => obtain ⟨f', e | e⟩ := p <;> rfl

end

section
variable {F : Type} [Add F] [Sub F] [Mul F] [Div F] [LT F] [DecidableLT F] [PyMath F] {fe : ℕ → F × F → Except PyErr (F × F)}

/-- the velocity has been computed at all vertices of a trace without warning -/
theorem vertices_answered {xs ys D tol maxstep : F} {r : Trace F} (hw : r.warning = none) (hr : computeBacktrace xs ys D tol maxstep fe = some r) :
    ∀ v ∈ r.vertices, ∃ n k, fe n v = .ok k := by
  cases hk : fe 0 (xs, ys) with
  | error e =>
    unfold computeBacktrace at hr
    rw [hk] at hr
    obtain rfl := Option.some.inj hr
    simp at hw
  | ok k1 =>
    rw [computeBacktrace_ok _ _ _ _ _ _ _ hk] at hr
    obtain ⟨k, hr⟩ := (tloop_eq_some _ _ _).mp hr
    have h0 : ∀ v ∈ (⟨PyMath.q 0, PyMath.q (1/10) * PyMath.sign D, (xs, ys), k1, 1, [(xs, ys)], []⟩ : TState F).vs, ∃ n k, fe n v = .ok k := by
      intro v hv
      rw [List.mem_singleton.mp hv]
      exact ⟨_, _, hk⟩
    revert hr h0
    generalize (⟨PyMath.q 0, PyMath.q (1/10) * PyMath.sign D, (xs, ys), k1, 1, [(xs, ys)], []⟩ : TState F) = s
    induction k generalizing s with
    | zero => simp [tfuel]
    | succ k ih =>
      intro hr h0
      simp only [tfuel] at hr
      unfold titer at hr
      split_ifs at hr
      · simp only at hr
        cases he : trial fe s.n s.xy s.k1 (clipDt D s.t s.dt) with
        | error e =>
          rw [he] at hr
          obtain rfl := Option.some.inj hr
          simp at hw
        | ok x =>
          rw [he] at hr
          obtain ⟨xyt, k7, est, ds⟩ := x
          obtain ⟨k2, k3, k4, k5, k6, h2, h3, h4, h5, h6, e7, h7, -, -⟩ := trial_evals he
          simp only at hr
          split_ifs at hr
          · refine ih _ hr fun v hv => ?_
            rcases List.mem_append.mp hv with hv | hv
            · exact h0 v hv
            · rw [List.mem_singleton.mp hv]
              exact ⟨_, _, h7⟩
          · exact ih _ hr h0
      · obtain rfl := Option.some.inj hr
        exact h0

end

theorem Is64.to64 {b : B64} {x : Fl} (h : Is64 b x) : b = x.to64 := by
  have hf := b.isFloat
  cases b with
  | mk v hv =>
    obtain rfl : v = .fin x.val := h
    unfold Fl.to64 B64.of
    congr 1
    exact hv.symm

theorem Forall₂.to64 {l : List (B64 × B64)} {l' : List (Fl × Fl)} (h : List.Forall₂ Is64Pair l l') : l.map Prod.fst = (l'.map Prod.fst).map Fl.to64 ∧ l.map Prod.snd = (l'.map Prod.snd).map Fl.to64 := by
  induction h with
  | nil => exact ⟨rfl, rfl⟩
  | cons h _ ih => exact ⟨by simp only [List.map_cons, h.1.to64, ih.1], by simp only [List.map_cons, h.2.to64, ih.2]⟩

/-! ## The starting points -/

section
variable [LibM] {g k : ℤ}

theorem Same.cos {a : B64} {x : Fl} (ha : Is64 a x) (h : Rng g k (LibM.cos x).val) (hg : g ≤ 1022) (hk : k ≤ 1023) : Same g k (PyMath.cos a) (PyMath.cos x) := by
  have e : (PyMath.cos a : B64) = B64.of (.fin (LibM.cos x).val) := by
    show (match a.v with | .fin x => B64.of (.fin (LibM.cos (Fl.of x)).val) | _ => B64.of .nan) = _
    have e' : Fl.of x.val = x := Fl.ext' x.isFloat
    rw [ha]
    simp only [e']
  rw [e]
  exact Same.of_fl h hg hk

theorem Same.sin {a : B64} {x : Fl} (ha : Is64 a x) (h : Rng g k (LibM.sin x).val) (hg : g ≤ 1022) (hk : k ≤ 1023) : Same g k (PyMath.sin a) (PyMath.sin x) := by
  have e : (PyMath.sin a : B64) = B64.of (.fin (LibM.sin x).val) := by
    show (match a.v with | .fin x => B64.of (.fin (LibM.sin (Fl.of x)).val) | _ => B64.of .nan) = _
    have e' : Fl.of x.val = x := Fl.ext' x.isFloat
    rw [ha]
    simp only [e']
  rw [e]
  exact Same.of_fl h hg hk

omit [LibM] in
theorem zoneAngles_eq {F : Type} [Zero F] [Add F] [Sub F] [Mul F] [Div F] [NatCast F] [PyMath F] (n : ℕ) :
    zoneAngles (F := F) n = (List.range n).map fun (k : ℕ) => (k : F) * ((((2 : ℕ) : F) * PyMath.pi - 0) / ((n : ℕ) : F)) + 0 := by
  unfold zoneAngles
  rw [List.range_succ, List.map_append, List.map_singleton, List.dropLast_concat]
  refine List.map_congr_left fun k hk => ?_
  have := List.mem_range.mp hk
  rw [if_neg (by omega)]
  rfl

theorem angles_same (htrig : TrigAccurate) {n : ℕ} (hn : n ≤ 2 ^ 40) : List.Forall₂ Is64 (zoneAngles (F := B64) n) (flAngles n) := by
  rw [← zoneAngles_fl, zoneAngles_eq, zoneAngles_eq, List.forall₂_map_left_iff, List.forall₂_map_right_iff, List.forall₂_same]
  intro j hj
  have hj := List.mem_range.mp hj
  have bd : ∀ i : ℕ, i ≤ n → |(i:ℝ)| ≤ 2 ^ (40 : ℤ) := by
    intro i hi
    rw [abs_of_nonneg (Nat.cast_nonneg i)]
    have : (i:ℝ) ≤ ((2 ^ 40 : ℕ) : ℝ) := by exact_mod_cast hi.trans hn
    refine this.trans_eq ?_
    norm_num
  have p : Same 51 2 (PyMath.pi : B64) (PyMath.pi : Fl) := by
    have h1 := round53_mono (show (2:ℝ) ^ (1:ℤ) ≤ Real.pi by rw [zpow_one]; linarith [Real.pi_gt_three])
    have h2 := round53_mono (show Real.pi ≤ (2:ℝ) ^ (2:ℤ) by have := Real.pi_lt_four; norm_num; linarith)
    rw [round53_zpow, ← htrig.pi] at h1 h2
    have h0 : (0:ℝ) < (LibM.pi).val := (two_zpow_pos 1).trans_le h1
    have r : Rng (-1 + 52) 2 (LibM.pi).val := Rng.of_val (by rw [abs_of_pos h0]; simpa using h1) (by rw [abs_of_pos h0]; exact h2)
    exact Same.of_fl (x := LibM.pi) (r.mono (by norm_num) le_rfl) (by norm_num) (by norm_num)
  have t : Same 0 2 ((2 : ℕ) : B64) ((2 : ℕ) : Fl) := Same.nat 2 (by norm_num) (by norm_num)
  have tp : Same 51 4 (((2 : ℕ) : B64) * PyMath.pi) (((2 : ℕ) : Fl) * PyMath.pi) := (t.mul p (by norm_num) (by norm_num)).mono (by norm_num) (by norm_num)
  have tz := tp.sub (Same.zero (g := 51) (k := 4) (by norm_num) (by norm_num)) (by norm_num) (by norm_num)
  have hn0 : ((n : ℕ) : Fl).val ≠ 0 := by
    have := Fl.of_nat n (hn.trans (by norm_num))
    show (Fl.of ((n:ℕ):ℝ)).val ≠ 0
    rw [this]
    exact Nat.cast_ne_zero.mpr (by omega)
  have dv := tz.div (Same.nat (k := 40) n (bd n le_rfl) (by norm_num)) hn0 (by norm_num) (by norm_num)
  have ml := (Same.nat (k := 40) j (bd j hj.le) (by norm_num)).mul dv (by norm_num) (by norm_num)
  exact (ml.add (Same.zero (by norm_num) (by norm_num)) (by norm_num) (by norm_num)).1

theorem trig_rng {x : Fl} (h : x.val = 0 ∨ (2 ^ (-100 : ℤ) ≤ |x.val| ∧ |x.val| ≤ 2)) : Rng 152 1 x.val := by
  rcases h with h | ⟨h1, h2⟩
  · rw [h]; exact Rng.zero _ _
  · exact (Rng.of_val (c := 100) h1 (by rw [zpow_one]; exact h2)).mono (by norm_num) le_rfl

/-- the starting points are the same -/
theorem start_same {n : ℕ} (hr : TrigRange n) {x y r : Fl} (hx : x.Ordinary) (hy : y.Ordinary) (hrt : r.Ordinary) {a : B64} {θ : Fl} (hθ : θ ∈ flAngles n) (ha : Is64 a θ) :
    Is64Pair (zoneStart x.to64 y.to64 r.to64 a) (flStart x y r θ) := by
  obtain ⟨h1, h2⟩ := hr θ hθ
  have one : Same 92 40 ((1 : ℕ) : B64) ((1 : ℕ) : Fl) := (Same.nat (k := 0) 1 (by norm_num) (by norm_num)).mono (by norm_num) (by norm_num)
  have rad := hrt.same.add one (by norm_num) (by norm_num)
  have cx := rad.mul (Same.cos ha (trig_rng h1) (by norm_num) (by norm_num)) (by norm_num) (by norm_num)
  have cy := rad.mul (Same.sin ha (trig_rng h2) (by norm_num) (by norm_num)) (by norm_num) (by norm_num)
  exact ⟨(cx.add (hx.same.mono (by norm_num) (by norm_num)) (by norm_num) (by norm_num)).1, (cy.add (hy.same.mono (by norm_num) (by norm_num)) (by norm_num) (by norm_num)).1⟩

/-! ## The loops -/

/-- the trace from the starting point for an angle is the same, with ordinary vertices -/
def PathSame (x y r D tol maxstep : Fl) (fe64 : B64 × B64 → Except PyErr (B64 × B64)) (fe : Fl × Fl → Except PyErr (Fl × Fl)) (a : B64) (θ : Fl) : Prop :=
  ∃ t64 t, computeBacktrace (zoneStart x.to64 y.to64 r.to64 a).1 (zoneStart x.to64 y.to64 r.to64 a).2 D.to64 tol.to64 maxstep.to64 (fun _ => fe64) = some t64 ∧
    computeBacktrace (zoneStart x y r θ).1 (zoneStart x y r θ).2 D tol maxstep (fun _ => fe) = some t ∧ List.Forall₂ Is64Pair t64.vertices t.vertices ∧ ∀ v ∈ t.vertices, v.1.Ordinary ∧ v.2.Ordinary

theorem zonePaths_same {x y r D u tol maxstep : Fl} {fe64 : B64 × B64 → Except PyErr (B64 × B64)} {fe : Fl × Fl → Except PyErr (Fl × Fl)} (hu : u.Ordinary) {l64 : List B64} {l : List Fl}
    (h : List.Forall₂ (PathSame x y r D tol maxstep fe64 fe) l64 l) {c : PField B64} {f : PField Fl} (hf : FieldSame c f) :
    OptAlike OutcomeSame (zonePaths x.to64 y.to64 r.to64 D.to64 u.to64 tol.to64 maxstep.to64 fe64 l64 c) (zonePaths x y r D u tol maxstep fe l f) := by
  induction h generalizing c f with
  | nil => exact ⟨hf, rfl⟩
  | cons h _ ih =>
    obtain ⟨t64, t, e1, e2, hv, ho⟩ := h
    unfold zonePaths
    simp only [e1, e2]
    obtain ⟨v1, v2⟩ := Forall₂.to64 hv
    rw [v1, v2]
    have s := rasterize_same (t.vertices.map Prod.fst) (t.vertices.map Prod.snd) (u := u) (fun a ha => by obtain ⟨v, hv, rfl⟩ := List.mem_map.mp ha; exact (ho v hv).1)
      (fun a ha => by obtain ⟨v, hv, rfl⟩ := List.mem_map.mp ha; exact (ho v hv).2) hu hf
    cases e3 : f.rasterize (t.vertices.map Prod.fst) (t.vertices.map Prod.snd) u with
    | none =>
      cases e4 : c.rasterize ((t.vertices.map Prod.fst).map Fl.to64) ((t.vertices.map Prod.snd).map Fl.to64) u.to64 with
      | none => trivial
      | some _ => rw [e3, e4] at s; exact s.elim
    | some p =>
      cases e4 : c.rasterize ((t.vertices.map Prod.fst).map Fl.to64) ((t.vertices.map Prod.snd).map Fl.to64) u.to64 with
      | none => rw [e3, e4] at s; exact s.elim
      | some q =>
        rw [e3, e4] at s
        obtain ⟨f', o⟩ := p
        obtain ⟨c', o'⟩ := q
        obtain ⟨s1, s2⟩ := s
        obtain rfl : o' = o := s2
        cases o' with
        | error e => exact ⟨s1, rfl⟩
        | ok _ => exact ih s1

theorem zone_same {x y r D u w tol maxstep : Fl} {fe64 : B64 × B64 → Except PyErr (B64 × B64)} {fe : Fl × Fl → Except PyErr (Fl × Fl)} (hu : u.Ordinary) (hw : w.Ordinary) {n : ℕ}
    (h : List.Forall₂ (PathSame x y r D tol maxstep fe64 fe) (zoneAngles n) (zoneAngles n)) {c : PField B64} {f : PField Fl} (hf : FieldSame c f) :
    OptAlike OutcomeSame (zone x.to64 y.to64 r.to64 n D.to64 c u.to64 w.to64 tol.to64 maxstep.to64 fe64) (zone x y r n D f u w tol maxstep fe) := by
  have s := zonePaths_same hu h hf
  unfold zone
  cases e3 : zonePaths x y r D u tol maxstep fe (zoneAngles n) f with
  | none =>
    cases e4 : zonePaths x.to64 y.to64 r.to64 D.to64 u.to64 tol.to64 maxstep.to64 fe64 (zoneAngles n) c with
    | none => trivial
    | some _ => rw [e3, e4] at s; exact s.elim
  | some p =>
    cases e4 : zonePaths x.to64 y.to64 r.to64 D.to64 u.to64 tol.to64 maxstep.to64 fe64 (zoneAngles n) c with
    | none => rw [e3, e4] at s; exact s.elim
    | some q =>
      rw [e3, e4] at s
      obtain ⟨f', o⟩ := p
      obtain ⟨c', o'⟩ := q
      obtain ⟨s1, s2⟩ := s
      obtain rfl : o' = o := s2
      cases o' with
      | error e => exact ⟨s1, rfl⟩
      | ok _ =>
        have t := register_same s1 hw
        simp only
        cases e5 : f'.register w with
        | error e =>
          cases e6 : c'.register w.to64 with
          | error e' => rw [e5, e6] at t; obtain rfl : e' = e := t; exact ⟨s1, rfl⟩
          | ok _ => rw [e5, e6] at t; exact t.elim
        | ok f2 =>
          cases e6 : c'.register w.to64 with
          | error e' => rw [e5, e6] at t; exact t.elim
          | ok c2 => rw [e5, e6] at t; exact ⟨t, rfl⟩

theorem zoneModels_same {x y r D u tol maxstep : Fl} (hu : u.Ordinary) {n : ℕ} {confined : Bool} (ms : List (Aquifer Fl))
    (h : ∀ m ∈ ms, List.Forall₂ (PathSame x y r D tol maxstep (m.to64.backVelocity confined) (m.backVelocity confined)) (zoneAngles n) (zoneAngles n)) {c : PField B64} {f : PField Fl} (hf : FieldSame c f) :
    OptAlike OutcomeSame (zoneModels x.to64 y.to64 r.to64 n D.to64 u.to64 tol.to64 maxstep.to64 confined (ms.map Aquifer.to64) c) (zoneModels x y r n D u tol maxstep confined ms f) := by
  have o1 : ((1 : ℕ) : Fl).val = 1 := by
    have := Fl.of_nat 1 (by norm_num)
    rw [Nat.cast_one] at this
    show (Fl.of ((1:ℕ):ℝ)).val = 1
    rw [Nat.cast_one]; exact this
  have hw : ((1 : ℕ) : Fl).Ordinary := Or.inr (by rw [o1]; norm_num)
  have hw' : ((1 : ℕ) : B64) = ((1 : ℕ) : Fl).to64 := Is64.to64 (Same.nat (k := 0) 1 (by norm_num) (by norm_num)).1
  induction ms generalizing c f with
  | nil => exact ⟨hf, rfl⟩
  | cons m ms ih =>
    have s := zone_same (x := x) (y := y) (r := r) hu hw (h m (by simp)) hf
    simp only [List.map_cons, zoneModels]
    rw [hw']
    cases e3 : zone x y r n D f u ((1 : ℕ) : Fl) tol maxstep (m.backVelocity confined) with
    | none =>
      cases e4 : zone x.to64 y.to64 r.to64 n D.to64 c u.to64 ((1 : ℕ) : Fl).to64 tol.to64 maxstep.to64 (m.to64.backVelocity confined) with
      | none => trivial
      | some _ => rw [e3, e4] at s; exact s.elim
    | some p =>
      cases e4 : zone x.to64 y.to64 r.to64 n D.to64 c u.to64 ((1 : ℕ) : Fl).to64 tol.to64 maxstep.to64 (m.to64.backVelocity confined) with
      | none => rw [e3, e4] at s; exact s.elim
      | some q =>
        rw [e3, e4] at s
        obtain ⟨f', o⟩ := p
        obtain ⟨c', o'⟩ := q
        obtain ⟨s1, s2⟩ := s
        obtain rfl : o' = o := s2
        cases o' with
        | error e => exact ⟨s1, rfl⟩
        | ok _ => exact ih (fun m hm => h m (by simp [hm])) s1

theorem zones_same {x y r D u d tol maxstep : Fl} (hx : x.Ordinary) (hy : y.Ordinary) (hd : d.Ordinary) (hu : u.Ordinary) {n : ℕ} {confined : Bool} (ms : List (Aquifer Fl))
    (h : ∀ m ∈ ms, List.Forall₂ (PathSame x y r D tol maxstep (m.to64.backVelocity confined) (m.backVelocity confined)) (zoneAngles n) (zoneAngles n)) :
    OptAlike (Alike FieldSame) (zones x.to64 y.to64 r.to64 n D.to64 u.to64 d.to64 tol.to64 maxstep.to64 confined (ms.map Aquifer.to64)) (zones x y r n D u d tol maxstep confined ms) := by
  have s := new_same (xo := some x) (yo := some y) hd hd (fun a ha => by obtain rfl := Option.some.inj ha; exact hx) (fun a ha => by obtain rfl := Option.some.inj ha; exact hy)
  simp only [Option.map_some] at s
  unfold zones
  cases e1 : PField.new d d (some x) (some y) with
  | error e =>
    cases e2 : PField.new d.to64 d.to64 (some x.to64) (some y.to64) with
    | error e' => rw [e1, e2] at s; exact s
    | ok _ => rw [e1, e2] at s; exact s.elim
  | ok f0 =>
    cases e2 : PField.new d.to64 d.to64 (some x.to64) (some y.to64) with
    | error e' => rw [e1, e2] at s; exact s.elim
    | ok c0 =>
      rw [e1, e2] at s
      have s := zoneModels_same (x := x) (y := y) (r := r) (D := D) (tol := tol) (maxstep := maxstep) (c := c0) (f := f0) hu ms h s
      simp only
      cases e3 : zoneModels x y r n D u tol maxstep confined ms f0 with
      | none =>
        cases e4 : zoneModels x.to64 y.to64 r.to64 n D.to64 u.to64 tol.to64 maxstep.to64 confined (ms.map Aquifer.to64) c0 with
        | none => trivial
        | some _ => rw [e3, e4] at s; exact s.elim
      | some p =>
        cases e4 : zoneModels x.to64 y.to64 r.to64 n D.to64 u.to64 tol.to64 maxstep.to64 confined (ms.map Aquifer.to64) c0 with
        | none => rw [e3, e4] at s; exact s.elim
        | some q =>
          rw [e3, e4] at s
          obtain ⟨f', o⟩ := p
          obtain ⟨c', o'⟩ := q
          obtain ⟨s1, s2⟩ := s
          obtain rfl : o' = o := s2
          cases o' with
          | error e => exact rfl
          | ok _ => exact s1

omit [LibM] in
theorem back_reverse {F : Type} [Add F] [Sub F] [Mul F] [Div F] [Neg F] [LT F] [DecidableLT F] [LE F] [DecidableLE F] [PyMath F] (m : Aquifer F) (c : Bool) : m.backVelocity c = m.reverseVelocity c := by
  funext p
  unfold Aquifer.backVelocity Aquifer.reverseVelocity
  cases c with
  | true => rfl
  | false =>
    simp only [Bool.false_eq_true, if_false]
    cases m.velocity p.1 p.2 <;> rfl

end
end Oneka
