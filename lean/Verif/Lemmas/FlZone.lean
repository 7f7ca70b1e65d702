import Verif.Spec.RoundingZone
import Verif.Lemmas.CaptureExact
import Verif.Lemmas.RunReach
import Verif.Lemmas.FlFollow
import Verif.Lemmas.FlBounds
import Verif.Lemmas.FlExample

/-! Helper lemmas for C105. -/

namespace Oneka

open PField

/-- every time up to the last is within `H` after a vertex -/
theorem vertex_at {t H m te : ℝ} {l : List (ℝ × (Fl × Fl))} : ∀ {a : ℝ × (Fl × Fl)}, (a :: l).IsChain (StrideFl H m) → (a.1 :: l.map Prod.fst).getLast? = some te → a.1 ≤ t → t ≤ te → 0 ≤ H →
    ∃ b ∈ a :: l, b.1 ≤ t ∧ t ≤ b.1 + H := by
  induction l with
  | nil =>
    intro a _ hl h0 h1 hH
    simp only [List.map_nil, List.getLast?_singleton, Option.some.injEq] at hl
    exact ⟨a, by simp, h0, by linarith⟩
  | cons c l ih =>
    intro a hc hl h0 h1 hH
    rw [List.isChain_cons_cons] at hc
    by_cases ht : t < c.1
    · exact ⟨a, by simp, h0, by linarith [hc.1.2.1]⟩
    · rw [List.map_cons, List.getLast?_cons_cons] at hl
      obtain ⟨b, hb, h2⟩ := ih hc.2 hl (not_lt.mp ht) h1 hH
      exact ⟨b, List.mem_cons_of_mem _ hb, h2⟩

/-- a place of a track that does not stay in one place is an end of a segment -/
theorem end_of_segment {α : Type} {v : α} : ∀ {l : List α}, v ∈ l → ∀ {w : α}, w ∈ l → v ≠ w → ∃ x y, [x, y] <:+: l ∧ x ≠ y ∧ (x = v ∨ y = v)
  | [], hv, _, _, _ => by simp at hv
  | [a], hv, w, hw, hne => by
    simp only [List.mem_singleton] at hv hw
    exact absurd (hv.trans hw.symm) hne
  | c :: d :: l, hv, w, hw, hne => by
    by_cases h1 : v ∈ d :: l
    · by_cases h2 : ∃ z ∈ d :: l, v ≠ z
      · obtain ⟨z, hz, hvz⟩ := h2
        obtain ⟨x, y, h3, h4⟩ := end_of_segment h1 hz hvz
        exact ⟨x, y, h3.trans (List.suffix_cons c _).isInfix, h4⟩
      · push Not at h2
        have hd := h2 d (by simp)
        have hc : w = c := by
          rcases List.mem_cons.mp hw with h | h
          · exact h
          · exact absurd (h2 w h) hne
        exact ⟨c, d, ⟨[], l, rfl⟩, by rw [← hc, ← hd]; exact hne.symm, Or.inr hd.symm⟩
    · have hc : v = c := by simpa [h1] using hv
      refine ⟨c, d, ⟨[], l, rfl⟩, ?_, Or.inl hc.symm⟩
      rintro rfl
      exact h1 (by simp [hc])

/-- as `near_iff`, with rounding -/
theorem near_iff_fl {f : ℝ × ℝ → ℝ × ℝ} {start : Fl × Fl} {D T te M H m E δ : ℝ} {P : ℝ → ℝ × ℝ} (hP : Pathline f (fv start) T P) (hM : ∀ t, 0 ≤ t → t ≤ T → ‖f (P t)‖ ≤ M) (hD : 0 ≤ D) (hDT : D ≤ T)
    (hM0 : 0 ≤ M) (hH : 0 ≤ H) (hE0 : 0 ≤ E) (hm : m ≤ M * H) {path : List (ℝ × (Fl × Fl))} (hch : ((0, start) :: path).IsChain (StrideFl H m)) (hlast : (0 :: path.map Prod.fst).getLast? = some te)
    (hte : D - te ≤ T - D) (hE : ∀ v ∈ path, v.1 ≤ T ∧ ‖fv v.2 - P v.1‖ ≤ E) (hδ : 3/2 * (E + M * H + M * (T - D)) ≤ δ) (hmv : ∃ t, 0 ≤ t ∧ t ≤ D ∧ E + M * H + M * (T - D) < ‖P t - P 0‖) (u X Y : ℝ) :
    (Passes P D (u - δ) X Y → NearTrack ((start :: path.map Prod.snd).map fv) u X Y) ∧ (0 ≤ u → NearTrack ((start :: path.map Prod.snd).map fv) u X Y → Passes P D (u + δ) X Y) := by
  have hT : 0 ≤ T := hD.trans hDT
  have hall : ∀ v ∈ (0, start) :: path, v.1 ≤ T ∧ ‖fv v.2 - P v.1‖ ≤ E := by
    intro v hv
    rcases List.mem_cons.mp hv with rfl | hv
    · refine ⟨hT, ?_⟩
      rw [hP.1]
      simpa using hE0
    · exact hE v hv
  have hpos : ∀ v ∈ (0, start) :: path, 0 ≤ v.1 := by
    have h := hch.imp (S := fun a b : ℝ × (Fl × Fl) => a.1 < b.1) fun _ _ h => h.1
    haveI : IsTrans (ℝ × (Fl × Fl)) (fun a b => a.1 < b.1) := ⟨fun _ _ _ => lt_trans⟩
    rw [List.isChain_iff_pairwise, List.pairwise_cons] at h
    intro v hv
    rcases List.mem_cons.mp hv with rfl | hv
    · exact le_rfl
    · exact (h.1 v hv).le
  have hmem : ∀ v ∈ (0, start) :: path, fv v.2 ∈ (start :: path.map Prod.snd).map fv := fun v hv =>
    List.mem_map_of_mem (show v.2 ∈ ((0, start) :: path).map Prod.snd from List.mem_map_of_mem hv)
  -- a vertex near every place of the pathline
  have at_time : ∀ t, 0 ≤ t → t ≤ D → ∃ b ∈ (0, start) :: path, ‖P t - fv b.2‖ ≤ E + M * H + M * (T - D) := by
    intro t h0 h1
    have hte0 : 0 ≤ te := by
      have : te ∈ ((0, start) :: path).map Prod.fst := List.mem_of_getLast? hlast
      obtain ⟨v, hv, rfl⟩ := List.mem_map.mp this
      exact hpos v hv
    obtain ⟨b, hb, h2, h3⟩ := vertex_at (t := min t te) hch hlast (le_min h0 hte0) (min_le_right _ _) hH
    refine ⟨b, hb, ?_⟩
    have d1 : ‖P (min t te) - P b.1‖ ≤ M * H := (pathline_lip hP hM (hpos b hb) h2 ((min_le_left _ _).trans (h1.trans hDT))).trans (mul_le_mul_of_nonneg_left (by linarith) hM0)
    have d0 : ‖P t - P (min t te)‖ ≤ M * (T - D) := by
      refine (pathline_lip hP hM (le_min h0 hte0) (min_le_left _ _) (h1.trans hDT)).trans (mul_le_mul_of_nonneg_left ?_ hM0)
      rcases min_choice t te with h | h <;> rw [h] <;> linarith
    have d2 := (hall b hb).2
    have d3 := norm_sub_le_norm_sub_add_norm_sub (P t) (P (min t te)) (fv b.2)
    have d4 := norm_sub_le_norm_sub_add_norm_sub (P (min t te)) (P b.1) (fv b.2)
    rw [norm_sub_rev (P b.1)] at d4
    linarith
  constructor
  · rintro ⟨t, h0, h1, h2⟩
    obtain ⟨b, hb, d3⟩ := at_time t h0 h1
    obtain ⟨t', h0', h1', hmv⟩ := hmv
    obtain ⟨c, hc, d3'⟩ := at_time t' h0' h1'
    have d4 := euclid_triangle (fv b.2) (P t) (X, Y)
    have d5 := euclid_le_norm (fv b.2) (P t)
    have d6 : euclid (fv b.2) (X, Y) < u := by linarith
    have hne : fv c.2 ≠ fv start := by
      intro h
      rw [h, ← hP.1] at d3'
      linarith
    obtain ⟨x, y, h3, h4, h5⟩ : ∃ x y, [x, y] <:+: (start :: path.map Prod.snd).map fv ∧ x ≠ y ∧ (x = fv b.2 ∨ y = fv b.2) := by
      by_cases h : fv b.2 = fv start
      · exact end_of_segment (hmem b hb) (hmem c hc) (by rw [h]; exact hne.symm)
      · exact end_of_segment (hmem b hb) (w := fv start) (by simp) h
    have hu : 0 < u := lt_of_le_of_lt (Real.sqrt_nonneg _) d6
    rw [euclid, Real.sqrt_lt' hu] at d6
    refine ⟨x, y, h3, h4, ?_⟩
    rcases h5 with rfl | rfl
    · exact ⟨0, le_rfl, zero_le_one, by simpa using d6⟩
    · exact ⟨1, zero_le_one, le_rfl, by simpa using d6⟩
  · rintro hu ⟨x, y, hxy, -, s, hs0, hs1, hs⟩
    have hxy' : [x, y] <:+: ((0, start) :: path).map (fun v => fv v.2) := by
      simpa [Function.comp_def] using hxy
    obtain ⟨b, c, hbc, rfl, rfl⟩ := pair_of_map hxy'
    have hbm : b ∈ (0, start) :: path := hbc.subset (by simp)
    have hst : StrideFl H m b c := by
      have := hch.infix hbc
      rw [List.isChain_cons_cons] at this
      exact this.1
    have hb0 := hpos b hbm
    refine ⟨min b.1 D, le_min hb0 hD, min_le_right _ _, ?_⟩
    have d0 : ‖P b.1 - P (min b.1 D)‖ ≤ M * (T - D) := by
      refine (pathline_lip hP hM (le_min hb0 hD) (min_le_left _ _) (hall b hbm).1).trans (mul_le_mul_of_nonneg_left ?_ hM0)
      have := (hall b hbm).1
      rcases min_choice b.1 D with h | h <;> rw [h] <;> linarith
    set z : ℝ × ℝ := ((fv b.2).1 + s * ((fv c.2).1 - (fv b.2).1), (fv b.2).2 + s * ((fv c.2).2 - (fv b.2).2)) with hz
    have e1 : euclid z (X, Y) < u := by
      have hu' : 0 < u := by
        refine lt_of_le_of_ne hu fun h => ?_
        rw [← h] at hs
        have := add_nonneg (sq_nonneg (X - ((fv b.2).1 + s * ((fv c.2).1 - (fv b.2).1)))) (sq_nonneg (Y - ((fv b.2).2 + s * ((fv c.2).2 - (fv b.2).2))))
        simp at hs
        linarith
      rw [euclid, Real.sqrt_lt' hu']
      exact hs
    have e2 : euclid (fv b.2) z ≤ euclid (fv b.2) (fv c.2) := by
      unfold euclid
      apply Real.sqrt_le_sqrt
      simp only [hz]
      have : s^2 ≤ 1 := by nlinarith
      nlinarith [sq_nonneg ((fv c.2).1 - (fv b.2).1), sq_nonneg ((fv c.2).2 - (fv b.2).2)]
    have e3 := euclid_triangle (P (min b.1 D)) (fv b.2) (X, Y)
    have e4 := euclid_triangle (fv b.2) z (X, Y)
    have e5 := euclid_le_norm (P (min b.1 D)) (fv b.2)
    have e6 := (hall b hbm).2
    have e7 := euclid_le_norm (fv b.2) (fv c.2)
    have e8 := hst.2.2
    have e9 := norm_sub_le_norm_sub_add_norm_sub (fv b.2) (P b.1) (P (min b.1 D))
    linarith

/-- where a track passes within a spacing, there is a node -/
theorem near_reached {track seen : List (ℝ × ℝ)} {xo yo dx dy u X Y : ℝ} (h : NearTrack track u X Y) (hs : track ⊆ seen) (u0 : 0 ≤ u) (hx : u ≤ dx) (hy : u ≤ dy) :
    Reached xo yo dx dy seen X Y := by
  obtain ⟨a, b, hab, -, s, s0, s1, h⟩ := h
  have ha : a ∈ seen := hs (hab.subset (by simp))
  have hb : b ∈ seen := hs (hab.subset (by simp))
  have h1 := abs_lt_of_sq_lt_sq' (a := X - (a.1 + s * (b.1 - a.1))) (b := u) (by nlinarith [sq_nonneg (Y - (a.2 + s * (b.2 - a.2)))]) u0
  have h2 := abs_lt_of_sq_lt_sq' (a := Y - (a.2 + s * (b.2 - a.2))) (b := u) (by nlinarith [sq_nonneg (X - (a.1 + s * (b.1 - a.1)))]) u0
  have key : ∀ (g : ℝ × ℝ → ℝ) (Z o d : ℝ), u ≤ d → -u < Z - (g a + s * (g b - g a)) → Z - (g a + s * (g b - g a)) < u → InReach o d (seen.map g) Z := by
    intro g Z o d hd h3 h4
    have p1 := mul_nonneg s0 (sub_nonneg.mpr s1)
    rcases le_total (g a) (g b) with h | h
    · have q1 := mul_nonneg s0 (sub_nonneg.mpr h)
      have q2 := mul_nonneg (sub_nonneg.mpr s1) (sub_nonneg.mpr h)
      exact ⟨Or.inr ⟨_, List.mem_map_of_mem ha, by linarith⟩, Or.inr ⟨_, List.mem_map_of_mem hb, by linarith⟩⟩
    · have q1 := mul_nonneg s0 (sub_nonneg.mpr h)
      have q2 := mul_nonneg (sub_nonneg.mpr s1) (sub_nonneg.mpr h)
      exact ⟨Or.inr ⟨_, List.mem_map_of_mem hb, by linarith⟩, Or.inr ⟨_, List.mem_map_of_mem ha, by linarith⟩⟩
  exact ⟨key Prod.fst X xo dx hx h1.1 h1.2, key Prod.snd Y yo dy hy h2.1 h2.2⟩

theorem choose_list {α β : Type} {l : List α} : ∀ {R : ℕ → α → β → Prop}, (∀ i a, l[i]? = some a → ∃ b, R i a b) →
    ∃ l' : List β, l'.length = l.length ∧ ∀ i a b, l[i]? = some a → l'[i]? = some b → R i a b := by
  induction l with
  | nil => intro R _; exact ⟨[], rfl, fun i a b h => by simp at h⟩
  | cons x l ih =>
    intro R h
    obtain ⟨y, hy⟩ := h 0 x rfl
    obtain ⟨l', h1, h2⟩ := ih (R := fun i => R (i + 1)) fun i a ha => h (i + 1) a (by simpa using ha)
    refine ⟨y :: l', by simp [h1], fun i a b ha hb => ?_⟩
    cases i with
    | zero =>
      simp only [List.getElem?_cons_zero, Option.some.injEq] at ha hb
      subst ha hb
      exact hy
    | succ i =>
      simp only [List.getElem?_cons_succ] at ha hb
      exact h2 i a b ha hb

theorem forall2_of_get {α β : Type} {R : α → β → Prop} {l : List α} : ∀ {l' : List β}, l'.length = l.length → (∀ (i : ℕ) a b, l[i]? = some a → l'[i]? = some b → R a b) → List.Forall₂ R l l' := by
  induction l with
  | nil =>
    intro l' h _
    obtain rfl := List.length_eq_zero_iff.mp h
    exact .nil
  | cons x l ih =>
    intro l' h hR
    cases l' with
    | nil => simp at h
    | cons y l' =>
      exact .cons (hR 0 x y rfl rfl) (ih (by simpa using h) fun i a b ha hb => hR (i + 1) a b (by simpa using ha) (by simpa using hb))

theorem flAngles_length [LibM] (n : ℕ) : (flAngles n).length = n := by
  unfold flAngles flLinspace
  simp

/-! ### the calls on the field -/

theorem rasterize_ok {f f' : PField Fl} {R : Except PyErr Unit} {vs : List (Fl × Fl)} {u : Fl} (hf : f.Shaped) (hv : vs ≠ [])
    (h : f.rasterize (vs.map Prod.fst) (vs.map Prod.snd) u = some (f', R)) : R = .ok () ∧ f'.Shaped ∧ f'.body ≠ none := by
  have ok : R = .ok () := by
    cases R with
    | ok v => rfl
    | error e =>
      have := (step_held (P := False) ⟨hf, fun h => h.elim⟩ (.rasterize (vs.map Prod.fst) (vs.map Prod.snd) u) (fun h => h.elim) h).2.2 e rfl
      rcases this with ⟨-, h | h⟩ | ⟨-, h⟩
      · exact absurd (by simpa using h) hv
      · exact absurd (by simpa using h) hv
      · simp at h
  refine ⟨ok, ?_⟩
  unfold rasterize at h
  split at h
  · split at h
    · simp at h
    · rename_i e he
      obtain ⟨-, rfl⟩ := Prod.mk.inj (Option.some.inj h)
      simp at ok
    · rename_i f1 h1
      rcases expand_shaped hf h1 with ⟨h2, -⟩ | ⟨f2, h2, s2, b2⟩
      · simp at h2
      · obtain rfl := Except.ok.inj h2
        obtain ⟨b, hb⟩ := Option.ne_none_iff_exists'.mp b2
        obtain ⟨s3, ⟨g', e3⟩, -⟩ := rasterLoop_shaped _ _ u _ f1 b s2 hb (fun i hi => by
          rw [List.mem_range] at hi; omega) (Option.some.inj h)
        exact ⟨s3, by rw [e3]; simp⟩
  · obtain ⟨-, rfl⟩ := Prod.mk.inj (Option.some.inj h)
    simp at ok

theorem register_ok {f : PField Fl} (w : Fl) (hf : f.Shaped) (hb : f.body ≠ none) : ∃ f', f.register w = .ok f' ∧ f'.Shaped ∧ f'.body ≠ none := by
  obtain ⟨b, hb⟩ := Option.ne_none_iff_exists'.mp hb
  obtain ⟨h1, h2, h3, h4, h5, h6⟩ := hf.grid b hb
  unfold register
  rw [hb]
  dsimp only
  rw [if_pos ⟨h5.trans h3.symm, h6.trans h4.symm⟩]
  refine ⟨_, rfl, ⟨by simp, ?_⟩, by simp⟩
  intro b' hb'
  obtain rfl := Option.some.inj hb'
  exact ⟨h1, h2, h3, h4, h5, h6⟩

theorem run_append_fl (f : PField Fl) (cs ds : List (Call Fl)) : f.run (cs ++ ds) = (f.run cs).bind fun g => g.run ds := by
  induction cs generalizing f with
  | nil => rfl
  | cons c cs ih =>
    simp only [List.cons_append, run]
    cases f.step c with
    | none => rfl
    | some x => exact ih x.1

variable [LibM]

/-- the calls of one realization on the field -/
def zoneEvents (u w : Fl) (rs : List (Trace Fl)) : List (Event Fl) := (rs.map fun r => Event.track r.vertices u) ++ [Event.register w]

/-- the traces of one realization -/
def ZoneTraces (xt yt rt D tol maxstep : Fl) (feval : Fl × Fl → Except PyErr (Fl × Fl)) (θs : List Fl) (rs : List (Trace Fl)) : Prop :=
  List.Forall₂ (fun θ r => computeBacktrace (flStart xt yt rt θ).1 (flStart xt yt rt θ).2 D tol maxstep (fun _ => feval) = some r) θs rs

theorem captureLoop_run {xt yt rt D u tol maxstep : Fl} {feval : Fl × Fl → Except PyErr (Fl × Fl)} {θs : List Fl} {rs : List (Trace Fl)} (h : ZoneTraces xt yt rt D tol maxstep feval θs rs) :
    ∀ {f f' : PField Fl}, f.Shaped → f.body ≠ none → f.run ((rs.map fun r => Event.track r.vertices u).map Event.call) = some f' →
      flCaptureLoop xt yt rt D u tol maxstep feval θs f = some (f', .ok ()) ∧ f'.Shaped ∧ f'.body ≠ none := by
  induction h with
  | nil =>
    intro f f' hf hb hr
    obtain rfl := Option.some.inj hr
    exact ⟨rfl, hf, hb⟩
  | @cons θ r θs rs ht _ ih =>
    intro f f' hf hb hr
    simp only [List.map_cons, run, Event.call, step] at hr
    rw [flCaptureLoop, ht]
    dsimp only
    cases hs : f.rasterize (r.vertices.map Prod.fst) (r.vertices.map Prod.snd) u with
    | none => rw [hs] at hr; simp at hr
    | some x =>
      obtain ⟨f1, R⟩ := x
      rw [hs] at hr
      dsimp only at hr
      obtain ⟨rfl, s1, b1⟩ := rasterize_ok hf (by rw [trace_vertices ht]; simp) hs
      exact ih s1 b1 hr

theorem capturezone_run {xt yt rt D u w tol maxstep : Fl} {n : ℕ} {feval : Fl × Fl → Except PyErr (Fl × Fl)} {rs : List (Trace Fl)} (h : ZoneTraces xt yt rt D tol maxstep feval (flAngles n) rs)
    {f f' : PField Fl} (hf : f.Shaped) (hb : f.body ≠ none) (hr : f.run ((zoneEvents u w rs).map Event.call) = some f') :
    flCapturezone xt yt rt n D f u w tol maxstep feval = some (f', .ok ()) ∧ f'.Shaped ∧ f'.body ≠ none := by
  unfold zoneEvents at hr
  rw [List.map_append, run_append_fl] at hr
  cases h1 : f.run ((rs.map fun r => Event.track r.vertices u).map Event.call) with
  | none => rw [h1] at hr; simp at hr
  | some f1 =>
    rw [h1] at hr
    obtain ⟨e, s1, b1⟩ := captureLoop_run h hf hb h1
    obtain ⟨f2, e2, s2, b2⟩ := register_ok w s1 b1
    simp only [Option.bind_some, List.map_cons, List.map_nil, run, Event.call, step, e2, lift, Option.some.injEq] at hr
    subst hr
    unfold flCapturezone
    rw [e]
    dsimp only
    rw [e2]
    exact ⟨rfl, s2, b2⟩

theorem zoneLoop_run {xt yt rt D u tol maxstep : Fl} {n : ℕ} {confined : Bool} {ms : List (Aquifer Fl)} {RS : List (List (Trace Fl))}
    (h : List.Forall₂ (fun m rs => ZoneTraces xt yt rt D tol maxstep (Aquifer.backVelocity m confined) (flAngles n) rs) ms RS) :
    ∀ {f f' : PField Fl}, f.Shaped → f.body ≠ none → f.run ((RS.flatMap (zoneEvents u ((1 : ℕ) : Fl))).map Event.call) = some f' →
      flZoneLoop xt yt rt n D u tol maxstep confined ms f = some (f', .ok ()) := by
  induction h with
  | nil =>
    intro f f' _ _ hr
    obtain rfl := Option.some.inj hr
    rfl
  | @cons m rs ms RS ht _ ih =>
    intro f f' hf hb hr
    rw [List.flatMap_cons, List.map_append, run_append_fl] at hr
    cases h1 : f.run ((zoneEvents u ((1 : ℕ) : Fl) rs).map Event.call) with
    | none => rw [h1] at hr; simp at hr
    | some f1 =>
      rw [h1] at hr
      obtain ⟨e, s1, b1⟩ := capturezone_run ht hf hb h1
      rw [flZoneLoop, e]
      exact ih s1 b1 hr

omit [LibM] in
theorem one_fl : ((1 : ℕ) : Fl).val = 1 := by
  change (Fl.of ((1 : ℕ) : ℝ)).val = 1
  rw [Fl.of_nat 1 (by norm_num), Nat.cast_one]

omit [LibM] in
theorem zone_exact (u : Fl) (δ : ℝ) (rs : List (Trace Fl)) : (zoneEvents u ((1 : ℕ) : Fl) rs).map (Event.exact δ) =
    ((rs.map fun r => r.vertices.map fv).map fun vs => Event.track vs (u.val + δ)) ++ [Event.register 1] := by
  unfold zoneEvents
  simp only [List.map_append, List.map_map, List.map_cons, List.map_nil, Event.exact, one_fl]
  rfl

omit [LibM] in
theorem zone_registered (u : Fl) (RS : List (List (Trace Fl))) : registeredWeights (RS.flatMap (zoneEvents u ((1 : ℕ) : Fl))) = List.replicate RS.length ((1 : ℕ) : Fl) := by
  induction RS with
  | nil => rfl
  | cons rs RS ih =>
    have app : ∀ a b : List (Event Fl), registeredWeights (a ++ b) = registeredWeights a ++ registeredWeights b := fun a b => List.filterMap_append
    have this : registeredWeights (zoneEvents u ((1 : ℕ) : Fl) rs) = [((1 : ℕ) : Fl)] := by
      unfold zoneEvents
      rw [app]
      unfold registeredWeights
      rw [List.filterMap_map]
      simp
    rw [List.flatMap_cons, app, ih, this]
    rfl

omit [LibM] in
open Classical in
theorem zone_weight (u : Fl) (δ xo yo d X Y : ℝ) (RS : List (List (Trace Fl))) : ∀ s,
    recordedWeight xo yo d d (drawnGroups ((RS.flatMap (zoneEvents u ((1 : ℕ) : Fl))).map (Event.exact δ)) s []) X Y ≤
        (RS.countP fun rs => ∃ r ∈ rs, NearTrack (r.vertices.map fv) (u.val + δ) X Y) ∧
      ((∀ track seen, NearTrack track (u.val + δ) X Y → track ⊆ seen → Reached xo yo d d seen X Y) →
        (RS.countP fun rs => ∃ r ∈ rs, NearTrack (r.vertices.map fv) (u.val + δ) X Y) ≤
          recordedWeight xo yo d d (drawnGroups ((RS.flatMap (zoneEvents u ((1 : ℕ) : Fl))).map (Event.exact δ)) s []) X Y) := by
  induction RS with
  | nil => intro s; simp [drawnGroups, recordedWeight]
  | cons rs RS ih =>
    intro s
    rw [List.flatMap_cons, List.map_append, zone_exact, drawnGroups_tracks]
    obtain ⟨i1, i2⟩ := ih (s ++ (rs.map fun r => r.vertices.map fv).flatten)
    unfold recordedWeight at i1 i2 ⊢
    rw [List.map_cons, List.sum_cons, List.countP_cons]
    simp only [List.nil_append, records_drawnFrom, decide_eq_true_eq]
    have up : RecordsInOrder xo yo d d s (u.val + δ) (rs.map fun r => r.vertices.map fv) X Y → ∃ r ∈ rs, NearTrack (r.vertices.map fv) (u.val + δ) X Y := by
      rintro ⟨before, track, after, e, h1, -⟩
      have : track ∈ rs.map fun r => r.vertices.map fv := by rw [e]; simp
      obtain ⟨r, hr, rfl⟩ := List.mem_map.mp this
      exact ⟨r, hr, h1⟩
    constructor
    · by_cases h : RecordsInOrder xo yo d d s (u.val + δ) (rs.map fun r => r.vertices.map fv) X Y
      · rw [if_pos h, if_pos (up h)]; push_cast; linarith
      · rw [if_neg h]
        split_ifs <;> push_cast <;> linarith
    · intro hr
      have i2 := i2 hr
      have down : (∃ r ∈ rs, NearTrack (r.vertices.map fv) (u.val + δ) X Y) → RecordsInOrder xo yo d d s (u.val + δ) (rs.map fun r => r.vertices.map fv) X Y := by
        rintro ⟨r, hm, h⟩
        obtain ⟨before, after, e⟩ := List.append_of_mem hm
        refine ⟨before.map fun r => r.vertices.map fv, r.vertices.map fv, after.map fun r => r.vertices.map fv, by rw [e]; simp, h, hr _ _ h (by simp)⟩
      by_cases h : ∃ r ∈ rs, NearTrack (r.vertices.map fv) (u.val + δ) X Y
      · rw [if_pos h, if_pos (down h)]; push_cast; linarith
      · rw [if_neg h]
        split_ifs <;> push_cast <;> linarith

end Oneka
