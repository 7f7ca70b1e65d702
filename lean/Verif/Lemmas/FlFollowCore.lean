import Verif.Lemmas.FlStarts
import Verif.Props.Rounding
import Verif.Props.RoundingAquifer

/-!
# Lemmas for C105 and C113: zones of velocity functions that approximate an exact one
-/

namespace Oneka

open PField

/-- As `RoundedFollowed`, for any velocity function that approximates `f` in the tube. -/
structure FollowedCore (feval : Fl × Fl → Except PyErr (Fl × Fl)) (start : Fl × Fl) (D tol maxstep : Fl) (Qx Qy δ : ℝ) (P : ℝ → ℝ × ℝ) (f : ℝ × ℝ → ℝ × ℝ) (L M H ρ R ν η μ mm T E : ℝ) (N : ℕ) :
    Prop where
  η_eq : η = 2 ^ (-53 : ℤ) * (R + 18 * ρ)
  μ_eq : μ = ν + L * η
  mm_eq : mm = maxstep.val * (1 + 2 ^ (-51 : ℤ)) + η + 3 * (H * μ)
  T_eq : T = D.val * (1 + (N + 1) * 2 ^ (-52 : ℤ))
  E_eq : E = 22 * mm * (Real.exp (L * T) - 1) + (N * η + 2 * (T * μ)) * Real.exp (L * T)
  exact : Pathline f (fv start) T P
  bounded : ∀ t, 0 ≤ t → t ≤ T → ‖P t‖ ≤ R
  within : ∀ q ∈ Tube P T ρ, |q.1| ≤ Qx ∧ |q.2| ≤ Qy
  moderate : Moderate f (Tube P T ρ) L M
  velocity : ∀ q : Fl × Fl, fv q ∈ Tube P T ρ → ∃ v, feval q = .ok v ∧ ‖fv v - f (fv q)‖ ≤ ν
  D_pos : 0 < D.val
  D_le : D.val ≤ 2 ^ 40
  tol_ge : 2 ^ (-50 : ℤ) ≤ tol.val
  maxstep_ge : 2 ^ (-50 : ℤ) ≤ maxstep.val
  tol_way : (M + ν) * D.val ≤ 2 ^ 37 * tol.val
  maxstep_way : (M + ν) * D.val ≤ 2 ^ 37 * maxstep.val
  near : ‖fv start‖ ≤ 2 ^ 47 * maxstep.val
  L_pos : 0 < L
  M_nonneg : 0 ≤ M
  H_ge : 11/100 ≤ H
  ν_nonneg : 0 ≤ ν
  ρ_nonneg : 0 ≤ ρ
  H_le : L * H ≤ 1/100
  wide : E + 25 * (H * (M + μ)) + η ≤ ρ
  fast : ∀ q ∈ Tube P T ρ, 6/5 * maxstep.val ≤ H * ‖f q‖
  fine : 3 * (H * μ) + 10 * η ≤ maxstep.val / 100
  steps : 9 + 40 * D.val + 16 * ((M + ν) * D.val / tol.val) + 288 * ((M + ν) * D.val / maxstep.val) ≤ N
  precision : 3/2 * (E + M * H + M * (T - D.val)) ≤ δ
  moves : ∃ t, 0 ≤ t ∧ t ≤ D.val ∧ δ ≤ ‖P t - P 0‖

def FollowsCore (feval : Fl × Fl → Except PyErr (Fl × Fl)) (start : Fl × Fl) (D tol maxstep : Fl) (Qx Qy δ : ℝ) (P : ℝ → ℝ × ℝ) : Prop :=
  ∃ f L M H ρ R ν η μ mm T E N, FollowedCore feval start D tol maxstep Qx Qy δ P f L M H ρ R ν η μ mm T E N

section
variable [LibM]

/-- C94 in the form of C91. -/
theorem rounded_core (hlog : LogAccurate) {m : Aquifer Fl} {confined : Bool} {start : Fl × Fl} {D tol maxstep : Fl} {Qx Qy δ : ℝ} {P : ℝ → ℝ × ℝ}
    (h : RoundedFollows m confined start D tol maxstep Qx Qy δ P) : FollowsCore (m.reverseVelocity confined) start D tol maxstep Qx Qy δ P := by
  obtain ⟨f, L, M, H, ρ, R, ν, η, μ, mm, T, E, N, F⟩ := h
  refine ⟨f, L, M, H, ρ, R, ν, η, μ, mm, T, E, N, {
    η_eq := F.η_eq
    μ_eq := F.μ_eq
    mm_eq := F.mm_eq
    T_eq := F.T_eq
    E_eq := F.E_eq
    exact := F.exact
    bounded := F.bounded
    within := F.within
    moderate := F.moderate
    D_pos := F.D_pos
    D_le := F.D_le
    tol_ge := F.tol_ge
    maxstep_ge := F.maxstep_ge
    tol_way := F.tol_way
    maxstep_way := F.maxstep_way
    near := F.near
    L_pos := F.L_pos
    M_nonneg := F.M_nonneg
    H_ge := F.H_ge
    ν_nonneg := F.ν_nonneg
    ρ_nonneg := F.ρ_nonneg
    H_le := F.H_le
    wide := F.wide
    fast := F.fast
    fine := F.fine
    steps := F.steps
    precision := F.precision
    moves := F.moves
    velocity := ?_ }⟩
  intro q hq
  obtain ⟨hoff, hcond, b, hb, hle⟩ := F.flow _ hq
  obtain ⟨v, hv, hv'⟩ := C93_velocity hlog m F.physical confined f F.upstream q b hoff hb hcond
  exact ⟨v, hv, hv'.trans hle⟩

theorem followed_track (hroot : RootAccurate) {feval : Fl × Fl → Except PyErr (Fl × Fl)} {start : Fl × Fl} {D tol maxstep : Fl} {Qx Qy δ : ℝ} {P : ℝ → ℝ × ℝ}
    (h : FollowsCore feval start D tol maxstep Qx Qy δ P) :
    ∃ r, computeBacktrace start.1 start.2 D tol maxstep (fun _ => feval) = some r ∧ r.warning = none ∧
      (∀ v ∈ r.vertices, |v.1.val| ≤ Qx ∧ |v.2.val| ≤ Qy) ∧ (∀ a b, [a, b] <:+: r.vertices → ‖fv b - fv a‖ ≤ maxstep.val * (1 + 2 ^ (-51 : ℤ))) ∧
      ∀ u X Y, (Passes P D.val (u - δ) X Y → NearTrack (r.vertices.map fv) u X Y) ∧ (0 ≤ u → NearTrack (r.vertices.map fv) u X Y → Passes P D.val (u + δ) X Y) := by
  obtain ⟨f, L, M, H, ρ, R, ν, η, μ, mm, T, E, N, F⟩ := h
  have hw := F.wide
  rw [F.E_eq] at hw
  obtain ⟨r, hr, hwarn, path, p1, p2, p3, te, p4, p5⟩ := C91_follows hroot (fun _ => feval) f P start.1 start.2 D tol maxstep L M H ρ R ν η μ mm T N F.η_eq F.μ_eq F.mm_eq F.T_eq
    F.exact F.bounded F.moderate (fun n q v hq hv => by
      obtain ⟨v', hv', h⟩ := F.velocity q hq
      change feval q = _ at hv
      rw [hv'] at hv
      exact Except.ok.inj hv ▸ h) (fun n q hq => by
      obtain ⟨v, hv, -⟩ := F.velocity q hq
      exact ⟨v, hv⟩) F.D_pos F.D_le F.tol_ge F.maxstep_ge F.tol_way F.maxstep_way F.near F.L_pos F.M_nonneg F.H_ge F.ν_nonneg F.ρ_nonneg F.H_le hw F.fast F.fine F.steps
  have D0 := F.D_pos
  have hTD : T - D.val = (N + 1) * (2 ^ (-52 : ℤ) * D.val) := by rw [F.T_eq]; ring
  have hDT : D.val ≤ T := by
    have : 0 ≤ (N + 1) * ((2:ℝ) ^ (-52 : ℤ) * D.val) := by positivity
    linarith
  have T0 : 0 ≤ T := D0.le.trans hDT
  have hm0 : 0 < maxstep.val := lt_of_lt_of_le (by positivity) F.maxstep_ge
  have H0 : 0 ≤ H := le_trans (by norm_num) F.H_ge
  have R0 : 0 ≤ R := (norm_nonneg _).trans (F.bounded 0 le_rfl T0)
  have ρ0 := F.ρ_nonneg
  have M0 := F.M_nonneg
  have η0 : 0 ≤ η := by rw [F.η_eq]; positivity
  have μ0 : 0 ≤ μ := by
    rw [F.μ_eq]
    exact add_nonneg F.ν_nonneg (mul_nonneg F.L_pos.le η0)
  have mm0 : 0 ≤ mm := by rw [F.mm_eq]; positivity
  have mono : ∀ t, 0 ≤ t → t ≤ T → 22 * mm * (Real.exp (L * t) - 1) + (N * η + 2 * (t * μ)) * Real.exp (L * t) ≤ E := by
    intro t t0 tT
    have h1 := Real.exp_le_exp.mpr (mul_le_mul_of_nonneg_left tT F.L_pos.le)
    have h2 := mul_le_mul_of_nonneg_right tT μ0
    rw [F.E_eq]
    exact add_le_add (mul_le_mul_of_nonneg_left (by linarith) (by positivity)) (mul_le_mul (by linarith) h1 (Real.exp_pos _).le (by positivity))
  have E0 : 0 ≤ E := by
    have := mono 0 le_rfl T0
    refine le_trans ?_ this
    rw [mul_zero, Real.exp_zero]
    have : (0:ℝ) ≤ N * η := by positivity
    linarith
  have hEρ : E ≤ ρ := by
    have h1 : 0 ≤ 25 * (H * (M + μ)) := by positivity
    linarith [F.wide]
  have htube : ∀ t, 0 ≤ t → t ≤ T → P t ∈ Tube P T ρ := fun t h0 h1 => ⟨t, h0, h1, by rw [sub_self, norm_zero]; exact ρ0⟩
  have hpos : ∀ v ∈ path, 0 ≤ v.1 := by
    have := List.isChain_iff_pairwise.mp (strides_times p2)
    rw [List.pairwise_cons] at this
    exact fun v hv => (this.1 v.1 (List.mem_map_of_mem hv)).le
  have hE : ∀ v ∈ path, v.1 ≤ T ∧ ‖fv v.2 - P v.1‖ ≤ E := fun v hv => ⟨(p3 v hv).1, (p3 v hv).2.trans (mono _ (hpos v hv) (p3 v hv).1)⟩
  have hMH : maxstep.val * (1 + 2 ^ (-51 : ℤ)) ≤ M * H := by
    have h1 := F.fast _ (htube 0 le_rfl T0)
    have h2 := mul_le_mul_of_nonneg_left (F.moderate.bound _ (htube 0 le_rfl T0)) H0
    have h3 : (2:ℝ) ^ (-51 : ℤ) ≤ 1/5 := by norm_num [zpow_neg]
    have h4 := mul_le_mul_of_nonneg_left h3 hm0.le
    rw [mul_add, mul_one, mul_comm M H]
    generalize maxstep.val * (2:ℝ) ^ (-51 : ℤ) = c at h4 ⊢
    linarith
  have hMH0 : 0 < M * H := lt_of_lt_of_le (by positivity) hMH
  refine ⟨r, hr, hwarn, ?_, ?_, fun u X Y => ?_⟩
  · intro v hv
    rw [p1] at hv
    refine F.within (fv v) ?_
    rcases List.mem_cons.mp hv with rfl | hv
    · rw [← show P 0 = fv (start.1, start.2) from F.exact.1]
      exact htube 0 le_rfl T0
    · obtain ⟨w, hw, rfl⟩ := List.mem_map.mp hv
      exact ⟨w.1, hpos w hw, (hE w hw).1, (hE w hw).2.trans hEρ⟩
  · intro a b hab
    rw [p1] at hab
    have hab' : [a, b] <:+: ((0, (start.1, start.2)) :: path).map Prod.snd := hab
    obtain ⟨x, y, hxy, rfl, rfl⟩ := pair_of_map hab'
    have := p2.infix hxy
    rw [List.isChain_cons_cons] at this
    exact this.1.2.2
  · rw [p1]
    refine near_iff_fl F.exact (fun t h0 h1 => F.moderate.bound _ (htube t h0 h1)) D0.le hDT M0 H0 E0 hMH p2 p4 ?_ hE F.precision ?_ u X Y
    · rw [hTD]
      linarith [(abs_le.mp p5).1]
    · obtain ⟨t, t0, t1, ht⟩ := F.moves
      refine ⟨t, t0, t1, ?_⟩
      have := F.precision
      have h3 : 0 ≤ M * (T - D.val) := mul_nonneg M0 (by linarith)
      linarith

open Classical in
theorem followed_frequencies (hroot : RootAccurate) {A B : Axis} {S η δ : ℝ} (xt yt rt D u d tol maxstep : Fl) (n : ℕ) (confined : Bool) (ms : List (Aquifer Fl))
    (hd : 0 < d.val) (hA : A.Fits xt.val d.val) (hB : B.Fits yt.val d.val) (η0 : 0 ≤ η) (hηu : η ≤ u.val) (huS : u.val ≤ S) (hmS : 2 * maxstep.val ≤ S)
    (hη : 2000 * (2 ^ (-53 : ℤ) * S ^ 2) ≤ u.val * η) (hlen : ms.length ≤ 2 ^ 53) (P : ℕ → ℕ → ℝ → ℝ × ℝ)
    (hP : ∀ i m, ms[i]? = some m → ∀ j θ, (flAngles n)[j]? = some θ → FollowsCore (m.reverseVelocity confined) (flStart xt yt rt θ) D tol maxstep A.reach B.reach δ (P i j)) :
    ∃ f, flZones xt yt rt n D u d tol maxstep confined ms = some (.ok f) ∧ f.exact.total = ms.length ∧
      ∀ p q : ℤ, (|p| ≤ 1 ∧ |q| ≤ 1) ∨ u.val ≤ d.val → ∀ X Y : ℝ, X = xt.val + p * d.val → Y = yt.val + q * d.val →
        ((List.range ms.length).countP fun i => ∃ j, j < n ∧ Passes (P i j) D.val (u.val - η - δ) X Y) ≤ f.exact.weightAt X Y ∧
        f.exact.weightAt X Y ≤ ((List.range ms.length).countP fun i => ∃ j, j < n ∧ Passes (P i j) D.val (u.val + η + δ) X Y) := by
  -- the traces
  have hn : (flAngles n).length = n := flAngles_length n
  obtain ⟨RS, hRS, hR⟩ : ∃ RS : List (List (Trace Fl)), RS.length = ms.length ∧ ∀ i m rs, ms[i]? = some m → RS[i]? = some rs →
      (ZoneTraces xt yt rt D tol maxstep (m.backVelocity confined) (flAngles n) rs ∧
      (∀ r ∈ rs, (∀ v ∈ r.vertices, |v.1.val| ≤ A.reach ∧ |v.2.val| ≤ B.reach) ∧ r.vertices ≠ [] ∧
        (∀ a b, [a, b] <:+: r.vertices → ‖fv b - fv a‖ ≤ maxstep.val * (1 + 2 ^ (-51 : ℤ)))) ∧
      ∀ u X Y, ((∃ j, j < n ∧ Passes (P i j) D.val (u - δ) X Y) → ∃ r ∈ rs, NearTrack (r.vertices.map fv) u X Y) ∧
        (0 ≤ u → (∃ r ∈ rs, NearTrack (r.vertices.map fv) u X Y) → ∃ j, j < n ∧ Passes (P i j) D.val (u + δ) X Y)) := by
    refine choose_list fun i m hm => ?_
    obtain ⟨rs, hrs, hr⟩ := choose_list (l := flAngles n) (R := fun j θ r =>
      computeBacktrace (flStart xt yt rt θ).1 (flStart xt yt rt θ).2 D tol maxstep (fun _ => m.backVelocity confined) = some r ∧
      (∀ v ∈ r.vertices, |v.1.val| ≤ A.reach ∧ |v.2.val| ≤ B.reach) ∧ r.vertices ≠ [] ∧
      (∀ a b, [a, b] <:+: r.vertices → ‖fv b - fv a‖ ≤ maxstep.val * (1 + 2 ^ (-51 : ℤ))) ∧
      ∀ u X Y, (Passes (P i j) D.val (u - δ) X Y → NearTrack (r.vertices.map fv) u X Y) ∧ (0 ≤ u → NearTrack (r.vertices.map fv) u X Y → Passes (P i j) D.val (u + δ) X Y)) (by
      intro j θ hθ
      obtain ⟨r, h1, -, h2, h3, h4⟩ := followed_track hroot (hP i m hm j θ hθ)
      exact ⟨r, by simp only [Aquifer.reverseVelocity_eq] at h1; exact h1, h2, by rw [trace_vertices h1]; simp, h3, h4⟩)
    refine ⟨rs, forall2_of_get hrs fun j θ r h1 h2 => (hr j θ r h1 h2).1, ?_, ?_⟩
    · intro r hr'
      obtain ⟨j, hj, rfl⟩ := List.mem_iff_getElem.mp hr'
      have := hr j _ _ (List.getElem?_eq_getElem (i := j) (by omega)) (List.getElem?_eq_getElem hj)
      exact ⟨this.2.1, this.2.2.1, this.2.2.2.1⟩
    · intro u X Y
      constructor
      · rintro ⟨j, hj, h⟩
        have hj' : j < rs.length := by omega
        have := hr j _ _ (List.getElem?_eq_getElem (i := j) (by omega)) (List.getElem?_eq_getElem hj')
        exact ⟨_, List.getElem_mem hj', (this.2.2.2.2 u X Y).1 h⟩
      · rintro hu ⟨r, hr', h⟩
        obtain ⟨j, hj, rfl⟩ := List.mem_iff_getElem.mp hr'
        have := hr j _ _ (List.getElem?_eq_getElem (i := j) (by omega)) (List.getElem?_eq_getElem hj)
        exact ⟨j, by omega, (this.2.2.2.2 u X Y).2 hu h⟩
  have mem : ∀ rs ∈ RS, ∃ (i : ℕ) (m : Aquifer Fl), ms[i]? = some m ∧ RS[i]? = some rs := by
    intro rs hrs
    obtain ⟨i, hi, rfl⟩ := List.mem_iff_getElem.mp hrs
    exact ⟨i, _, List.getElem?_eq_getElem (i := i) (by omega), List.getElem?_eq_getElem hi⟩
  -- the field
  have mod : ∀ e ∈ RS.flatMap (zoneEvents u ((1 : ℕ) : Fl)), e.Moderate A B S η := by
    intro e he
    obtain ⟨rs, hrs, he⟩ := List.mem_flatMap.mp he
    obtain ⟨i, m, h1, h2⟩ := mem rs hrs
    unfold zoneEvents at he
    rcases List.mem_append.mp he with he | he
    · obtain ⟨r, hr, rfl⟩ := List.mem_map.mp he
      obtain ⟨v1, v2, v3⟩ := (hR i m rs h1 h2).2.1 r hr
      refine ⟨v2, v1, fun a b hab => ?_, hηu, huS, hη⟩
      have h3 := v3 a b hab
      have h4 := (norm_fst_le (fv b - fv a)).trans h3
      have h5 := (norm_snd_le (fv b - fv a)).trans h3
      rw [Real.norm_eq_abs] at h4 h5
      change |b.1.val - a.1.val| ≤ _ at h4
      change |b.2.val - a.2.val| ≤ _ at h5
      have hm0 : 0 ≤ maxstep.val * (1 + 2 ^ (-51 : ℤ)) := (abs_nonneg _).trans h4
      have h6 := sq_le_sq' (by linarith [(abs_le.mp h4).1]) (abs_le.mp h4).2
      have h7 := sq_le_sq' (by linarith [(abs_le.mp h5).1]) (abs_le.mp h5).2
      have hc : (1 + (2:ℝ) ^ (-51 : ℤ)) ^ 2 ≤ 2 := by norm_num [zpow_neg]
      have hc0 : (0:ℝ) < 1 + 2 ^ (-51 : ℤ) := by positivity
      have hm1 : 0 ≤ maxstep.val := by
        by_contra hneg
        exact absurd hm0 (not_le.mpr (mul_neg_of_neg_of_pos (not_le.mp hneg) hc0))
      have h8 : (maxstep.val * (1 + 2 ^ (-51 : ℤ))) ^ 2 ≤ 2 * maxstep.val ^ 2 := by
        rw [mul_pow]
        nlinarith [sq_nonneg maxstep.val]
      have h9 : (2 * maxstep.val) ^ 2 ≤ S ^ 2 := pow_le_pow_left₀ (by linarith) hmS 2
      nlinarith
    · obtain rfl := List.mem_singleton.mp he
      change 0 ≤ ((1 : ℕ) : Fl).val
      rw [one_fl]; norm_num
  have sum : ((registeredWeights (RS.flatMap (zoneEvents u ((1 : ℕ) : Fl)))).map Fl.val).sum = ms.length := by
    rw [zone_registered, List.map_replicate, List.sum_replicate, one_fl, hRS]
    simp
  obtain ⟨f0, f, h0, hrun, htot, hwt⟩ := C89_exact_weights hd hd hA hB η0 _ mod (w := 0) (by
      intro x hx
      rw [zone_registered] at hx
      rw [List.eq_of_mem_replicate hx, one_fl]
      exact ⟨1, by norm_num⟩) (by
      rw [sum]
      have : ((ms.length : ℕ) : ℝ) ≤ 2 ^ 53 := by exact_mod_cast hlen
      simpa using this)
  have hf0 : f0.Shaped ∧ f0.body ≠ none := by
    refine ⟨new_shaped h0, ?_⟩
    unfold new at h0
    split_ifs at h0
    obtain rfl := Except.ok.inj h0
    simp
  have hz := zoneLoop_run (xt := xt) (yt := yt) (rt := rt) (D := D) (u := u) (tol := tol) (maxstep := maxstep) (n := n) (confined := confined) (ms := ms) (RS := RS)
    (forall2_of_get hRS fun i m rs h1 h2 => (hR i m rs h1 h2).1) hf0.1 hf0.2 hrun
  refine ⟨f, ?_, by rw [htot, sum], fun p q hpq X Y hX hY => ?_⟩
  · unfold flZones
    rw [h0]
    dsimp only
    rw [hz]
  · have lattice : OnLattice xt.val yt.val d.val d.val X Y := ⟨p, q, hX, hY⟩
    obtain ⟨w1, w2⟩ := hwt X Y lattice
    have cnt : ∀ (C : List (Trace Fl) → Prop) (h : DecidablePred C), (RS.countP fun rs => @decide (C rs) (h rs)) = (List.range ms.length).countP fun i => ∃ rs, RS[i]? = some rs ∧ C rs := by
      intro C h
      rw [← hRS]
      convert countP_range RS C
    constructor
    · refine le_trans ?_ w1
      refine le_trans ?_ ((zone_weight u (-η) xt.val yt.val d.val X Y RS []).2 ?_)
      · rw [cnt (fun rs => ∃ r ∈ rs, NearTrack (r.vertices.map fv) (u.val + -η) X Y)]
        refine Nat.cast_le.mpr (List.countP_mono_left ?_)
        intro i hi hq
        rw [List.mem_range] at hi
        simp only [decide_eq_true_eq] at hq ⊢
        have g1 : RS[i]? = some (RS[i]'(by omega)) := List.getElem?_eq_getElem (i := i) (by omega)
        refine ⟨_, g1, ((hR i _ _ (List.getElem?_eq_getElem hi) g1).2.2 (u.val + -η) X Y).1 ?_⟩
        rw [← sub_eq_add_neg]; exact hq
      · intro track seen hnear hsub
        rcases hpq with ⟨hp, hq⟩ | hud
        · rw [abs_le] at hp hq
          have p1 : (-1:ℝ) ≤ p := by exact_mod_cast hp.1
          have p2 : (p:ℝ) ≤ 1 := by exact_mod_cast hp.2
          have q1 : (-1:ℝ) ≤ q := by exact_mod_cast hq.1
          have q2 : (q:ℝ) ≤ 1 := by exact_mod_cast hq.2
          refine ⟨⟨Or.inl ?_, Or.inl ?_⟩, Or.inl ?_, Or.inl ?_⟩ <;> first | rw [hX] | rw [hY]
          all_goals nlinarith
        · exact near_reached hnear hsub (by linarith) (by linarith) (by linarith)
    · refine w2.trans ?_
      refine ((zone_weight u η xt.val yt.val d.val X Y RS []).1).trans ?_
      rw [cnt (fun rs => ∃ r ∈ rs, NearTrack (r.vertices.map fv) (u.val + η) X Y)]
      refine Nat.cast_le.mpr (List.countP_mono_left ?_)
      intro i hi hq
      rw [List.mem_range] at hi
      simp only [decide_eq_true_eq] at hq ⊢
      obtain ⟨rs, g1, hq⟩ := hq
      exact ((hR i _ _ (List.getElem?_eq_getElem hi) g1).2.2 (u.val + η) X Y).2 (by linarith) hq

end

end Oneka
