import Verif.Lemmas.Returned

/-!
# Drawing and fitting with accepted arguments
-/

namespace Oneka

theorem xr_le_fin {a b : ℝ} (h : (.fin a : XR) ≤ .fin b) : a ≤ b := h

/-- An accepted distribution of finite numbers: a scalar, an ordered pair or an ordered triple. -/
theorem accepted_dist {v : PyVal} {d : Dist} {lb ub : XR} (h : v.DistIn lb ub) (hm : v.Means d) :
    (∃ c, d = .const c) ∨ (∃ x y, d = .tuple [x, y] ∧ x ≤ y) ∨ ∃ x m y, d = .tuple [x, m, y] ∧ x ≤ m ∧ m ≤ y := by
  cases d with
  | const c => exact .inl ⟨c, rfl⟩
  | tuple l =>
    obtain ⟨vs, rfl, hf⟩ := hm
    right
    rcases h with ⟨x, hx, -⟩ | ⟨a, b, x, y, hv, ha, hb, -, h2, -⟩ | ⟨a, m, b, x, c, y, hv, ha, hm, hb, -, h2, h3, -⟩
    · simp [PyVal.num] at hx
    · left
      rcases hv with hv | hv
      · obtain rfl : vs = [a, b] := by simpa using hv
        match l, hf with
        | [p, q], .cons h1 (.cons h2' .nil) =>
          unfold PyVal.IsReal at h1 h2'
          obtain rfl : x = .fin p := by rw [ha] at h1; simpa using h1
          obtain rfl : y = .fin q := by rw [hb] at h2'; simpa using h2'
          exact ⟨p, q, rfl, xr_le_fin h2⟩
      · simp at hv
    · right
      rcases hv with hv | hv
      · obtain rfl : vs = [a, m, b] := by simpa using hv
        match l, hf with
        | [p, r, q], .cons h1 (.cons h1' (.cons h2' .nil)) =>
          unfold PyVal.IsReal at h1 h1' h2'
          obtain rfl : x = .fin p := by rw [ha] at h1; simpa using h1
          obtain rfl : c = .fin r := by rw [hm] at h1'; simpa using h1'
          obtain rfl : y = .fin q := by rw [hb] at h2'; simpa using h2'
          exact ⟨p, r, q, rfl, xr_le_fin h2, xr_le_fin h3⟩
      · simp at hv

theorem sample_ok {v : PyVal} {d : Dist} {lb ub : XR} (h : v.DistIn lb ub) (hm : v.Means d) (hp : ¬ d.Pointlike) {u : ℝ} (hu : 0 ≤ u) (hu1 : u < 1) :
    ∃ x, d.sample u = .ok x ∧ (d.Pos → 0 < x) := by
  rcases accepted_dist h hm with ⟨c, rfl⟩ | ⟨x, y, rfl, hxy⟩ | ⟨x, m, y, rfl, h1, h2⟩
  · exact ⟨c, rfl, id⟩
  · refine ⟨x + (y - x) * u, rfl, fun hpos => ?_⟩
    have : 0 < x := hpos x (by simp)
    have := mul_nonneg (sub_nonneg.mpr hxy) hu
    linarith
  · have hlt : x < y := by
      rcases (h1.trans h2).lt_or_eq with h | h
      · exact h
      · subst h
        exact absurd ⟨x, m, rfl⟩ hp
    refine ⟨Variate.tri x m y u, ?_, fun hpos => ?_⟩
    · unfold Dist.sample
      show PyVal.asReal (generateRandomVariate (.tuple [.float (.fin x), .float (.fin m), .float (.fin y)]) u) = _
      rw [Variate.gen_triple rfl rfl rfl h1 h2 hlt hu hu1]
      rfl
    · have : 0 < x := hpos x (by simp)
      have := (Variate.tri_mem h1 h2 hlt u).1
      linarith

theorem mean_ok {v : PyVal} {d : Dist} {lb ub : XR} (h : v.DistIn lb ub) (hm : v.Means d) : ∃ x, d.mean = .ok x ∧ (d.Pos → 0 < x) := by
  rcases accepted_dist h hm with ⟨c, rfl⟩ | ⟨x, y, rfl, -⟩ | ⟨x, m, y, rfl, -, -⟩
  · exact ⟨c, rfl, id⟩
  · refine ⟨(x + y) / 2, ?_, fun hpos => ?_⟩
    · unfold Dist.mean Dist.toPy
      simp [computeVariateMean, PyVal.num, XR.fin_add, XR.fin_div, PyVal.asReal]
    · have := hpos x (by simp)
      have := hpos y (by simp)
      linarith
  · refine ⟨(x + m + y) / 3, ?_, fun hpos => ?_⟩
    · unfold Dist.mean Dist.toPy
      simp [computeVariateMean, PyVal.num, XR.fin_add, XR.fin_div, PyVal.asReal]
    · have := hpos x (by simp)
      have := hpos m (by simp)
      have := hpos y (by simp)
      linarith

theorem drawWells_succeeds {q : Dist → ℕ → Except PyErr ℝ} : ∀ (ws : List SWell) (j : ℕ), (∀ w ∈ ws, ∀ j, ∃ x, q w.q j = .ok x) →
    ∃ r, drawWells q ws j = .ok r
  | [], _, _ => ⟨_, rfl⟩
  | w :: ws, j, h => by
    obtain ⟨x, hx⟩ := h w (by simp) j
    obtain ⟨r, hr⟩ := drawWells_succeeds ws (j + 1) fun w hw => h w (by simp [hw])
    exact ⟨⟨w.xw, w.yw, w.rw, x⟩ :: r, by rw [drawWells, hx]; simp only [hr]⟩

theorem drawModel_succeeds {a : RunArgs} {q : Dist → ℕ → Except PyErr ℝ} (hw : ∀ w ∈ a.wells, ∀ j, ∃ x, q w.q j = .ok x)
    (hc : ∀ j, ∃ x, q a.cDist j = .ok x ∧ 0 < x) (hp : ∀ j, ∃ x, q a.pDist j = .ok x) (ht : ∀ j, ∃ x, q a.tDist j = .ok x ∧ 0 < x) :
    ∃ m, drawModel a q = .ok m ∧ m.base = a.base ∧ 0 < m.conductivity ∧ 0 < m.thickness := by
  obtain ⟨r, hr⟩ := drawWells_succeeds a.wells 0 hw
  obtain ⟨c, h1, h1'⟩ := hc a.wells.length
  obtain ⟨p, h2⟩ := hp (a.wells.length + 1)
  obtain ⟨t, h3, h3'⟩ := ht (a.wells.length + 2)
  exact ⟨⟨a.base, c, p, t, r, 0, 0, fun _ => 0⟩, by unfold drawModel; rw [hr]; simp only [h1, h2, h3], rfl, h1', h3'⟩

theorem forall₂_mem {α β : Type} {R : α → β → Prop} : ∀ {l : List α} {r : List β}, List.Forall₂ R l r → ∀ y ∈ r, ∃ x ∈ l, R x y
  | _, _, .nil, y, hy => by simp at hy
  | _, _, .cons h hs, y, hy => by
    rcases List.mem_cons.mp hy with rfl | hy
    · exact ⟨_, by simp, h⟩
    · obtain ⟨x, hx, hxy⟩ := forall₂_mem hs y hy
      exact ⟨x, by simp [hx], hxy⟩

/-- accepted wells have accepted discharges -/
theorem accepted_wells {a : PyArgs} {n : Inputs} (ha : Acceptable a) (h : a.Denotes n) :
    ∀ w ∈ n.run.wells, ∃ v : PyVal, v.DistIn .ninf .pinf ∧ v.Means w.q := by
  intro w hw
  obtain ⟨ws, hws, hall, -⟩ := ha.wells
  obtain ⟨l, hl, hf⟩ := h.wells
  obtain rfl : ws = l := by rw [hws] at hl; simpa using hl
  obtain ⟨v, hv, x, y, r, q, hvq, -, -, -, hq⟩ := forall₂_mem hf w hw
  obtain ⟨x', y', r', q', hvq', -, -, -, hd⟩ := hall v hv
  refine ⟨q, ?_, hq⟩
  have : q' = q := by
    rcases hvq with rfl | rfl <;> rcases hvq' with h | h <;> simp_all
  rw [← this]; exact hd

theorem draw_stochastic {a : PyArgs} {n : Inputs} (ha : Acceptable a) (h : a.Denotes n) (hr : n.Regular) (hs : n.Spread) (obs : List Obs) {u : ℕ → ℝ}
    (hu : ∀ j, 0 ≤ u j ∧ u j < 1) :
    ∃ m, drawModel { n.run with obs := obs } (fun d j => d.sample (u j)) = .ok m ∧ m.base = n.run.base ∧ 0 < m.conductivity ∧ 0 < m.thickness := by
  obtain ⟨r1, r3, -⟩ := hr
  obtain ⟨s1, s2, s3, s4⟩ := hs
  refine drawModel_succeeds (a := { n.run with obs := obs }) (fun w hw j => ?_) (fun j => ?_) (fun j => ?_) (fun j => ?_)
  · obtain ⟨v, hv, hm⟩ := accepted_wells ha h w hw
    obtain ⟨x, hx, -⟩ := sample_ok hv hm (s4 w hw) (hu j).1 (hu j).2
    exact ⟨x, hx⟩
  · obtain ⟨x, hx, hpos⟩ := sample_ok ha.cDist h.cDist s1 (hu j).1 (hu j).2
    exact ⟨x, hx, hpos r1⟩
  · obtain ⟨x, hx, -⟩ := sample_ok ha.pDist h.pDist s2 (hu j).1 (hu j).2
    exact ⟨x, hx⟩
  · obtain ⟨x, hx, hpos⟩ := sample_ok ha.tDist h.tDist s3 (hu j).1 (hu j).2
    exact ⟨x, hx, hpos r3⟩

theorem draw_deterministic {a : PyArgs} {n : Inputs} (ha : Acceptable a) (h : a.Denotes n) (hr : n.Regular) (obs : List Obs) :
    ∃ m, drawModel { n.run with obs := obs } (fun d _ => d.mean) = .ok m ∧ m.base = n.run.base ∧ 0 < m.conductivity ∧ 0 < m.thickness := by
  obtain ⟨r1, r3, -⟩ := hr
  refine drawModel_succeeds (a := { n.run with obs := obs }) (fun w hw j => ?_) (fun j => ?_) (fun j => ?_) (fun j => ?_)
  · obtain ⟨v, hv, hm⟩ := accepted_wells ha h w hw
    obtain ⟨x, hx, -⟩ := mean_ok hv hm
    exact ⟨x, hx⟩
  · obtain ⟨x, hx, hpos⟩ := mean_ok ha.cDist h.cDist
    exact ⟨x, hx, hpos r1⟩
  · obtain ⟨x, hx, -⟩ := mean_ok ha.pDist h.pDist
    exact ⟨x, hx⟩
  · obtain ⟨x, hx, hpos⟩ := mean_ok ha.tDist h.tDist
    exact ⟨x, hx, hpos r3⟩

/-- retained observations have positive standard deviations -/
theorem retained_std {obs out : List Obs} {wells : List (ℝ × ℝ)} {buffer : ℝ} (h : filterObs obs wells buffer = .ok out) (hs : ∀ o ∈ obs, 0 < o.std) :
    ∀ o ∈ out, 0 < o.std := by
  intro o ho
  obtain ⟨kept, gs, hk, -, hfl, hrep, -⟩ := C47_filter obs out wells buffer h
  have : ∀ {out : List Obs} {gs : List (List Obs)}, List.Forall₂ Represents out gs → ∀ o ∈ out, ∃ g ∈ gs, Represents o g := by
    intro out gs hf
    induction hf with
    | nil => simp
    | cons h hs ih =>
      intro o ho
      rcases List.mem_cons.mp ho with rfl | ho
      · exact ⟨_, by simp, h⟩
      · obtain ⟨g, hg, h⟩ := ih o ho
        exact ⟨g, by simp [hg], h⟩
  obtain ⟨g, hg, hR⟩ := this hrep o ho
  refine (represents_best hR fun p hp => ?_).pos
  refine hs p (hk.1.subset ?_)
  rw [← hfl]
  exact List.mem_flatten.mpr ⟨g, hg, hp⟩

/-- retained observations are not at a well of the model -/
theorem retained_off {a : RunArgs} {q : Dist → ℕ → Except PyErr ℝ} {m : Aquifer ℝ} (hm : drawModel a q = .ok m) {obs out : List Obs} {buffer : ℝ} (hb : 0 < buffer)
    (h : filterObs obs (a.wells.map fun w => (w.xw, w.yw)) buffer = .ok out) : ∀ o ∈ out, m.OffWells o.x o.y := by
  intro o ho w hw e
  obtain ⟨-, -, -, -, -, -, hfar⟩ := C47_filter _ _ _ _ h
  have D := drawModel_iff.mp hm
  obtain ⟨j, hj, hjw⟩ := List.mem_iff_getElem.mp hw
  have hj' : j < a.wells.length := D.wells_length ▸ hj
  obtain ⟨d, hd, -⟩ := D.wells j _ (List.getElem?_eq_getElem hj')
  rw [List.getElem?_eq_getElem hj, hjw] at hd
  obtain rfl := Option.some.inj hd
  have := hfar o ho (a.wells[j].xw, a.wells[j].yw) (List.mem_map.mpr ⟨_, List.getElem_mem hj', rfl⟩)
  obtain ⟨e1, e2⟩ := Prod.mk.inj e
  simp only [Obs.dist, e1, e2, sub_self] at this
  norm_num at this
  linarith

/-- why a fit can fail -/
theorem fit_causes {la : LinAlg} (hla : la.Correct) (hc : la.Converges) {m : Aquifer ℝ} (hK : 0 < m.conductivity) (hT : 0 < m.thickness)
    {obs : List Obs} (hs : ∀ o ∈ obs, 0 < o.std) (hoff : ∀ o ∈ obs, m.OffWells o.x o.y) {xo yo : ℝ} {e : PyErr} (h : (m.fitRegionalFlow la obs xo yo).2 = .error e) :
    (e = .rangeError ∧ ∃ o ∈ obs, o.z ≤ m.base) ∨ (e = .linAlgError ∧ OnOneConic obs) := by
  by_cases hb : ∃ o ∈ obs, o.z ≤ m.base
  · have := (C38_range la hla m hT obs xo yo (.inr ⟨hK, hs⟩)).mpr hb
    rw [h] at this
    exact .inl ⟨by simpa using this, hb⟩
  · push Not at hb
    have hu : m.Usable obs := fun o ho => ⟨hb o ho, hs o ho, hoff o ho⟩
    obtain ⟨h1, h2⟩ := C37_degenerate la hla hc m hK hT obs xo yo hu
    by_cases hcon : OnOneConic obs
    · have := h1 hcon
      rw [h] at this
      exact .inr ⟨by simpa using this, hcon⟩
    · obtain ⟨r, hr⟩ := h2 hcon
      rw [h] at hr
      simp at hr

end Oneka
