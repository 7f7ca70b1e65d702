import Verif.Spec.Merge
import Verif.Lemmas.Confined
import Verif.Lemmas.AquiferX
import Verif.Lemmas.Aquifer
import Verif.Props.Utilities

/-!
# Lemmas for Props/Merge.lean
-/

namespace Oneka

/-! ## Sums over the wells are sums over the places -/

/-- the discharges, place by place -/
noncomputable def sources (ws : List (Well ℝ)) : (ℝ × ℝ) →₀ ℝ := (ws.map fun w => Finsupp.single (w.xw, w.yw) w.qw).sum

theorem sources_apply (ws : List (Well ℝ)) (x y : ℝ) : sources ws (x, y) = pumpedAt ws x y := by
  classical
  unfold sources pumpedAt
  induction ws with
  | nil => simp
  | cons w ws ih =>
    rw [List.map_cons, List.sum_cons, Finsupp.add_apply, ih, List.filter_cons]
    by_cases h : (w.xw, w.yw) = (x, y)
    · rw [if_pos (by simpa using h), List.map_cons, List.sum_cons, h, Finsupp.single_eq_same]
    · rw [if_neg (by simpa using h), Finsupp.single_eq_of_ne (Ne.symm h), zero_add]

theorem sum_sources (ws : List (Well ℝ)) (g : ℝ × ℝ → ℝ) : (ws.map fun w => w.qw * g (w.xw, w.yw)).sum = (sources ws).sum fun p q => q * g p := by
  unfold sources
  induction ws with
  | nil => simp
  | cons w ws ih =>
    rw [List.map_cons, List.sum_cons, List.map_cons, List.sum_cons, ih, Finsupp.sum_add_index' (by simp) (by intros; ring), Finsupp.sum_single_index (by simp)]

theorem SamePumping.sum {ws ws' : List (Well ℝ)} (h : SamePumping ws ws') (g : ℝ × ℝ → ℝ) : (ws'.map fun w => w.qw * g (w.xw, w.yw)).sum = (ws.map fun w => w.qw * g (w.xw, w.yw)).sum := by
  rw [sum_sources, sum_sources]
  congr 1
  ext ⟨x, y⟩
  rw [sources_apply, sources_apply, h]

namespace Aquifer

theorem merge_potentialWells (m : Aquifer ℝ) {ws : List (Well ℝ)} (h : SamePumping m.wells ws) (X Y : ℝ) : (m.withWells ws).potentialWells X Y = m.potentialWells X Y := by
  rw [potentialWells_eq, potentialWells_eq]
  have := h.sum fun p => (Aquifer.fourPiInv : ℝ) * Real.log ((X - p.1) ^ 2 + (Y - p.2) ^ 2)
  simp only [← mul_assoc] at this
  exact this

theorem merge_discharge (m : Aquifer ℝ) {ws : List (Well ℝ)} (h : SamePumping m.wells ws) (X Y : ℝ) : (m.withWells ws).discharge X Y = m.discharge X Y := by
  rw [discharge_eq, discharge_eq]
  have h1 := h.sum fun p => -((twoPiInv : ℝ) * ((X - p.1) / ((X - p.1) ^ 2 + (Y - p.2) ^ 2)))
  have h2 := h.sum fun p => -((twoPiInv : ℝ) * ((Y - p.2) / ((X - p.1) ^ 2 + (Y - p.2) ^ 2)))
  simp only [mul_neg, ← mul_assoc] at h1 h2
  refine Prod.ext ?_ ?_
  · exact congrArg (fun z => -(2 * m.coef 0 * (X - m.xo) + m.coef 2 * (Y - m.yo) + m.coef 3) + z) h1
  · exact congrArg (fun z => -(2 * m.coef 1 * (Y - m.yo) + m.coef 2 * (X - m.xo) + m.coef 4) + z) h2

variable {m : Aquifer ℝ} {ws : List (Well ℝ)} {X Y : ℝ}

theorem merge_potentialWellsX (h : SamePumping m.wells ws) (h1 : m.OffWells X Y) (h2 : (m.withWells ws).OffWells X Y) :
    (m.withWells ws).toX.potentialWells (.fin X) (.fin Y) = m.toX.potentialWells (.fin X) (.fin Y) := by
  rw [potentialWells_toX _ h1, potentialWells_toX _ h2, merge_potentialWells m h]

theorem merge_potentialX (h : SamePumping m.wells ws) (h1 : m.OffWells X Y) (h2 : (m.withWells ws).OffWells X Y) :
    (m.withWells ws).toX.potential (.fin X) (.fin Y) = m.toX.potential (.fin X) (.fin Y) := by
  unfold potential
  rw [merge_potentialWellsX h h1 h2]
  rfl

theorem merge_dischargeX (h : SamePumping m.wells ws) (h1 : m.OffWells X Y) (h2 : (m.withWells ws).OffWells X Y) :
    (m.withWells ws).toX.discharge (.fin X) (.fin Y) = m.toX.discharge (.fin X) (.fin Y) := by
  rw [discharge_toX _ h1, discharge_toX _ h2, merge_discharge m h]

theorem merge_headX (h : SamePumping m.wells ws) (h1 : m.OffWells X Y) (h2 : (m.withWells ws).OffWells X Y) :
    (m.withWells ws).toX.head (.fin X) (.fin Y) = m.toX.head (.fin X) (.fin Y) := by
  unfold head
  rw [merge_potentialX h h1 h2]
  rfl

theorem merge_velocityX (h : SamePumping m.wells ws) (h1 : m.OffWells X Y) (h2 : (m.withWells ws).OffWells X Y) :
    (m.withWells ws).toX.velocity (.fin X) (.fin Y) = m.toX.velocity (.fin X) (.fin Y) := by
  unfold velocity
  rw [merge_headX h h1 h2, merge_dischargeX h h1 h2]
  rfl

theorem merge_velocityConfinedX (h : SamePumping m.wells ws) (h1 : m.OffWells X Y) (h2 : (m.withWells ws).OffWells X Y) :
    (m.withWells ws).toX.velocityConfined (.fin X) (.fin Y) = m.toX.velocityConfined (.fin X) (.fin Y) := by
  unfold velocityConfined
  rw [merge_dischargeX h h1 h2]
  rfl

theorem unoccupied_off {p : XR × XR} (h : Unoccupied (m.wells ++ ws) p) : ∃ q : ℝ × ℝ, p = (.fin q.1, .fin q.2) ∧ m.OffWells q.1 q.2 ∧ (m.withWells ws).OffWells q.1 q.2 := by
  obtain ⟨q, e, h⟩ := h
  exact ⟨q, e, fun w hw => h w (List.mem_append_left _ hw), fun w hw => h w (List.mem_append_right _ hw)⟩

theorem away_raises (m : Aquifer ℝ) (c : Bool) (ws : List (Well ℝ)) (interrupt : ℕ → Option PyErr) : MayRaise (m.awayOnly c ws interrupt) fun n p => match interrupt n with
    | some e => .error e
    | none => m.toX.reverseVelocity c p := by
  intro n p
  unfold awayOnly
  by_cases h : Unoccupied ws p
  · rw [if_pos h]
    exact .inl rfl
  · rw [if_neg h]
    exact .inr ⟨_, rfl⟩

theorem away_raises_merge (h : SamePumping m.wells ws) (c : Bool) (interrupt : ℕ → Option PyErr) : MayRaise (m.awayOnly c (m.wells ++ ws) interrupt) fun n p => match interrupt n with
    | some e => .error e
    | none => (m.withWells ws).toX.reverseVelocity c p := by
  intro n p
  unfold awayOnly
  by_cases hp : Unoccupied (m.wells ++ ws) p
  · rw [if_pos hp]
    left
    beta_reduce
    cases interrupt n with
    | some e => rfl
    | none =>
      obtain ⟨q, rfl, h1, h2⟩ := unoccupied_off hp
      show m.toX.reverseVelocity c _ = (m.withWells ws).toX.reverseVelocity c _
      unfold reverseVelocity
      rw [merge_velocityX h h1 h2, merge_velocityConfinedX h h1 h2]
  · rw [if_neg hp]
    exact .inr ⟨_, rfl⟩

theorem merge_rows (h : SamePumping m.wells ws) (hm : m.wells ≠ []) (hw : ws ≠ []) {xo yo : ℝ} {obs : List Obs} (ho : ∀ o ∈ obs, m.OffWells o.x o.y ∧ (m.withWells ws).OffWells o.x o.y) :
    (m.withWells ws).constructFit xo yo obs = m.constructFit xo yo obs := by
  have row : ∀ o : Obs, m.OffWells o.x o.y → (m.withWells ws).OffWells o.x o.y → (m.withWells ws).fitRow xo yo o = m.fitRow xo yo o := by
    intro o h1 h2
    unfold fitRow
    rw [merge_potentialWellsX h h1 h2, show (m.withWells ws).fosm o = m.fosm o from rfl, show (m.withWells ws).wells.isEmpty = m.wells.isEmpty by
      rw [Bool.eq_iff_iff, List.isEmpty_iff, List.isEmpty_iff]
      exact iff_of_false hw hm]
  induction obs with
  | nil => rfl
  | cons o os ih =>
    unfold constructFit
    rw [row o (ho o (List.mem_cons_self ..)).1 (ho o (List.mem_cons_self ..)).2, ih fun o' ho' => ho o' (List.mem_cons_of_mem _ ho')]

theorem merge_fit (h : SamePumping m.wells ws) (hm : m.wells ≠ []) (hw : ws ≠ []) {xo yo : ℝ} {obs : List Obs} (ho : ∀ o ∈ obs, m.OffWells o.x o.y ∧ (m.withWells ws).OffWells o.x o.y) (la : LinAlg) :
    ((m.withWells ws).fitRegionalFlow la obs xo yo).2 = (m.fitRegionalFlow la obs xo yo).2 := by
  unfold fitRegionalFlow
  rw [merge_rows h hm hw ho]
  cases m.constructFit xo yo obs with
  | error e => rfl
  | ok rows =>
    simp only
    cases computeFit la rows with
    | error e => rfl
    | ok p => rfl

/-- the regional flow found before plays no part in a fit -/
theorem fit_coef (m : Aquifer ℝ) (c : Fin 6 → ℝ) (la : LinAlg) (obs : List Obs) (xo yo : ℝ) : (({ m with coef := c } : Aquifer ℝ).fitRegionalFlow la obs xo yo).2 = (m.fitRegionalFlow la obs xo yo).2 := by
  have h : ({ m with coef := c } : Aquifer ℝ).constructFit xo yo obs = m.constructFit xo yo obs := by
    induction obs with
    | nil => rfl
    | cons o os ih =>
      unfold constructFit
      rw [ih]
      rfl
  unfold fitRegionalFlow
  rw [h]
  cases m.constructFit xo yo obs with
  | error e => rfl
  | ok rows =>
    simp only
    cases computeFit la rows with
    | error e => rfl
    | ok p => rfl

end Aquifer

/-! ## Filtering -/

theorem away_iff {buffer : ℝ} {o : Obs} {wells : List (ℝ × ℝ)} : awayFromWells buffer o wells = true ↔ ∀ w ∈ wells, ¬ hypot (o.x - w.1) (o.y - w.2) ≤ buffer := by
  induction wells with
  | nil => simp [awayFromWells]
  | cons w ws ih =>
    simp only [awayFromWells, List.mem_cons, forall_eq_or_imp]
    by_cases h : hypot (o.x - w.1) (o.y - w.2) ≤ buffer
    · simp [h]
    · rw [if_neg h, ih]
      simp [h]

theorem places_filter {obs : List Obs} {wells wells' : List (ℝ × ℝ)} {buffer : ℝ} (h : ∀ p, p ∈ wells' ↔ p ∈ wells) : filterObs obs wells' buffer = filterObs obs wells buffer := by
  have away : ∀ o : Obs, awayFromWells buffer o wells' = awayFromWells buffer o wells := by
    intro o
    rw [Bool.eq_iff_iff, away_iff, away_iff]
    simp only [h]
  unfold filterObs
  congr 1
  induction obs with
  | nil => rfl
  | cons o os ih => simp only [removeNear, away o, ih]

/-! ## Realizations -/

theorem realized_places {a : RunArgs} {la : LinAlg} {t : SWell} {q : Dist → ℕ → Except PyErr ℝ} {coefs : (Fin 6 → ℝ) → Matrix (Fin 6) (Fin 6) ℝ → Except PyErr (Fin 6 → ℝ)} {interrupt : ℕ → ℕ → Option PyErr} {L : RealizationLog}
    (R : Realized a la t q coefs interrupt L) {buffer : ℝ} (hb : 0 ≤ buffer) {obs : List Obs} (ho : ∀ o ∈ obs, ∀ w ∈ a.wells.map fun w => (w.xw, w.yw), buffer < o.dist w.1 w.2) : ∀ o ∈ obs, L.model.OffWells o.x o.y := by
  intro o h w hw e
  obtain ⟨j, hj⟩ := List.mem_iff_getElem?.mp hw
  have hlt : j < a.wells.length := by
    rw [← R.wells_length]
    exact (List.getElem?_eq_some_iff.mp hj).1
  obtain ⟨d, h1, -⟩ := R.wells j _ (List.getElem?_eq_getElem hlt)
  rw [h1] at hj
  obtain rfl := Option.some.inj hj
  have := ho o h (a.wells[j].xw, a.wells[j].yw) (List.mem_map.mpr ⟨_, List.getElem_mem hlt, rfl⟩)
  obtain ⟨e1, e2⟩ := Prod.mk.inj e
  simp [Obs.dist, e1, e2] at this
  linarith

theorem realized_nonempty {a : RunArgs} {la : LinAlg} {t : SWell} {q : Dist → ℕ → Except PyErr ℝ} {coefs : (Fin 6 → ℝ) → Matrix (Fin 6) (Fin 6) ℝ → Except PyErr (Fin 6 → ℝ)} {interrupt : ℕ → ℕ → Option PyErr} {L : RealizationLog}
    (R : Realized a la t q coefs interrupt L) (h : a.wells ≠ []) : L.model.wells ≠ [] := by
  intro e
  have := R.wells_length
  rw [e, List.length_nil] at this
  exact h (List.length_eq_zero_iff.mp this.symm)

/-- two realizations with the same water have the same models, but for the wells -/
theorem realized_merge {a a' : RunArgs} {la : LinAlg} {t t' : SWell} {q q' : Dist → ℕ → Except PyErr ℝ} {coefs : (Fin 6 → ℝ) → Matrix (Fin 6) (Fin 6) ℝ → Except PyErr (Fin 6 → ℝ)} {interrupt interrupt' : ℕ → ℕ → Option PyErr}
    {L L' : RealizationLog} (R : Realized a la t q coefs interrupt L) (R' : Realized a' la t' q' coefs interrupt' L') (hw : L.SameWater L') (hb : a'.base = a.base) (hx : t'.xw = t.xw) (hy : t'.yw = t.yw) (hobs : a'.obs = a.obs)
    (hm : L.model.wells ≠ []) (hm' : L'.model.wells ≠ []) (ho : ∀ o ∈ a.obs, L.model.OffWells o.x o.y ∧ L'.model.OffWells o.x o.y) : L'.model = L.model.withWells L'.model.wells ∧ L'.ev = L.ev ∧ L'.cov = L.cov := by
  have e : L'.model = { L.model.withWells L'.model.wells with coef := L'.model.coef } := by
    have h1 := R'.base.trans (hb.trans R.base.symm)
    have h2 := R'.origin.1.trans (hx.trans R.origin.1.symm)
    have h3 := R'.origin.2.trans (hy.trans R.origin.2.symm)
    have h4 := hw.conductivity
    have h5 := hw.porosity
    have h6 := hw.thickness
    generalize L'.model = m' at *
    generalize L.model = m at *
    cases m
    cases m'
    simp only at h1 h2 h3 h4 h5 h6
    subst h1 h2 h3 h4 h5 h6
    rfl
  have hfit := R'.fit
  rw [e, Aquifer.fit_coef, hobs, hx, hy, Aquifer.merge_fit hw.wells hm hm' (fun o h => ⟨(ho o h).1, fun w hw' => (ho o h).2 w hw'⟩), R.fit] at hfit
  obtain ⟨h1, h2⟩ := Prod.mk.inj (Except.ok.inj hfit)
  refine ⟨?_, h1.symm, h2.symm⟩
  have hc := R'.coef
  rw [← h1, ← h2, R.coef] at hc
  rw [← Except.ok.inj hc] at e
  exact e

/-! ## The potential tells the wells -/

theorem split_wells (ws : List (Well ℝ)) (x y : ℝ) : ∃ R : ℝ × ℝ → ℝ, ContinuousAt R (x, y) ∧ ∀ p : ℝ × ℝ,
    (ws.map fun w => w.qw * (Aquifer.fourPiInv : ℝ) * Real.log (w.r2 p.1 p.2)).sum = pumpedAt ws x y * (Aquifer.fourPiInv : ℝ) * Real.log ((p.1 - x) ^ 2 + (p.2 - y) ^ 2) + R p := by
  classical
  induction ws with
  | nil => exact ⟨fun _ => 0, continuousAt_const, fun p => by simp [pumpedAt]⟩
  | cons w ws ih =>
    obtain ⟨R, hc, hR⟩ := ih
    by_cases h : (w.xw, w.yw) = (x, y)
    · refine ⟨R, hc, fun p => ?_⟩
      have : pumpedAt (w :: ws) x y = w.qw + pumpedAt ws x y := by
        unfold pumpedAt
        rw [List.filter_cons, if_pos (by simpa using h), List.map_cons, List.sum_cons]
      rw [List.map_cons, List.sum_cons, hR, this]
      obtain ⟨h1, h2⟩ := Prod.mk.inj h
      simp only [Well.r2, h1, h2]
      ring
    · refine ⟨fun p => w.qw * (Aquifer.fourPiInv : ℝ) * Real.log (w.r2 p.1 p.2) + R p, ?_, fun p => ?_⟩
      · refine ContinuousAt.add (ContinuousAt.mul continuousAt_const (ContinuousAt.log ?_ ?_)) hc
        · unfold Well.r2
          fun_prop
        · intro e
          unfold Well.r2 at e
          have e1 : (x - w.xw) ^ 2 = 0 := by nlinarith [sq_nonneg (x - w.xw), sq_nonneg (y - w.yw)]
          have e2 : (y - w.yw) ^ 2 = 0 := by nlinarith [sq_nonneg (x - w.xw), sq_nonneg (y - w.yw)]
          exact h (Prod.ext (sub_eq_zero.mp (pow_eq_zero_iff two_ne_zero |>.mp e1)).symm (sub_eq_zero.mp (pow_eq_zero_iff two_ne_zero |>.mp e2)).symm)
      · have : pumpedAt (w :: ws) x y = pumpedAt ws x y := by
          unfold pumpedAt
          rw [List.filter_cons, if_neg (by simpa using h)]
        rw [List.map_cons, List.sum_cons, hR, this]
        ring

theorem eventually_off (ws : List (Well ℝ)) (p : ℝ × ℝ) : ∀ᶠ z in nhdsWithin p {p}ᶜ, ∀ w ∈ ws, z ≠ (w.xw, w.yw) := by
  induction ws with
  | nil => exact .of_forall fun _ w hw => by simp at hw
  | cons w ws ih =>
    have h : ∀ᶠ z in nhdsWithin p {p}ᶜ, z ≠ (w.xw, w.yw) := by
      by_cases hp : p = (w.xw, w.yw)
      · rw [← hp]
        exact self_mem_nhdsWithin
      · exact nhdsWithin_le_nhds (isOpen_ne.mem_nhds hp)
    filter_upwards [h, ih] with z h1 h2 w' hw'
    rcases List.mem_cons.mp hw' with rfl | hw'
    · exact h1
    · exact h2 w' hw'

theorem pumping_of_potential {m : Aquifer ℝ} {ws : List (Well ℝ)} (h : ∀ X Y, m.OffWells X Y → (m.withWells ws).OffWells X Y → (m.withWells ws).potential X Y = m.potential X Y) : SamePumping m.wells ws := by
  intro x y
  obtain ⟨R, hc, hR⟩ := split_wells m.wells x y
  obtain ⟨R', hc', hR'⟩ := split_wells ws x y
  by_contra hne
  have hlog : Filter.Tendsto (fun p : ℝ × ℝ => Real.log ((p.1 - x) ^ 2 + (p.2 - y) ^ 2)) (nhdsWithin (x, y) {(x, y)}ᶜ) Filter.atBot := by
    refine Real.tendsto_log_nhdsGT_zero.comp (tendsto_nhdsWithin_iff.mpr ⟨?_, ?_⟩)
    · have : ContinuousAt (fun p : ℝ × ℝ => (p.1 - x) ^ 2 + (p.2 - y) ^ 2) (x, y) := by fun_prop
      have h0 := this.tendsto
      simp only [sub_self, ne_eq, OfNat.ofNat_ne_zero, not_false_eq_true, zero_pow, add_zero] at h0
      exact h0.mono_left nhdsWithin_le_nhds
    · filter_upwards [self_mem_nhdsWithin] with p hp
      by_contra hle
      have hle : (p.1 - x) ^ 2 + (p.2 - y) ^ 2 ≤ 0 := not_lt.mp hle
      have e1 : (p.1 - x) ^ 2 = 0 := by nlinarith [sq_nonneg (p.1 - x), sq_nonneg (p.2 - y)]
      have e2 : (p.2 - y) ^ 2 = 0 := by nlinarith [sq_nonneg (p.1 - x), sq_nonneg (p.2 - y)]
      exact hp (Prod.ext (sub_eq_zero.mp (pow_eq_zero_iff two_ne_zero |>.mp e1)) (sub_eq_zero.mp (pow_eq_zero_iff two_ne_zero |>.mp e2)))
  have hfour : (Aquifer.fourPiInv : ℝ) ≠ 0 := by
    norm_num [Aquifer.fourPiInv]
  have hd : (pumpedAt ws x y - pumpedAt m.wells x y) * (Aquifer.fourPiInv : ℝ) ≠ 0 := mul_ne_zero (sub_ne_zero.mpr hne) hfour
  have heq : ∀ᶠ p in nhdsWithin (x, y) {(x, y)}ᶜ, (R p - R' p) / ((pumpedAt ws x y - pumpedAt m.wells x y) * (Aquifer.fourPiInv : ℝ)) = Real.log ((p.1 - x) ^ 2 + (p.2 - y) ^ 2) := by
    filter_upwards [eventually_off m.wells (x, y), eventually_off ws (x, y)] with p h1 h2
    have e := h p.1 p.2 (fun w hw => h1 w hw) (fun w hw => h2 w hw)
    rw [Aquifer.potential_eq, Aquifer.potential_eq, hR] at e
    have e' := hR' p
    rw [div_eq_iff hd]
    simp only [Aquifer.withWells] at e
    linarith
  have hfin : Filter.Tendsto (fun p => (R p - R' p) / ((pumpedAt ws x y - pumpedAt m.wells x y) * (Aquifer.fourPiInv : ℝ))) (nhdsWithin (x, y) {(x, y)}ᶜ) (nhds ((R (x, y) - R' (x, y)) / ((pumpedAt ws x y - pumpedAt m.wells x y) * (Aquifer.fourPiInv : ℝ)))) :=
    ((hc.tendsto.sub hc'.tendsto).div_const _).mono_left nhdsWithin_le_nhds
  exact not_tendsto_atBot_of_tendsto_nhds hfin (hlog.congr' (heq.mono fun _ h => h.symm))

end Oneka
