import Verif.Lemmas.RunReach
import Verif.Lemmas.PropsCauses
import Verif.Spec.Sensitivity

/-!
# Lemmas for Props/Sensitivity.lean
-/

namespace Oneka

open PField

/-! ## Where a run records, as a function of umbra, spacing and tracks -/

theorem nearTrack_mono {vs : List (ℝ × ℝ)} {u u' X Y : ℝ} (hu : 0 ≤ u) (h : u ≤ u') (hn : NearTrack vs u X Y) : NearTrack vs u' X Y := by
  obtain ⟨a, b, h1, h2, t, h3, h4, h5⟩ := hn
  exact ⟨a, b, h1, h2, t, h3, h4, lt_of_lt_of_le h5 (pow_le_pow_left₀ hu h 2)⟩

theorem inReach_mono {o d d' X : ℝ} {s s' : List ℝ} (hd : d ≤ d') (hs : s ⊆ s') (h : InReach o d s X) : InReach o d' s' X := by
  obtain ⟨h1, h2⟩ := h
  refine ⟨h1.imp (fun h => by linarith) ?_, h2.imp (fun h => by linarith) ?_⟩
  · rintro ⟨x, hx, h⟩; exact ⟨x, hs hx, by linarith⟩
  · rintro ⟨x, hx, h⟩; exact ⟨x, hs hx, by linarith⟩

theorem reached_mono {xo yo d d' X Y : ℝ} {s s' : List (ℝ × ℝ)} (hd : d ≤ d') (hs : s ⊆ s') (h : Reached xo yo d d s X Y) :
    Reached xo yo d' d' s' X Y :=
  ⟨inReach_mono hd (List.map_subset _ hs) h.1, inReach_mono hd (List.map_subset _ hs) h.2⟩

theorem within_paths {k : ℕ} {L L' : RealizationLog} (h : L.Within k L') {j : ℕ} {vs : List (ℝ × ℝ)} (hj : L.paths[j]? = some vs) :
    L'.paths[k * j]? = some vs := by
  unfold RealizationLog.paths at hj ⊢
  rw [List.getElem?_map] at hj ⊢
  have hl : j < L.traces.length := by
    by_contra hh
    rw [List.getElem?_eq_none (by omega)] at hj
    simp at hj
  rw [← h.traces j hl]
  exact hj

theorem within_subset {k : ℕ} {L L' : RealizationLog} (h : L.Within k L') : L.paths.flatten ⊆ L'.paths.flatten := by
  intro p hp
  obtain ⟨vs, hvs, hp⟩ := List.mem_flatten.mp hp
  obtain ⟨j, hj⟩ := List.mem_iff_getElem?.mp hvs
  exact List.mem_flatten.mpr ⟨vs, List.mem_of_getElem? (within_paths h hj), hp⟩

theorem forall₂_getElem? {α β : Type} {R : α → β → Prop} {l : List α} {l' : List β} (h : List.Forall₂ R l l') :
    ∀ {i : ℕ} {x : α}, l[i]? = some x → ∃ y, l'[i]? = some y ∧ R x y := by
  induction h with
  | nil => intro i x h; simp at h
  | cons hr _ ih =>
    intro i x hx
    cases i with
    | zero =>
      simp only [List.length_cons, Nat.zero_lt_succ, List.getElem?_cons_zero, Option.some.injEq] at hx
      subst hx
      exact ⟨_, by simp, hr⟩
    | succ i => obtain ⟨y, h1, h2⟩ := ih (i := i) (by simpa using hx); exact ⟨y, by simpa using h1, h2⟩

theorem allVertices_subset {k : ℕ} {l l' : List RealizationLog} (h : List.Forall₂ (RealizationLog.Within k) l l') :
    allVertices l ⊆ allVertices l' := by
  unfold allVertices
  induction h with
  | nil => simp
  | cons hr _ ih =>
    simp only [List.flatMap_cons]
    exact List.append_subset.mpr ⟨fun x hx => List.mem_append_left _ (within_subset hr hx), fun x hx => List.mem_append_right _ (ih hx)⟩

theorem within_records {k : ℕ} (hk : 0 < k) {L L' : RealizationLog} (h : L.Within k L') {xo yo d d' u u' X Y : ℝ} {s s' : List (ℝ × ℝ)}
    (hd : d ≤ d') (hu : 0 ≤ u) (huu : u ≤ u') (hs : s ⊆ s') (hr : RecordsInOrder xo yo d d s u L.paths X Y) :
    RecordsInOrder xo yo d' d' s' u' L'.paths X Y := by
  obtain ⟨before, vs, after, e, hn, hre⟩ := hr
  have hj : L.paths[before.length]? = some vs := by rw [e]; simp
  have hj' := within_paths h hj
  obtain ⟨hlt, hv⟩ := List.getElem?_eq_some_iff.mp hj'
  refine ⟨L'.paths.take (k * before.length), vs, L'.paths.drop (k * before.length + 1), ?_, nearTrack_mono hu huu hn, reached_mono hd ?_ hre⟩
  · rw [← hv, List.getElem_cons_drop, List.take_append_drop]
  · intro p hp
    simp only [List.mem_append] at hp ⊢
    rcases hp with (hp | hp) | hp
    · exact Or.inl (Or.inl (hs hp))
    · refine Or.inl (Or.inr ?_)
      obtain ⟨ws, hws, hp⟩ := List.mem_flatten.mp hp
      obtain ⟨j, hj⟩ := List.mem_iff_getElem?.mp hws
      have hjl : j < before.length := (List.getElem?_eq_some_iff.mp hj).1
      have h1 : L.paths[j]? = some ws := by rw [e, List.getElem?_append_left hjl]; exact hj
      refine List.mem_flatten.mpr ⟨ws, List.mem_of_getElem? (i := k * j) ?_, hp⟩
      rw [List.getElem?_take_of_lt (Nat.mul_lt_mul_of_pos_left hjl hk)]
      exact within_paths h h1
    · exact Or.inr hp

theorem within_recordedBy {k : ℕ} (hk : 0 < k) {l l' : List RealizationLog} (h : List.Forall₂ (RealizationLog.Within k) l l')
    {xo yo d d' u u' X Y : ℝ} (hd : d ≤ d') (hu : 0 ≤ u) (huu : u ≤ u') {i : ℕ} (hr : RecordedBy xo yo d u l X Y i) :
    RecordedBy xo yo d' u' l' X Y i := by
  obtain ⟨L, hL, hr⟩ := hr
  obtain ⟨L', hL', hw⟩ := forall₂_getElem? h hL
  exact ⟨L', hL', within_records hk hw hd hu huu (allVertices_subset (List.forall₂_take i h)) hr⟩

theorem recordedBy_reached {xo yo d u X Y : ℝ} {l : List RealizationLog} {i : ℕ} (h : RecordedBy xo yo d u l X Y i) :
    Reached xo yo d d (allVertices l) X Y := by
  obtain ⟨L, hL, before, vs, after, e, -, hr⟩ := h
  refine reached_mono le_rfl ?_ hr
  have hlt := (List.getElem?_eq_some_iff.mp hL).1
  have hv := (List.getElem?_eq_some_iff.mp hL).2
  have hsplit : l = l.take i ++ L :: l.drop (i + 1) := by rw [← hv, List.getElem_cons_drop, List.take_append_drop]
  intro p hp
  unfold allVertices at hp ⊢
  rw [hsplit, List.flatMap_append, List.flatMap_cons, e]
  simp only [List.mem_append, List.flatten_append, List.flatten_cons] at hp ⊢
  tauto

/-! ## The same realization with `k` times as many paths -/

theorem capture_returns {xt yt rt u w : ℝ} {d tol ms : XR} {fe : ℕ → ℕ → XR × XR → Except PyErr (XR × XR)} {n : ℤ} {f : PField ℝ} (hf : f.WF)
    (h : ∀ k : ℕ, (k : ℤ) < n → computeBacktrace (.fin (xt + (rt + 1) * Real.cos (2 * Real.pi * k / n)))
      (.fin (yt + (rt + 1) * Real.sin (2 * Real.pi * k / n))) d tol ms (fe k) ≠ none) :
    ∃ r, computeCapturezone xt yt rt n d f u w tol ms fe = some r := by
  rw [← Option.ne_none_iff_exists']
  intro hn
  obtain ⟨k, hk, he⟩ := capture_endless hf hn
  exact h k hk he

theorem capture_traces {xt yt rt u w : ℝ} {d tol ms : XR} {fe : ℕ → ℕ → XR × XR → Except PyErr (XR × XR)} {n : ℕ} {f : PField ℝ}
    (hf : f.WF) (hb : f.body ≠ none) {r : CZResult} (h : computeCapturezone xt yt rt n d f u w tol ms fe = some r) {j : ℕ} (hj : j < n) :
    r.traces[j]? = computeBacktrace (.fin (xt + (rt + 1) * Real.cos (2 * Real.pi * j / n)))
      (.fin (yt + (rt + 1) * Real.sin (2 * Real.pi * j / n))) d tol ms (fe j) := by
  obtain ⟨-, hl, -, -, ht⟩ := capture_spec hf (Or.inl hb) h
  have hg := List.getElem?_eq_getElem (l := r.traces) (i := j) (by omega)
  have := ht j _ hg
  rw [hg, ← this]
  simp only [startAt]
  rw [show (j:ℝ) * (2 * Real.pi / n) = 2 * Real.pi * j / n by ring, add_comm xt, add_comm yt]

theorem capture_denser {xt yt rt u u' w w' : ℝ} {d tol ms : XR} {fe fe' : ℕ → ℕ → XR × XR → Except PyErr (XR × XR)} {n : ℤ} {k : ℕ} (hk : 0 < k)
    {f f' : PField ℝ} (hf : f.WF) (hb : f.body ≠ none) (hf' : f'.WF) (hb' : f'.body ≠ none) (hfe : ∀ j, fe' (k * j) = fe j) {r' : CZResult}
    (h : computeCapturezone xt yt rt (k * n) d f' u' w' tol ms fe' = some r') (ho : r'.outcome = .ok ()) :
    ∃ r, computeCapturezone xt yt rt n d f u w tol ms fe = some r ∧ r.outcome = .ok () ∧ r'.traces.length = k * r.traces.length ∧
      ∀ j < r.traces.length, r.traces[j]? = r'.traces[k * j]? := by
  obtain ⟨h1, h2⟩ := capture_toNat h ho
  have hn : -1 ≤ n := by
    by_contra hh
    have : (k : ℤ) * n ≤ k * (-2) := mul_le_mul_of_nonneg_left (by omega) (by omega)
    omega
  have hkn : ((k : ℤ) * n).toNat = k * n.toNat := by
    rcases (by omega : 0 ≤ n ∨ n = -1) with hp | rfl
    · obtain ⟨m, rfl⟩ := Int.eq_ofNat_of_zero_le hp
      rw [show ((k : ℤ) * (m : ℤ)) = ((k * m : ℕ) : ℤ) by push_cast; ring, Int.toNat_natCast, Int.toNat_natCast]
    · have : (k : ℤ) * (-1) ≤ 0 := by omega
      rw [Int.toNat_of_nonpos this]
      simp
  rw [hkn] at h2
  have hang : ∀ j : ℕ, j < n.toNat → 2 * Real.pi * ((k * j : ℕ) : ℝ) / ((k * n.toNat : ℕ) : ℝ) = 2 * Real.pi * j / (n.toNat : ℝ) := by
    intro j hj
    have hk0 : (k : ℝ) ≠ 0 := by exact_mod_cast hk.ne'
    have hn0 : (n.toNat : ℝ) ≠ 0 := by
      have : n.toNat ≠ 0 := by omega
      exact_mod_cast this
    push_cast
    field_simp
  have htr : ∀ j : ℕ, j < n.toNat → r'.traces[k * j]? = computeBacktrace (.fin (xt + (rt + 1) * Real.cos (2 * Real.pi * j / (n.toNat : ℝ))))
      (.fin (yt + (rt + 1) * Real.sin (2 * Real.pi * j / (n.toNat : ℝ)))) d tol ms (fe j) := by
    intro j hj
    have := capture_traces hf' hb' h2 (j := k * j) (Nat.mul_lt_mul_of_pos_left hj hk)
    rw [this, hang j hj, hfe]
  obtain ⟨-, hl', -, -, -⟩ := capture_spec hf' (Or.inl hb') h2
  have hret : ∃ r, computeCapturezone xt yt rt (n.toNat : ℕ) d f u w tol ms fe = some r := by
    refine capture_returns hf fun j hj => ?_
    have hj' : j < n.toNat := by exact_mod_cast hj
    have e := htr j hj'
    have hlt : k * j < r'.traces.length := by rw [hl']; exact Nat.mul_lt_mul_of_pos_left hj' hk
    rw [List.getElem?_eq_getElem hlt] at e
    rw [Int.cast_natCast, ← e]
    simp
  obtain ⟨r, hr⟩ := hret
  obtain ⟨c1, c2, -, -, -⟩ := capture_spec hf (Or.inl hb) hr
  refine ⟨r, ?_, c1, by rw [hl', c2], fun j hj => ?_⟩
  · rcases (by omega : 0 ≤ n ∨ n = -1) with hp | rfl
    · rwa [Int.toNat_of_nonneg hp] at hr
    · have e : startAngles ((-1 : ℤ).toNat : ℕ) = startAngles (-1) := by
        unfold startAngles
        simp [show (-1 : ℤ).toNat = 0 from rfl]
      rw [← hr]
      unfold computeCapturezone
      rw [e]
  · rw [c2] at hj
    rw [htr j hj, capture_traces hf hb hr hj]

theorem realize_denser {a : RunArgs} {la : LinAlg} {t : SWell} {q : Dist → ℕ → Except PyErr ℝ}
    {coefs : (Fin 6 → ℝ) → Matrix (Fin 6) (Fin 6) ℝ → Except PyErr (Fin 6 → ℝ)} {recharge : (Fin 6 → ℝ) → ℝ}
    {i i' : ℕ → ℕ → Option PyErr} {k : ℕ} (hk : 0 < k) (hi : ∀ j n, i' (k * j) n = i j n) {u' s' : ℝ} {f f' g' : PField ℝ} {l' : List RealizationLog}
    (hf : f.WF) (hb : f.body ≠ none) (hf' : f'.WF) (hb' : f'.body ≠ none)
    (h : realize (a.denser k u' s') la t q coefs recharge i' f' = some (.ok g', l')) :
    ∃ g L L', realize a la t q coefs recharge i f = some (.ok g, [L]) ∧ l' = [L'] ∧ L.Within k L' := by
  unfold realize at h ⊢
  have hdm : drawModel (a.denser k u' s') q = drawModel a q := rfl
  rw [hdm] at h
  cases hmo : drawModel a q with
  | error e => rw [hmo] at h; simp at h
  | ok mo =>
    rw [hmo] at h
    simp only at h ⊢
    rw [show (a.denser k u' s').obs = a.obs from rfl] at h
    rcases hfit : mo.fitRegionalFlow la a.obs t.xw t.yw with ⟨mo', _ | ⟨ev, cov⟩⟩
    · rw [hfit] at h; simp at h
    · rw [hfit] at h
      simp only at h ⊢
      cases hc : coefs ev cov with
      | error e => rw [hc] at h; simp at h
      | ok c =>
        rw [hc] at h
        simp only at h ⊢
        split at h
        · simp at h
        · rename_i r' hr'
          simp only [Option.some.injEq, Prod.mk.injEq] at h
          obtain ⟨ho, rfl⟩ := h
          have hout : r'.outcome = .ok () := by
            cases hro : r'.outcome with
            | ok _ => rfl
            | error e => rw [hro] at ho; simp [Except.map] at ho
          obtain ⟨r, e1, e2, e3, e4⟩ := capture_denser (n := a.npaths) (u := a.umbra) (w := 1) (fe := runVelocity { mo' with coef := c } a.confined i)
            hk hf hb hf' hb' (fun j => by
              funext n p
              unfold runVelocity
              rw [hi]
              rfl) hr' hout
          have e1' : computeCapturezone t.xw t.yw t.rw a.npaths a.duration f a.umbra 1 a.tol a.maxstep
            (runVelocity { mo' with coef := c } a.confined i) = some r := e1
          rw [e1']
          exact ⟨r.field, ⟨{ mo' with coef := c }, ev, cov, recharge c, r.traces⟩, _, by simp only [e2]; rfl, rfl, ⟨rfl, rfl, rfl, rfl, e3, e4⟩⟩

theorem loop_denser {a : RunArgs} {env env' : Env} {t : SWell} {k : ℕ} (hk : 0 < k) (he : env.Denser k env') {u' s' : ℝ} :
    ∀ (n i : ℕ) (f f' : PField ℝ) (acc acc' : List RealizationLog) (r' : RunResult) (g' : PField ℝ),
    f.WF → f.body ≠ none → f'.WF → f'.body ≠ none → List.Forall₂ (RealizationLog.Within k) acc acc' →
    stochasticLoop (a.denser k u' s') env' t n i f' acc' = some r' → r'.outcome = .ok g' →
    ∃ r g, stochasticLoop a env t n i f acc = some r ∧ r.outcome = .ok g ∧ List.Forall₂ (RealizationLog.Within k) r.log r'.log := by
  intro n
  induction n with
  | zero =>
    intro i f f' acc acc' r' g' _ _ _ _ hacc h ho
    obtain rfl := Option.some.inj h
    exact ⟨_, f, rfl, rfl, hacc⟩
  | succ n ih =>
    intro i f f' acc acc' r' g' hf hb hf' hb' hacc h ho
    unfold stochasticLoop at h ⊢
    rw [he.la, he.u, he.mvn] at h
    split at h
    · simp at h
    · obtain rfl := Option.some.inj h
      simp at ho
    · rename_i f1' l' hreal'
      obtain ⟨g, L, L', hr, rfl, hw⟩ := realize_denser (i := env.interrupt i) hk (he.interrupt i) hf hb hf' hb' hreal'
      obtain ⟨-, -, -, -, wf1, b1⟩ := realize_run hf hb hr
      obtain ⟨-, -, -, -, wf1', b1'⟩ := realize_run hf' hb' hreal'
      rw [hr]
      exact ih (i+1) g f1' _ _ r' g' wf1 b1 wf1' b1' (List.rel_append hacc (.cons hw .nil)) h ho

/-! ## Only the umbra and the spacing differ -/

theorem captureLoop_same {xt yt rt u u' : ℝ} {d tol ms : XR} {fe : ℕ → ℕ → XR × XR → Except PyErr (XR × XR)} (θs : List ℝ) :
    ∀ (i : ℕ) (f f' : PField ℝ) (acc : List (Trace XR)), f.WF → f'.WF → f.body ≠ none → f'.body ≠ none →
      (captureLoop xt yt rt d u tol ms fe θs i f acc = none ∧ captureLoop xt yt rt d u' tol ms fe θs i f' acc = none) ∨
      ∃ g g' ts, captureLoop xt yt rt d u tol ms fe θs i f acc = some ⟨g, .ok (), ts⟩ ∧
        captureLoop xt yt rt d u' tol ms fe θs i f' acc = some ⟨g', .ok (), ts⟩ ∧ g.WF ∧ g'.WF ∧ g.body ≠ none ∧ g'.body ≠ none := by
  induction θs with
  | nil => intro i f f' acc hf hf' hb hb'; exact Or.inr ⟨f, f', acc, rfl, rfl, hf, hf', hb, hb'⟩
  | cons θ θs ih =>
    intro i f f' acc hf hf' hb hb'
    unfold captureLoop
    cases ht : computeBacktrace (.fin ((rt + 1) * Real.cos θ + xt)) (.fin ((rt + 1) * Real.sin θ + yt)) d tol ms (fe i) with
    | none => exact Or.inl ⟨rfl, rfl⟩
    | some t =>
      have hv := trace_vertices ht
      have hne : t.path.map Prod.fst ≠ [] := by unfold Trace.path; rw [hv]; simp
      obtain ⟨f1, e1, v, -⟩ := rasterize_view f hf (t.path.map Prod.fst) (t.path.map Prod.snd) u hne (by simp)
      obtain ⟨f1', e1', v', -⟩ := rasterize_view f' hf' (t.path.map Prod.fst) (t.path.map Prod.snd) u' hne (by simp)
      simp only [e1, e1']
      exact ih (i+1) f1 f1' _ v.wf v'.wf v.body v'.body

theorem redrawn_capture {xt yt rt u u' w : ℝ} {d tol ms : XR} {fe : ℕ → ℕ → XR × XR → Except PyErr (XR × XR)} {n : ℤ} {f f' : PField ℝ}
    (hf : f.WF) (hf' : f'.WF) (hb : f.body ≠ none) (hb' : f'.body ≠ none) :
    (computeCapturezone xt yt rt n d f u w tol ms fe = none ∧ computeCapturezone xt yt rt n d f' u' w tol ms fe = none) ∨
    ∃ r r', computeCapturezone xt yt rt n d f u w tol ms fe = some r ∧ computeCapturezone xt yt rt n d f' u' w tol ms fe = some r' ∧
      r.outcome = r'.outcome ∧ r.traces = r'.traces := by
  unfold computeCapturezone
  cases startAngles n with
  | error e => exact Or.inr ⟨_, _, rfl, rfl, rfl, rfl⟩
  | ok θs =>
    rcases captureLoop_same (u := u) (u' := u') (xt := xt) (yt := yt) (rt := rt) (d := d) (tol := tol) (ms := ms) (fe := fe) θs 0 f f' [] hf hf' hb hb' with
      ⟨h, h'⟩ | ⟨g, g', ts, h, h', wg, wg', bg, bg'⟩
    · simp only [h, h']; exact Or.inl ⟨trivial, trivial⟩
    · obtain ⟨g2, e2, -⟩ := register_view g wg bg w
      obtain ⟨g2', e2', -⟩ := register_view g' wg' bg' w
      simp only [h, h', e2, e2']
      exact Or.inr ⟨_, _, rfl, rfl, rfl, rfl⟩

theorem redrawn_realize {a : RunArgs} {la : LinAlg} {t : SWell} {q : Dist → ℕ → Except PyErr ℝ}
    {coefs : (Fin 6 → ℝ) → Matrix (Fin 6) (Fin 6) ℝ → Except PyErr (Fin 6 → ℝ)} {recharge : (Fin 6 → ℝ) → ℝ}
    {i : ℕ → ℕ → Option PyErr} {u' s' : ℝ} {f f' : PField ℝ} (hf : f.WF) (hf' : f'.WF) (hb : f.body ≠ none) (hb' : f'.body ≠ none) :
    (realize a la t q coefs recharge i f = none ∧ realize (a.redrawn u' s') la t q coefs recharge i f' = none) ∨
    (∃ e l, realize a la t q coefs recharge i f = some (.error e, l) ∧ realize (a.redrawn u' s') la t q coefs recharge i f' = some (.error e, l)) ∨
    (∃ g g' l, realize a la t q coefs recharge i f = some (.ok g, l) ∧ realize (a.redrawn u' s') la t q coefs recharge i f' = some (.ok g', l)) := by
  unfold realize
  rw [show drawModel (a.redrawn u' s') q = drawModel a q from rfl]
  cases drawModel a q with
  | error e => exact Or.inr (Or.inl ⟨e, [], rfl, rfl⟩)
  | ok mo =>
    simp only
    rw [show (a.redrawn u' s').obs = a.obs from rfl]
    rcases mo.fitRegionalFlow la a.obs t.xw t.yw with ⟨mo', e | ⟨ev, cov⟩⟩
    · exact Or.inr (Or.inl ⟨e, [], rfl, rfl⟩)
    · simp only
      cases coefs ev cov with
      | error e => exact Or.inr (Or.inl ⟨e, [], rfl, rfl⟩)
      | ok c =>
        simp only
        rcases redrawn_capture (xt := t.xw) (yt := t.yw) (rt := t.rw) (u := a.umbra) (u' := u') (w := 1) (d := a.duration) (tol := a.tol) (ms := a.maxstep)
          (fe := runVelocity { mo' with coef := c } a.confined i) (n := a.npaths) hf hf' hb hb' with ⟨h, h'⟩ | ⟨⟨g, o, ts⟩, ⟨g', o', ts'⟩, h, h', ho, ht⟩
        · left
          constructor
          · rw [h]
          · split
            · rfl
            · rename_i r hr
              rw [show (a.redrawn u' s').umbra = u' from rfl] at hr
              exact absurd (h'.symm.trans hr) (by simp)
        · simp only at ho ht
          subst ho ht
          have h2 : computeCapturezone t.xw t.yw t.rw (a.redrawn u' s').npaths (a.redrawn u' s').duration f' (a.redrawn u' s').umbra 1 (a.redrawn u' s').tol
            (a.redrawn u' s').maxstep (runVelocity { mo' with coef := c } (a.redrawn u' s').confined i) = some ⟨g', o, ts⟩ := h'
          rw [h, h2]
          cases o with
          | error e => exact Or.inr (Or.inl ⟨e, _, rfl, rfl⟩)
          | ok _ => exact Or.inr (Or.inr ⟨g, g', _, rfl, rfl⟩)

theorem redrawn_loop {a : RunArgs} {env : Env} {t : SWell} {u' s' : ℝ} :
    ∀ (n i : ℕ) (f f' : PField ℝ) (acc : List RealizationLog), f.WF → f'.WF → f.body ≠ none → f'.body ≠ none →
    SameCourse (stochasticLoop a env t n i f acc) (stochasticLoop (a.redrawn u' s') env t n i f' acc) := by
  intro n
  induction n with
  | zero => intro i f f' acc _ _ _ _; exact rfl
  | succ n ih =>
    intro i f f' acc hf hf' hb hb'
    unfold stochasticLoop
    rcases redrawn_realize (a := a) (la := env.la) (t := t) (q := fun d j => d.sample (env.u i j)) (coefs := env.mvn i)
      (recharge := fun c => 2 * (c 0 + c 1)) (i := env.interrupt i) (u' := u') (s' := s') hf hf' hb hb' with ⟨h, h'⟩ | ⟨e, l, h, h'⟩ | ⟨g, g', l, h, h'⟩
    · rw [h, h']; exact trivial
    · rw [h, h']; exact ⟨rfl, rfl⟩
    · obtain ⟨-, -, -, -, w, b⟩ := realize_run hf hb h
      obtain ⟨-, -, -, -, w', b'⟩ := realize_run hf' hb' h'
      rw [h, h']
      exact ih (i+1) g g' _ w w' b b'

theorem weight_off {f : PField ℝ} {X Y : ℝ} (h : ¬ f.IsNode X Y) : f.weightAt X Y = 0 := by
  classical
  unfold weightAt lookAt
  rw [dif_neg]
  rintro ⟨v, b, i, j, h1, h2, h3, h4, h5, -⟩
  exact h ⟨b, h1, i, j, h2, h3, h4, h5⟩

theorem new_pos {s xo yo : ℝ} (hs : 0 < s) : ∃ f : PField ℝ, PField.new s s (some xo) (some yo) = .ok f ∧ f.WF ∧ f.body ≠ none := by
  cases h : PField.new s s (some xo) (some yo) with
  | error e =>
    unfold PField.new at h
    rw [if_neg (not_le.mpr hs), if_neg (not_le.mpr hs)] at h
    simp at h
  | ok f =>
    obtain ⟨-, -, -, -, hr, -, -, ⟨b, hb, -⟩, -⟩ := new_spec h
    exact ⟨f, rfl, reachable_wf hr, by rw [hb]; simp⟩

end Oneka
