import Verif.Lemmas.FlRK

/-! # The accuracy of a floating-point trace -/

namespace Oneka
section
variable [LibM]

/-- The length of a step as computed. -/
theorem ds_ge_fl (a b : Fl × Fl) : (1 - eps) ^ 3 * ‖fv a - fv b‖ ≤ (norm2 (a - b)).val := by
  have e := eps_pos; have e' := eps_small
  have e1 : (0:ℝ) ≤ 1 - eps := by linarith
  have low : ∀ x : ℝ, 0 ≤ x → (1 - eps) * x ≤ round53 x := by
    intro x hx
    have := (abs_le.mp (round53_accurate x)).1
    rw [abs_of_nonneg hx] at this
    have e' : (2:ℝ) ^ (-53:ℤ) = eps := rfl
    rw [e'] at this
    linarith
  have comp : ∀ x y z : Fl, (1 - eps) ^ 3 * |x.val - y.val| ≤ round53 (Real.sqrt (round53 (round53 ((x - y).val * (x - y).val) + round53 (z.val * z.val)))) := by
    intro x y z
    have d1 : (1 - eps) * |x.val - y.val| ≤ |(x - y).val| := by
      rw [Fl.sub_val]
      have := round53_accurate (x.val - y.val)
      have e' : (2:ℝ) ^ (-53:ℤ) = eps := rfl
      rw [e'] at this
      have h2 := abs_sub_abs_le_abs_sub (x.val - y.val) (round53 (x.val - y.val))
      rw [abs_sub_comm (x.val - y.val) (round53 _)] at h2
      linarith
    have d2 : (1 - eps) ^ 2 * |(x - y).val| ^ 2 ≤ round53 (round53 ((x - y).val * (x - y).val) + round53 (z.val * z.val)) := by
      have h1 := low _ (mul_self_nonneg (x - y).val)
      have h2 := round53_nonneg (mul_self_nonneg z.val)
      have h3 : round53 (round53 ((x - y).val * (x - y).val)) ≤ round53 (round53 ((x - y).val * (x - y).val) + round53 (z.val * z.val)) := round53_mono (by linarith)
      rw [round53_idem] at h3
      rw [sq_abs]
      have h4 := mul_self_nonneg (x - y).val
      have h5 : (1 - eps) ^ 2 * (x - y).val ^ 2 ≤ (1 - eps) * ((x - y).val * (x - y).val) := by
        rw [pow_two, pow_two, mul_assoc]
        exact mul_le_mul_of_nonneg_left (mul_le_of_le_one_left h4 (by linarith)) e1
      linarith
    have d3 : (1 - eps) * |(x - y).val| ≤ Real.sqrt (round53 (round53 ((x - y).val * (x - y).val) + round53 (z.val * z.val))) := by
      refine Real.le_sqrt_of_sq_le ?_
      rw [mul_pow]; exact d2
    have d4 := low _ (Real.sqrt_nonneg (round53 (round53 ((x - y).val * (x - y).val) + round53 (z.val * z.val))))
    have d5 := mul_le_mul_of_nonneg_left d3 e1
    have d6 := mul_le_mul_of_nonneg_left d1 (mul_nonneg e1 e1)
    calc (1 - eps) ^ 3 * |x.val - y.val| = (1 - eps) * (1 - eps) * ((1 - eps) * |x.val - y.val|) := by ring
      _ ≤ _ := d6
      _ = (1 - eps) * ((1 - eps) * |(x - y).val|) := by ring
      _ ≤ _ := d5.trans d4
  rw [Prod.norm_def]
  have hd : (norm2 (a - b)).val = round53 (Real.sqrt (round53 (round53 ((a.1 - b.1).val * (a.1 - b.1).val) + round53 ((a.2 - b.2).val * (a.2 - b.2).val)))) := rfl
  rw [mul_max_of_nonneg _ _ (by positivity)]
  refine max_le ?_ ?_
  · rw [hd]; exact comp a.1 b.1 _
  · rw [hd, add_comm]; exact comp a.2 b.2 _

theorem step_le_fl {a b : Fl × Fl} {m : ℝ} (h : (norm2 (a - b)).val < m) : ‖fv a - fv b‖ ≤ m * (1 + 4 * eps) := by
  have e := eps_pos; have e' := eps_small
  have h1 := ds_ge_fl a b
  have n := norm_nonneg (fv a - fv b)
  have h2 : 1 ≤ (1 - eps) ^ 3 * (1 + 4 * eps) := by
    have : (1 - eps) ^ 3 * (1 + 4 * eps) - 1 = eps * (1 - 9 * eps + 11 * eps ^ 2 - 4 * eps ^ 3) := by ring
    have h3 : 0 ≤ 1 - 9 * eps + 11 * eps ^ 2 - 4 * eps ^ 3 := by
      have : eps ^ 3 ≤ eps ^ 2 := by nlinarith [sq_nonneg eps]
      nlinarith [sq_nonneg eps]
    have := mul_nonneg e.le h3
    linarith
  have h3 : ‖fv a - fv b‖ ≤ (1 - eps) ^ 3 * ‖fv a - fv b‖ * (1 + 4 * eps) := by
    have := mul_le_mul_of_nonneg_left h2 n
    linarith
  exact h3.trans (mul_le_mul_of_nonneg_right (h1.trans h.le) (by linarith))

/-- The bound on the error of the vertex after `k` steps, at time `s`. -/
noncomputable def errBound (L m' η μ : ℝ) (k : ℕ) (s : ℝ) : ℝ := 22 * m' * (Real.exp (L * s) - 1) + (k * η + 2 * (s * μ)) * Real.exp (L * s)

omit [LibM] in
theorem errBound_mono {L m' η μ s t : ℝ} {k n : ℕ} (hL : 0 ≤ L) (hm : 0 ≤ m') (hη : 0 ≤ η) (hμ : 0 ≤ μ) (h0 : 0 ≤ s) (h : s ≤ t) (hk : k ≤ n) :
    errBound L m' η μ k s ≤ errBound L m' η μ n t := by
  have e1 := Real.exp_le_exp.mpr (mul_le_mul_of_nonneg_left h hL)
  have e0 := (Real.exp_pos (L * s)).le
  unfold errBound
  refine add_le_add (mul_le_mul_of_nonneg_left (by linarith) (by positivity)) (mul_le_mul ?_ e1 e0 (by have := h0.trans h; positivity))
  have h1 : (k : ℝ) * η ≤ n * η := mul_le_mul_of_nonneg_right (by exact_mod_cast hk) hη
  have h2 := mul_le_mul_of_nonneg_right h hμ
  linarith

omit [LibM] in
theorem errBound_nonneg {L m' η μ s : ℝ} {k : ℕ} (hL : 0 ≤ L) (hm : 0 ≤ m') (hη : 0 ≤ η) (hμ : 0 ≤ μ) (h0 : 0 ≤ s) : 0 ≤ errBound L m' η μ k s := by
  have := Real.one_le_exp (mul_nonneg hL h0)
  have e1 : 0 ≤ Real.exp (L * s) - 1 := by linarith
  unfold errBound
  positivity

/-- the setting of the accuracy theorem -/
structure AccurateFl (fe : ℕ → Fl × Fl → Except PyErr (Fl × Fl)) (f : ℝ × ℝ → ℝ × ℝ) (X : ℝ → ℝ × ℝ) (start : ℝ × ℝ) (T L M H ρ m' m R ν η μ : ℝ) (N : ℕ) : Prop where
  path : Pathline f start T X
  tame : Moderate f (Tube X T ρ) L M
  approx : Approximates fe f (Tube X T ρ) ν
  L0 : 0 < L
  z : L * H ≤ 1/100
  M0 : 0 ≤ M
  H0 : 0 ≤ H
  m0 : 0 < m
  ν0 : 0 ≤ ν
  η0 : 0 ≤ η
  hη : η = eps * (R + 18 * ρ)
  hμ : μ = ν + L * η
  hm' : m' = m * (1 + 4 * eps) + η + 3 * (H * μ)
  hR : ∀ t, 0 ≤ t → t ≤ T → ‖X t‖ ≤ R
  fits : errBound L m' η μ N T + 25 * (H * (M + μ)) + η ≤ ρ

variable {fe : ℕ → Fl × Fl → Except PyErr (Fl × Fl)} {f : ℝ × ℝ → ℝ × ℝ} {X : ℝ → ℝ × ℝ} {start : ℝ × ℝ} {T L M H ρ m' m R ν η μ : ℝ} {N : ℕ}

omit [LibM] in
theorem AccurateFl.μ0 (A : AccurateFl fe f X start T L M H ρ m' m R ν η μ N) : 0 ≤ μ := by
  rw [A.hμ]; have := A.ν0; have := A.η0; have := A.L0; positivity

omit [LibM] in
theorem AccurateFl.m'0 (A : AccurateFl fe f X start T L M H ρ m' m R ν η μ N) : 0 ≤ m' := by
  rw [A.hm']; have := A.μ0; have := A.η0; have := A.H0; have := A.m0; have := eps_pos; positivity

/-- one trial step of the loop -/
theorem AccurateFl.step (A : AccurateFl fe f X start T L M H ρ m' m R ν η μ N) {t : ℝ} {d est ds : Fl} {p k1 xyt k7 : Fl × Fl} {n k : ℕ} (hk : k ≤ N) (t0 : 0 ≤ t)
    (hd : 0 ≤ d.val) (hH : d.val ≤ H) (thT : t + d.val ≤ T) (hk1 : ‖fv k1 - f (fv p)‖ ≤ ν) (hp : ‖fv p - X t‖ ≤ errBound L m' η μ k t)
    (ht : trial fe n p k1 d = .ok (xyt, k7, est, ds)) :
    ‖fv k7 - f (fv xyt)‖ ≤ ν ∧ (ds.val < m → ‖fv xyt - X (t + d.val)‖ ≤ errBound L m' η μ (k + 1) (t + d.val)) := by
  have hL := A.L0
  have μ0 := A.μ0
  have η0 := A.η0
  have m'0 := A.m'0
  have e := eps_pos
  have hz : d.val * L ≤ 1/100 := by
    have := mul_le_mul_of_nonneg_left hH hL.le
    linarith [A.z]
  have tT : t ≤ T := by linarith
  have hB := errBound_mono hL.le m'0 η0 μ0 t0 tT hk
  have hHM : 0 ≤ H * (M + μ) := mul_nonneg A.H0 (add_nonneg A.M0 μ0)
  have hfit := A.fits
  have hpU : fv p ∈ Tube X T ρ := ⟨t, t0, tT, by linarith⟩
  have hMp := A.tame.bound _ hpU
  set G := ‖f (fv p)‖ + μ with hG
  have hν := norm_nonneg (f (fv p))
  have G0 : 0 ≤ G := by positivity
  have hdG : d.val * G ≤ H * (M + μ) := mul_le_mul hH (by linarith) G0 A.H0
  have hball : ∀ q, ‖q - fv p‖ ≤ 25 * (d.val * G) + η → q ∈ Tube X T ρ := by
    intro q hq
    refine ⟨t, t0, tT, ?_⟩
    have h2 : ‖q - X t‖ ≤ ‖q - fv p‖ + ‖fv p - X t‖ := by
      have := norm_add_le (q - fv p) (fv p - X t)
      rwa [sub_add_sub_cancel] at this
    linarith
  have hη : eps * (‖fv p‖ + 425 * (d.val * G)) ≤ η := by
    rw [A.hη]
    refine mul_le_mul_of_nonneg_left ?_ e.le
    have h1 : ‖fv p‖ ≤ ‖fv p - X t‖ + ‖X t‖ := by
      have := norm_add_le (fv p - X t) (X t)
      rwa [sub_add_cancel] at this
    have h2 := A.hR t t0 tT
    have h3 := errBound_nonneg (k := N) hL.le m'0 η0 μ0 (t0.trans tT)
    linarith
  obtain ⟨near, hxU, hk7⟩ := trial_near_fl hL.le hd hz A.approx A.tame.lip (by rw [← A.hμ]) hball hη A.ν0 η0 hk1 ht
  refine ⟨hk7, fun hacc => ?_⟩
  rw [← A.hμ] at near
  obtain ⟨_, _, _, _, _, -, -, -, -, -, -, -, -, hds⟩ := trial_evals ht
  rw [hds] at hacc
  have hstep := step_le_fl hacc
  have hx : ‖d.val • f (fv p)‖ = d.val * ‖f (fv p)‖ := by rw [norm_smul, Real.norm_eq_abs, abs_of_nonneg hd]
  have hdμ : d.val * μ ≤ H * μ := mul_le_mul_of_nonneg_right hH μ0
  have hlow : d.val * G * (1 - 17 * (d.val * L)) ≤ m' := by
    have : ‖d.val • f (fv p)‖ ≤ ‖fv xyt - fv p‖ + ‖fv xyt - (fv p + d.val • f (fv p))‖ := by
      have := norm_sub_le (fv xyt - fv p) (fv xyt - (fv p + d.val • f (fv p)))
      rwa [show fv xyt - fv p - (fv xyt - (fv p + d.val • f (fv p))) = d.val • f (fv p) by abel] at this
    rw [hx] at this
    rw [A.hm']
    have e1 : d.val * G = d.val * ‖f (fv p)‖ + d.val * μ := by rw [hG]; ring
    have e2 : d.val * G * (1 - 17 * (d.val * L)) = d.val * ‖f (fv p)‖ + d.val * μ - 17 * (d.val * L * (d.val * G)) := by rw [mul_sub, mul_one, ← e1]; ring
    rw [e2]
    linarith
  have hs := straight_near (f := f) (X := X) (U := Tube X T ρ) (a := t) (h := d.val) (p := fv p) hL hd A.tame.lip
    (fun u hu => ⟨A.path.2 u (t0.trans hu.1) (hu.2.trans thT), ⟨u, t0.trans hu.1, hu.2.trans thT, by
      rw [sub_self, norm_zero]
      have h1 := (norm_nonneg _).trans hp
      linarith⟩⟩)
    (fun q hq => hball q (by
      have : d.val * ‖f (fv p)‖ ≤ d.val * G := mul_le_mul_of_nonneg_left (by linarith) hd
      have := mul_nonneg hd G0
      linarith)) hp
  have htri : ‖fv xyt - X (t + d.val)‖ ≤ ‖fv xyt - (fv p + d.val • f (fv p))‖ + ‖fv p + d.val • f (fv p) - X (t + d.val)‖ := by
    have := norm_add_le (fv xyt - (fv p + d.val • f (fv p))) (fv p + d.val • f (fv p) - X (t + d.val))
    rwa [sub_add_sub_cancel] at this
  have hse := step_error (t := t) (E := 22 * m' * (Real.exp (L * t) - 1)) hL hd hz m'0 G0 hlow le_rfl
  have e6 : Real.exp (L * (t + d.val)) = Real.exp (L * t) * Real.exp (L * d.val) := by rw [← Real.exp_add]; ring_nf
  have hexp : 0 ≤ Real.exp (L * d.val) - 1 := by have := Real.one_le_exp (mul_nonneg hL.le hd); linarith
  have hexp1 : 1 ≤ Real.exp (L * (t + d.val)) := Real.one_le_exp (mul_nonneg hL.le (add_nonneg t0 hd))
  have hdf : d.val * ‖f (fv p)‖ * (Real.exp (L * d.val) - 1) ≤ d.val * G * (Real.exp (L * d.val) - 1) :=
    mul_le_mul_of_nonneg_right (mul_le_mul_of_nonneg_left (by linarith) hd) hexp
  have hlast : η + 2 * (d.val * μ) ≤ (η + 2 * (d.val * μ)) * Real.exp (L * (t + d.val)) := le_mul_of_one_le_right (by positivity) hexp1
  have eB : errBound L m' η μ (k + 1) (t + d.val) = 22 * m' * (Real.exp (L * (t + d.val)) - 1) + (k * η + 2 * (t * μ)) * Real.exp (L * t) * Real.exp (L * d.val) +
      (η + 2 * (d.val * μ)) * Real.exp (L * (t + d.val)) := by
    unfold errBound; rw [e6]; push_cast; ring
  have eB' : errBound L m' η μ k t * Real.exp (L * d.val) = 22 * m' * (Real.exp (L * t) - 1) * Real.exp (L * d.val) + (k * η + 2 * (t * μ)) * Real.exp (L * t) * Real.exp (L * d.val) := by
    unfold errBound; ring
  rw [eB'] at hs
  rw [eB]
  linarith

/-- the places, with the times at which they are reached -/
def marksFl (t : ℝ) : List (Accepted Fl) → List (ℝ × (Fl × Fl))
  | [] => []
  | a :: l => (t + a.dt.val, a.vertex) :: marksFl (t + a.dt.val) l

/-- the time that the steps take -/
def timeOf (l : List (Accepted Fl)) : ℝ := ((l.map Accepted.dt).map Fl.val).sum

omit [LibM] in
theorem marksFl_snoc (t : ℝ) (l : List (Accepted Fl)) (a : Accepted Fl) :
    marksFl t (l ++ [a]) = marksFl t l ++ [(t + timeOf l + a.dt.val, a.vertex)] := by
  induction l generalizing t with
  | nil => simp [marksFl, timeOf]
  | cons b l ih =>
    simp only [List.cons_append, marksFl, ih]
    simp only [timeOf, List.map_cons, List.sum_cons]
    congr 4
    ring

omit [LibM] in
theorem marksFl_snd (t : ℝ) (l : List (Accepted Fl)) : (marksFl t l).map Prod.snd = l.map Accepted.vertex := by
  induction l generalizing t with
  | nil => rfl
  | cons b l ih => simp [marksFl, ih]

omit [LibM] in
theorem timeOf_snoc (l : List (Accepted Fl)) (a : Accepted Fl) : timeOf (l ++ [a]) = timeOf l + a.dt.val := by
  simp [timeOf]

omit [LibM] in
theorem timeOf_nonneg {l : List (Accepted Fl)} (h : ∀ st ∈ l, 0 < st.dt.val) : 0 ≤ timeOf l := by
  unfold timeOf
  refine List.sum_nonneg ?_
  simp only [List.mem_map, forall_exists_index, and_imp]
  rintro _ _ st hst rfl rfl
  exact (h st hst).le

omit [LibM] in
theorem marksFl_last (t : ℝ) (l : List (Accepted Fl)) : (t :: (marksFl t l).map Prod.fst).getLast? = some (t + timeOf l) := by
  induction l generalizing t with
  | nil => simp [marksFl, timeOf]
  | cons b l ih =>
    have := ih (t + b.dt.val)
    simp only [marksFl, List.map_cons]
    rw [List.getLast?_cons_cons, this]
    simp only [timeOf, List.map_cons, List.sum_cons]
    rw [add_assoc]

omit [LibM] in
theorem marksFl_chain {l : List (Accepted Fl)} (t : ℝ) (h : ∀ st ∈ l, 0 < st.dt.val) : (t :: (marksFl t l).map Prod.fst).IsChain (· < ·) := by
  induction l generalizing t with
  | nil => simp [marksFl]
  | cons b l ih =>
    simp only [marksFl, List.map_cons]
    refine List.isChain_cons_cons.mpr ⟨by have := h b (by simp); linarith, ih _ fun st hst => h st (by simp [hst])⟩

omit [LibM] in
theorem marksFl_strides {H m : ℝ} : ∀ (l : List (Accepted Fl)) (t : ℝ) (p : Fl × Fl), (∀ st ∈ l, 0 < st.dt.val) → (∀ st ∈ l, st.dt.val ≤ H) →
    (p :: l.map Accepted.vertex).IsChain (fun a b => ‖fv b - fv a‖ ≤ m) → ((t, p) :: marksFl t l).IsChain (StrideFl H m) := by
  intro l
  induction l with
  | nil => intro t p _ _ _; simp [marksFl]
  | cons a l ih =>
    intro t p h0 h1 h2
    rw [List.map_cons, List.isChain_cons_cons] at h2
    rw [marksFl, List.isChain_cons_cons]
    have a0 := h0 a (by simp)
    have a1 := h1 a (by simp)
    refine ⟨⟨?_, ?_, h2.1⟩, ih _ _ (fun st hst => h0 st (List.mem_cons_of_mem _ hst)) (fun st hst => h1 st (List.mem_cons_of_mem _ hst)) h2.2⟩
    · dsimp only; linarith
    · dsimp only; linarith

omit [LibM] in
theorem strides_times {H m : ℝ} {p : ℝ × (Fl × Fl)} {path : List (ℝ × (Fl × Fl))} (h : (p :: path).IsChain (StrideFl H m)) : (p.1 :: path.map Prod.fst).IsChain (· < ·) := by
  have : ((p :: path).map Prod.fst).IsChain (· < ·) := by
    rw [List.isChain_map]
    exact h.imp fun _ _ h => h.1
  exact this

theorem trace_strides {xs ys D tol maxstep : Fl} {feval : ℕ → Fl × Fl → Except PyErr (Fl × Fl)} {r : Trace Fl} {H : ℝ} (h : computeBacktrace xs ys D tol maxstep feval = some r)
    (h0 : ∀ st ∈ r.steps, 0 < st.dt.val) (h1 : ∀ st ∈ r.steps, st.dt.val ≤ H) : ((0, (xs, ys)) :: marksFl 0 r.steps).IsChain (StrideFl H (maxstep.val * (1 + 4 * eps))) := by
  refine marksFl_strides _ _ _ h0 h1 ?_
  rw [← trace_vertices h]
  exact (trace_chain h).1.imp fun a b hab => step_le_fl hab

omit [LibM] in
/-- a trace that keeps to the duration -/
theorem OnTime.time {D : Fl} (hD : 0 < D.val) {s : TState Fl} (I : OnTime D s) : timeOf s.ss ≤ D.val * (1 + (s.ss.length + 1) * (2 * eps)) := by
  have h1 := (abs_le.mp I.sum).2
  have h2 := I.le
  have h3 := ulp_eps hD
  change timeOf s.ss - _ ≤ _ at h1
  linarith

theorem accuracy_fl (hpow : PowPositive) {xs ys D tol maxstep : Fl} (A : AccurateFl fe f X (fv (xs, ys)) T L M H ρ m' maxstep.val R ν η μ N) (hD : 0 < D.val) (htol : 0 < tol.val)
    (hT : D.val * (1 + (N + 1) * (2 * eps)) ≤ T) {r : Trace Fl} (h : computeBacktrace xs ys D tol maxstep fe = some r) (hN : r.steps.length ≤ N)
    (hst : ∀ st ∈ r.steps, st.dt.val ≤ H) : ∀ v ∈ marksFl 0 r.steps, v.1 ≤ T ∧ ‖fv v.2 - X v.1‖ ≤ errBound L m' η μ N v.1 := by
  have hT0 : 0 ≤ T := le_trans (by have := eps_pos; positivity) hT
  have hlen : ∀ {s : TState Fl}, OnTime D s → s.ss.length ≤ N → timeOf s.ss ≤ T := by
    intro s I hN
    refine (I.time hD).trans (le_trans ?_ hT)
    have : ((s.ss.length : ℕ) : ℝ) ≤ N := by exact_mod_cast hN
    have e := eps_pos
    exact mul_le_mul_of_nonneg_left (by nlinarith) hD.le
  refine backtrace_inv
    (fun s => OnTime D s ∧ ((∀ st ∈ s.ss, st.dt.val ≤ H) → s.ss.length ≤ N → ‖fv s.k1 - f (fv s.xy)‖ ≤ ν ∧ ‖fv s.xy - X (timeOf s.ss)‖ ≤ errBound L m' η μ s.ss.length (timeOf s.ss) ∧
        ∀ v ∈ marksFl 0 s.ss, v.1 ≤ T ∧ ‖fv v.2 - X v.1‖ ≤ errBound L m' η μ N v.1))
    (fun r => (∀ st ∈ r.steps, st.dt.val ≤ H) → r.steps.length ≤ N → ∀ v ∈ marksFl 0 r.steps, v.1 ≤ T ∧ ‖fv v.2 - X v.1‖ ≤ errBound L m' η μ N v.1) ?_ ?_ ?_ ?_ h hst hN
  · intro e _ _ _
    simp [marksFl]
  · intro k1 hk
    refine ⟨OnTime.start hD _ _ _, fun _ _ => ⟨?_, ?_, by simp [marksFl]⟩⟩
    · refine A.approx _ _ _ ⟨0, le_rfl, hT0, ?_⟩ hk
      rw [A.path.1, sub_self, norm_zero]
      have := errBound_nonneg (k := N) A.L0.le A.m'0 A.η0 A.μ0 hT0
      have := A.fits
      have := mul_nonneg A.H0 (add_nonneg A.M0 A.μ0)
      linarith [A.η0]
    · simp [timeOf, A.path.1, errBound]
  · intro s s' ⟨I, J⟩ hp
    have I' := I.pass hpow (c := ⟨D, tol, maxstep, fe⟩) hD htol A.m0 hp
    refine ⟨I', ?_⟩
    cases hp with
    | accept hlt xyt k2 est ds he h1 h2 =>
      intro hall hn
      simp only [List.length_append, List.length_cons, List.length_nil, zero_add] at hn ⊢
      obtain ⟨j1, j2, j3⟩ := J (fun st hst => hall st (List.mem_append_left _ hst)) (by omega)
      have hH : (clipDt D s.t s.dt).val ≤ H := hall ⟨s.t, clipDt D s.t s.dt, est, xyt⟩ (by simp)
      have hd : 0 < (clipDt D s.t s.dt).val := I'.pos ⟨s.t, clipDt D s.t s.dt, est, xyt⟩ (by simp)
      have t0 := timeOf_nonneg I.pos
      have hle := hlen I' (by simpa using hn)
      simp only at hle
      rw [timeOf_snoc] at hle ⊢
      rw [Fl.lt_iff] at h2
      obtain ⟨a2, a3⟩ := A.step (by omega) t0 hd.le hH hle j1 j2 he
      refine ⟨a2, a3 h2, ?_⟩
      intro v hv
      rw [marksFl_snoc] at hv
      rcases List.mem_append.mp hv with hv | hv
      · exact j3 v hv
      · obtain rfl := List.mem_singleton.mp hv
        simp only [zero_add]
        exact ⟨hle, (a3 h2).trans (errBound_mono A.L0.le A.m'0 A.η0 A.μ0 (by linarith) le_rfl hn)⟩
    | reject hlt xyt k2 est ds he h1 => exact J
  · intro s r ⟨I, J⟩ hp
    cases hp with
    | done hd => intro hall hn; exact (J hall hn).2.2
    | error => intro hall hn; exact (J hall hn).2.2

end
end Oneka
