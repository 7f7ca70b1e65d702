import Verif.Spec.ProjectTests
import Verif.Lemmas.FitDetermined
import Verif.Lemmas.LogBound

/-! The fit of tests/test_model.py in rational arithmetic: the exact inverse of the normal matrix, and bounds for the logarithms in the response. -/

namespace Oneka
namespace ProjectTest
open Aquifer Matrix

/-- the observations as `(x, y, 100 z)` -/
def obsQ : List (ℕ × ℕ × ℕ) :=
  [(23, 11, 57364), (24, 85, 66855), (26, 80, 66158), (28, 65, 63797), (37, 50, 62662), (41, 21, 59885), (42, 53, 63751), (42, 74, 67332), (45, 70, 67052), (46, 15, 59943), (52, 76, 69414), (58, 90, 73675), (64, 22, 62954), (71, 19, 63734), (72, 36, 66054), (72, 55, 69145), (74, 50, 68657), (75, 18, 64292), (76, 43, 67880), (77, 79, 75205), (79, 66, 72781), (81, 81, 76623), (82, 77, 75915), (86, 26, 67324), (90, 57, 73472)]

/-- the head above the base -/
def headQ (p : ℕ × ℕ × ℕ) : ℚ := (p.2.2 : ℚ) / 100 - 500

/-- the standard deviation of the potential -/
def stdQ (p : ℕ × ℕ × ℕ) : ℚ := if headQ p < 100 then headQ p / 10 else 10

/-- the expected potential -/
def evQ (p : ℕ × ℕ × ℕ) : ℚ := if headQ p < 100 then headQ p ^ 2 / 2 + 1 / 200 else 100 * (headQ p - 50)

/-- the regressors -/
def rowQ (p : ℕ × ℕ × ℕ) : Fin 6 → ℚ :=
  let u : ℚ := (p.1 : ℚ) - 5852 / 100
  let v : ℚ := (p.2.1 : ℚ) - 5276 / 100
  ![u ^ 2 / stdQ p, v ^ 2 / stdQ p, u * v / stdQ p, u / stdQ p, v / stdQ p, 1 / stdQ p]

/-- the normal matrix -/
def gramQ (i j : Fin 6) : ℚ := (obsQ.map fun p => rowQ p i * rowQ p j).sum

/-- its inverse -/
def invQ : Fin 6 → Fin 6 → ℚ :=
  ![![474372598406905786998604766337933832691111125 / 14843462827182594957045999828423541490009999510769,
      -10053162330249077019423824072248720986421550 / 4947820942394198319015333276141180496669999836923,
      -12060679018956924571240394915725768038198425 / 4947820942394198319015333276141180496669999836923,
      3229954977395676073106905699723788693077229611 / 14843462827182594957045999828423541490009999510769,
      -154261212853146945563640567618518741719661687 / 4947820942394198319015333276141180496669999836923,
      -1658121440162972274517259332461098625437307733186 / 123695523559854957975383331903529512416749995923075],
    ![-10053162330249077019423824072248720986421550 / 4947820942394198319015333276141180496669999836923,
      94862269516938191513812162238842458154871925 / 4947820942394198319015333276141180496669999836923,
      -18139886167687891812357450723282582832587425 / 4947820942394198319015333276141180496669999836923,
      634367401814345196699152488018635038868179920 / 4947820942394198319015333276141180496669999836923,
      642046420010963976018310419083132362503273140 / 4947820942394198319015333276141180496669999836923,
      -277443687473757452211621117496732915127626543708 / 24739104711970991595076666380705902483349999184615],
    ![-12060679018956924571240394915725768038198425 / 4947820942394198319015333276141180496669999836923,
      -18139886167687891812357450723282582832587425 / 4947820942394198319015333276141180496669999836923,
      64073427827352901925881704480811695976163000 / 4947820942394198319015333276141180496669999836923,
      -135819168657086185374729458990375107555721857 / 4947820942394198319015333276141180496669999836923,
      292653968210445343079181703844742287366404449 / 4947820942394198319015333276141180496669999836923,
      82874535404402318293222226346485482674294950494 / 24739104711970991595076666380705902483349999184615],
    ![3229954977395676073106905699723788693077229611 / 14843462827182594957045999828423541490009999510769,
      634367401814345196699152488018635038868179920 / 4947820942394198319015333276141180496669999836923,
      -135819168657086185374729458990375107555721857 / 4947820942394198319015333276141180496669999836923,
      4020496847780876886129402725184873013808937536737 / 371086570679564873926149995710588537250249987769225,
      79159872993228387652278464556423166228222962119 / 123695523559854957975383331903529512416749995923075,
      -531821308932592470600329421232738011545522807446906 / 3092388088996373949384583297588237810418749898076875],
    ![-154261212853146945563640567618518741719661687 / 4947820942394198319015333276141180496669999836923,
      642046420010963976018310419083132362503273140 / 4947820942394198319015333276141180496669999836923,
      292653968210445343079181703844742287366404449 / 4947820942394198319015333276141180496669999836923,
      79159872993228387652278464556423166228222962119 / 123695523559854957975383331903529512416749995923075,
      911676280947355409576061535592589348193001660707 / 123695523559854957975383331903529512416749995923075,
      -37400559181048082812782672527201805382698471267522 / 618477617799274789876916659517647562083749979615375],
    ![-1658121440162972274517259332461098625437307733186 / 123695523559854957975383331903529512416749995923075,
      -277443687473757452211621117496732915127626543708 / 24739104711970991595076666380705902483349999184615,
      82874535404402318293222226346485482674294950494 / 24739104711970991595076666380705902483349999184615,
      -531821308932592470600329421232738011545522807446906 / 3092388088996373949384583297588237810418749898076875,
      -37400559181048082812782672527201805382698471267522 / 618477617799274789876916659517647562083749979615375,
      1326357717496706672111088339857506467938481912321894416 / 77309702224909348734614582439705945260468747451921875]]

theorem gram_invQ : ∀ i j, ∑ k, gramQ i k * invQ k j = if i = j then 1 else 0 := by decide +kernel

/-- the squared distances to the two wells -/
def r1 (p : ℕ × ℕ × ℕ) : ℕ := (100 - p.1) ^ 2 + (200 - p.2.1) ^ 2

def r2 (p : ℕ × ℕ × ℕ) : ℕ := (200 - p.1) ^ 2 + (100 - p.2.1) ^ 2

/-- the potential of the wells, approximately -/
def wellsQ (p : ℕ × ℕ × ℕ) : ℚ := 1000 * fourPiInv * (logQ (r1 p) + logQ (r2 p))

/-- the weight of observation `p` in coefficient `i` -/
def weightQ (i : Fin 6) (p : ℕ × ℕ × ℕ) : ℚ := (∑ j, invQ i j * rowQ p j) / stdQ p

/-- the expected results, in rational numbers -/
def evTrueQ : Fin 6 → ℚ := ![0.9916, 0.9956, 0.9422, 171.85, 165.8, 9667.8]

def covTrueQ : Fin 6 → Fin 6 → ℚ :=
  ![![(3195 / 100000000), (-2031 / 1000000000), (-2437 / 1000000000), (2176 / 10000000), (-3117 / 100000000), (-1340 / 100000)],
    ![(-2031 / 1000000000), (1917 / 100000000), (-3666 / 1000000000), (1282 / 10000000), (1297 / 10000000), (-1121 / 100000)],
    ![(-2437 / 1000000000), (-3666 / 1000000000), (1294 / 100000000), (-2745 / 100000000), (5914 / 100000000), (3349 / 1000000)],
    ![(2176 / 10000000), (1282 / 10000000), (-2745 / 100000000), (1083 / 100000), (6399 / 10000000), (-1719 / 10000)],
    ![(-3117 / 100000000), (1297 / 10000000), (5914 / 100000000), (6399 / 10000000), (7370 / 1000000), (-6047 / 100000)],
    ![(-1340 / 100000), (-1121 / 100000), (3349 / 1000000), (-1719 / 10000), (-6047 / 100000), (1715 / 100)]]

theorem obs_range : ∀ p ∈ obsQ, p.1 ≤ 100 ∧ p.2.1 ≤ 100 ∧ 50000 < p.2.2 ∧ 0 < r1 p ∧ r1 p < 2 ^ 40 ∧ 0 < r2 p ∧ r2 p < 2 ^ 40 := by decide +kernel

theorem cov_close : ∀ i j, |invQ i j - covTrueQ i j| ≤ 1 / 10 ^ 8 + 1 / 1000 * |covTrueQ i j| := by decide +kernel

theorem ev_close : ∀ i, |(obsQ.map fun p => weightQ i p * (evQ p - wellsQ p)).sum - evTrueQ i| + (obsQ.map fun p => |weightQ i p| * (1 / 1000)).sum
    ≤ 1 / 10 ^ 8 + 1 / 1000 * |evTrueQ i| := by decide +kernel

/-- the observation that a rational one stands for -/
noncomputable def obsOf (p : ℕ × ℕ × ℕ) : Obs := ⟨p.1, p.2.1, p.2.2 / 100, 1 / 10⟩

theorem testObs_eq : testObs = obsQ.map obsOf := by
  simp only [testObs, obsQ, obsOf, List.map_cons, List.map_nil]
  norm_num

theorem testEv_eq (i : Fin 6) : testEv i = (evTrueQ i : ℚ) := by
  fin_cases i <;> simp [testEv, evTrueQ] <;> norm_num

theorem testCov_eq (i j : Fin 6) : testCov i j = (covTrueQ i j : ℚ) := by
  fin_cases i <;> fin_cases j <;> simp [testCov, covTrueQ] <;> norm_num

/-- the model of the tests -/
noncomputable def model : Aquifer ℝ := ⟨500, 1, 1 / 4, 100, [⟨100, 200, 1, 1000⟩, ⟨200, 100, 1, 1000⟩], 0, 0, ![1, 1, 1, 1, 1, 500]⟩

theorem std_cast (p : ℕ × ℕ × ℕ) : potentialStd 1 100 ((p.2.2 : ℝ) / 100 - 500) (1 / 10) = (stdQ p : ℚ) := by
  have h : ((headQ p : ℚ) : ℝ) = (p.2.2 : ℝ) / 100 - 500 := by unfold headQ; push_cast; rfl
  rw [← h, potentialStd, stdQ]
  by_cases hh : headQ p < 100
  · rw [if_pos hh, min_eq_left (by exact_mod_cast hh.le)]; push_cast; ring
  · rw [if_neg hh, min_eq_right (by exact_mod_cast not_lt.mp hh)]; push_cast; ring

theorem ev_cast (p : ℕ × ℕ × ℕ) : expectedPotential 1 100 ((p.2.2 : ℝ) / 100 - 500) (1 / 10) = (evQ p : ℚ) := by
  have h : ((headQ p : ℚ) : ℝ) = (p.2.2 : ℝ) / 100 - 500 := by unfold headQ; push_cast; rfl
  rw [← h, expectedPotential, potentialOfHead, evQ]
  by_cases hh : headQ p < 100
  · have hr : ((headQ p : ℚ) : ℝ) < 100 := by exact_mod_cast hh
    rw [if_pos hh, if_pos hr, if_pos hr]; push_cast; ring
  · have hr : ¬ ((headQ p : ℚ) : ℝ) < 100 := by exact_mod_cast hh
    rw [if_neg hh, if_neg hr, if_neg hr]; push_cast; ring

theorem row_cast (p : ℕ × ℕ × ℕ) (i : Fin 6) : (model.rowOf 58.52 52.76 (obsOf p)).1 i = (rowQ p i : ℚ) := by
  have h := std_cast p
  show mono ((p.1 : ℝ) - 58.52) ((p.2.1 : ℝ) - 52.76) i / potentialStd 1 100 ((p.2.2 : ℝ) / 100 - 500) (1 / 10) = _
  rw [h]
  fin_cases i <;> simp [mono, rowQ] <;> norm_num

theorem wells_eq (x y : ℝ) : model.potentialWells x y =
    1000 * ((fourPiInv : ℚ) : ℝ) * (Real.log ((x - 100) * (x - 100) + (y - 200) * (y - 200)) + Real.log ((x - 200) * (x - 200) + (y - 100) * (y - 100))) := by
  simp only [potentialWells, model, List.foldl, PyMath.q, PyMath.log]
  push_cast
  ring

theorem wells_cast {p : ℕ × ℕ × ℕ} (hp : p ∈ obsQ) : |model.potentialWells p.1 p.2.1 - (wellsQ p : ℚ)| ≤ 1 / 1000 := by
  obtain ⟨h1, h2, -, h3, h4, h5, h6⟩ := obs_range p hp
  have e1 : ((p.1 : ℝ) - 100) * (p.1 - 100) + (p.2.1 - 200) * (p.2.1 - 200) = (r1 p : ℕ) := by
    unfold r1
    push_cast [Nat.cast_sub h1, Nat.cast_sub (show p.2.1 ≤ 200 by omega)]
    ring
  have e2 : ((p.1 : ℝ) - 200) * (p.1 - 200) + (p.2.1 - 100) * (p.2.1 - 100) = (r2 p : ℕ) := by
    unfold r2
    push_cast [Nat.cast_sub h2, Nat.cast_sub (show p.1 ≤ 200 by omega)]
    ring
  rw [wells_eq, e1, e2, wellsQ]
  have b1 := abs_le.mp (logQ_near _ h3 h4)
  have b2 := abs_le.mp (logQ_near _ h5 h6)
  have hf : ((fourPiInv : ℚ) : ℝ) ≤ 1 / 10 ∧ 0 ≤ ((fourPiInv : ℚ) : ℝ) := by unfold fourPiInv; constructor <;> norm_num
  push_cast
  rw [← mul_sub, abs_mul, abs_of_nonneg (by linarith [hf.2] : (0 : ℝ) ≤ 1000 * ((fourPiInv : ℚ) : ℝ))]
  have h : |Real.log (r1 p) + Real.log (r2 p) - ((logQ (r1 p) : ℚ) + (logQ (r2 p) : ℚ))| ≤ 2 / 1000000 := by
    rw [abs_le]; constructor <;> linarith
  calc _ ≤ (1000 * (1 / 10) : ℝ) * (2 / 1000000) := mul_le_mul (by linarith [hf.1]) h (abs_nonneg _) (by norm_num)
    _ ≤ _ := by norm_num

theorem usable : model.Usable testObs := by
  rw [testObs_eq]
  intro o ho
  obtain ⟨p, hp, rfl⟩ := List.mem_map.mp ho
  obtain ⟨h1, h2, h3, -⟩ := obs_range p hp
  have a1 : (p.1 : ℝ) ≤ 100 := by exact_mod_cast h1
  have a2 : (p.2.1 : ℝ) ≤ 100 := by exact_mod_cast h2
  have a3 : (50000 : ℝ) < p.2.2 := by exact_mod_cast h3
  refine ⟨show (500 : ℝ) < p.2.2 / 100 by linarith, show (0 : ℝ) < 1 / 10 by norm_num, ?_⟩
  intro w hw
  simp only [model, List.mem_cons, List.not_mem_nil, or_false] at hw
  rcases hw with rfl | rfl <;> simp only [obsOf] <;> intro hc
  · linarith [congrArg Prod.snd hc]
  · linarith [congrArg Prod.fst hc]

theorem gram_cast (i j : Fin 6) : gram ((testObs.map (model.rowOf 58.52 52.76)).map Prod.fst) i j = (gramQ i j : ℚ) := by
  unfold Aquifer.gram gramQ
  rw [testObs_eq]
  simp only [List.map_map, Function.comp_def, row_cast]
  induction obsQ with
  | nil => simp
  | cons p l ih => simp only [List.map_cons, List.sum_cons, ih]; push_cast; rfl

theorem gram_inv : gram ((testObs.map (model.rowOf 58.52 52.76)).map Prod.fst) * Matrix.of (fun i j => ((invQ i j : ℚ) : ℝ)) = 1 := by
  ext i j
  rw [Matrix.mul_apply, Matrix.one_apply]
  simp only [gram_cast, Matrix.of_apply]
  have := gram_invQ i j
  have h2 : ((∑ k, gramQ i k * invQ k j : ℚ) : ℝ) = ((if i = j then 1 else 0 : ℚ) : ℝ) := by rw [this]
  push_cast at h2
  rw [h2]
  split_ifs <;> simp

/-- every minimiser of the sum of squares is near the expected values -/
theorem ev_near {c : Fin 6 → ℝ}
    (h : c = Matrix.of (fun i j => ((invQ i j : ℚ) : ℝ)) *ᵥ rhs (testObs.map (model.rowOf 58.52 52.76))) (i : Fin 6) : IsClose (1 / 1000) (c i) (testEv i) := by
  have e : c i = (obsQ.map fun p => ((weightQ i p : ℚ) : ℝ) * ((evQ p : ℚ) - model.potentialWells p.1 p.2.1)).sum := by
    rw [h, testObs_eq]
    unfold Matrix.mulVec dotProduct rhs
    simp only [Matrix.of_apply, List.map_map, Function.comp_def, row_cast]
    induction obsQ with
    | nil => simp
    | cons p l ih =>
      simp only [List.map_cons, List.sum_cons, mul_add, Finset.sum_add_distrib, ih]
      congr 1
      show ∑ j, ((invQ i j : ℚ) : ℝ) * ((rowQ p j : ℚ) * ((expectedPotential 1 100 ((p.2.2 : ℝ) / 100 - 500) (1 / 10) - model.potentialWells p.1 p.2.1) /
        potentialStd 1 100 ((p.2.2 : ℝ) / 100 - 500) (1 / 10))) = _
      rw [std_cast, ev_cast, weightQ]
      push_cast
      rw [Finset.sum_div, Finset.sum_mul]
      exact Finset.sum_congr rfl fun j _ => by ring
  have d : ∀ l : List (ℕ × ℕ × ℕ), (∀ p ∈ l, p ∈ obsQ) →
      |(l.map fun p => ((weightQ i p : ℚ) : ℝ) * ((evQ p : ℚ) - model.potentialWells p.1 p.2.1)).sum - (((l.map fun p => weightQ i p * (evQ p - wellsQ p)).sum : ℚ) : ℝ)| ≤
        (((l.map fun p => |weightQ i p| * (1 / 1000)).sum : ℚ) : ℝ) := by
    intro l hl
    induction l with
    | nil => simp
    | cons p l ih =>
      have hi := ih fun q hq => hl q (List.mem_cons_of_mem _ hq)
      have hw := wells_cast (hl p List.mem_cons_self)
      simp only [List.map_cons, List.sum_cons, Rat.cast_add, Rat.cast_mul, Rat.cast_sub, Rat.cast_abs, Rat.cast_div, Rat.cast_one, Rat.cast_ofNat]
      have hp : |((weightQ i p : ℚ) : ℝ) * ((wellsQ p : ℚ) - model.potentialWells p.1 p.2.1)| ≤ |((weightQ i p : ℚ) : ℝ)| * (1 / 1000) := by
        rw [abs_mul, abs_sub_comm]
        exact mul_le_mul_of_nonneg_left hw (abs_nonneg _)
      rw [abs_le] at hi hp ⊢
      constructor <;> nlinarith
  have hd := d obsQ fun _ h => h
  rw [← e] at hd
  have hq : ((|(obsQ.map fun p => weightQ i p * (evQ p - wellsQ p)).sum - evTrueQ i| + (obsQ.map fun p => |weightQ i p| * (1 / 1000)).sum : ℚ) : ℝ) ≤
      ((1 / 10 ^ 8 + 1 / 1000 * |evTrueQ i| : ℚ) : ℝ) := by exact_mod_cast ev_close i
  unfold IsClose
  rw [testEv_eq]
  rw [Rat.cast_add, Rat.cast_abs, Rat.cast_sub] at hq
  refine le_trans (abs_sub_le _ _ _) (le_trans (add_le_add hd le_rfl) ?_)
  rw [add_comm]
  refine le_trans hq (le_of_eq ?_)
  push_cast
  rfl

theorem cov_near (i j : Fin 6) : IsClose (1 / 1000) ((invQ i j : ℚ) : ℝ) (testCov i j) := by
  unfold IsClose
  rw [testCov_eq]
  have := cov_close i j
  have h : ((|invQ i j - covTrueQ i j| : ℚ) : ℝ) ≤ ((1 / 10 ^ 8 + 1 / 1000 * |covTrueQ i j| : ℚ) : ℝ) := by exact_mod_cast this
  push_cast at h
  exact h

theorem testModel_eq {m : Aquifer ℝ} (hm : testModel = .ok m) : m = model := by
  have h := Except.ok.inj hm
  rw [← h]
  unfold model
  congr 1
  norm_num

theorem model_potential (x y : ℝ) : model.potential x y = x ^ 2 + y ^ 2 + x * y + x + y + 500 + model.potentialWells x y := by
  simp only [potential, model, Matrix.cons_val]
  ring

theorem potential_100 : |model.potential 100 100 - 32165.8711977589| ≤ 1 / 1000 := by
  rw [model_potential, wells_eq]
  have h := logQ_near 10000 (by norm_num) (by norm_num)
  have e : logQ 10000 = logQ 10000 := rfl
  have hq : |logQ 10000 - 9210340 / 1000000| ≤ 2 / 1000000 := by decide +kernel
  have hr : |((logQ 10000 : ℚ) : ℝ) - 9210340 / 1000000| ≤ 2 / 1000000 := by
    have : ((|logQ 10000 - 9210340 / 1000000| : ℚ) : ℝ) ≤ ((2 / 1000000 : ℚ) : ℝ) := by exact_mod_cast hq
    push_cast at this
    exact this
  have e1 : ((100 : ℝ) - 100) * (100 - 100) + (100 - 200) * (100 - 200) = ((10000 : ℕ) : ℝ) := by norm_num
  have e2 : ((100 : ℝ) - 200) * (100 - 200) + (100 - 100) * (100 - 100) = ((10000 : ℕ) : ℝ) := by norm_num
  rw [e1, e2, fourPiInv]
  rw [abs_le] at h hr ⊢
  push_cast at h ⊢
  constructor <;> linarith

theorem potential_120 : 5000 < model.potential 120 160 := by
  rw [model_potential, wells_eq]
  have h1 : 0 ≤ Real.log (((120 : ℝ) - 100) * (120 - 100) + (160 - 200) * (160 - 200)) := Real.log_nonneg (by norm_num)
  have h2 : 0 ≤ Real.log (((120 : ℝ) - 200) * (120 - 200) + (160 - 100) * (160 - 100)) := Real.log_nonneg (by norm_num)
  have h3 : 0 ≤ 1000 * ((fourPiInv : ℚ) : ℝ) := by rw [fourPiInv]; norm_num
  linarith [mul_nonneg h3 (add_nonneg h1 h2)]

theorem model_head {x y : ℝ} (h : 5000 ≤ model.potential x y) : model.head x y = .ok ((model.potential x y + 5000) / 100) := by
  unfold head
  have h1 : ¬ model.potential x y ≤ PyMath.q 0 := by simp only [PyMath.q]; push_cast; linarith
  have h2 : ¬ model.potential x y < PyMath.q (1 / 2) * model.conductivity * (model.thickness * model.thickness) := by
    simp only [PyMath.q, model] at h ⊢; push_cast; norm_num; exact h
  rw [if_neg h1, if_neg h2]
  simp only [PyMath.q, model]
  push_cast
  norm_num

theorem model_velocity {x y : ℝ} (h : 5000 < model.potential x y) :
    model.velocity x y = .ok ((model.discharge x y).1 / 25, (model.discharge x y).2 / 25) := by
  unfold velocity
  rw [model_head h.le]
  have h1 : ¬ (model.potential x y + 5000) / 100 ≤ PyMath.q 0 := by simp only [PyMath.q]; push_cast; rw [not_le]; linarith
  have h2 : model.thickness < (model.potential x y + 5000) / 100 := by
    show (100 : ℝ) < _
    linarith
  simp only [if_neg h1, if_pos h2]
  have e : model.thickness * model.porosity = 25 := by simp only [model]; norm_num
  rw [e]

theorem discharge_120 : model.discharge 120 160 = (-401 - 1000 * ((twoPiInv : ℚ) : ℝ) * (20 / 2000 - 80 / 10000), -441 + 1000 * ((twoPiInv : ℚ) : ℝ) * (40 / 2000 - 60 / 10000)) := by
  simp only [discharge, model, List.foldl, PyMath.q, Matrix.cons_val]
  refine Prod.ext ?_ ?_ <;> · simp only []; push_cast; ring

theorem discharge_100 : model.discharge 100 100 = (-301 + 1000 * ((twoPiInv : ℚ) : ℝ) * (100 / 10000), -301 + 1000 * ((twoPiInv : ℚ) : ℝ) * (100 / 10000)) := by
  simp only [discharge, model, List.foldl, PyMath.q, Matrix.cons_val]
  refine Prod.ext ?_ ?_ <;> · simp only []; push_cast; ring

end ProjectTest
end Oneka
