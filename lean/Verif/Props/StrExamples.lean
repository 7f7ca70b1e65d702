import Verif.Props.Str
import Verif.Props.Examples
import Verif.Lemmas.Range

/-!
# Cases that meet the hypotheses of C120 and C121
-/

namespace Oneka

/-- multiples of 1/1024 are binary64 numbers -/
theorem short64 (n : ℤ) (h : |n| ≤ 2 ^ 40) {x : ℝ} (hx : x = n / 1024) : toBinary64 (.fin x) = .fin x := by
  have e : x = n * 2 ^ (-10 : ℤ) := by rw [hx]; norm_num; ring
  have r : round53 x = x := by rw [e]; exact round53_exact n (-10) (h.trans (by norm_num))
  have hb : |x| ≤ 2 ^ (1023 : ℤ) := by
    rw [hx, abs_div, abs_of_pos (by norm_num : (0:ℝ) < 1024)]
    have : |(n : ℝ)| ≤ 2 ^ 40 := by exact_mod_cast h
    have h1 : |(n:ℝ)| / 1024 ≤ 2 ^ 40 := by linarith [abs_nonneg (n:ℝ)]
    refine h1.trans ?_
    rw [← zpow_natCast]
    exact zpow_le_zpow_right₀ (by norm_num) (by norm_num)
  have hs : x = 0 ∨ 2 ^ (-1022 : ℤ) ≤ |x| := by
    by_cases h0 : n = 0
    · left; rw [hx, h0]; simp
    · right
      rw [e, abs_mul, abs_of_pos (by positivity : (0:ℝ) < 2 ^ (-10 : ℤ))]
      have : (1:ℝ) ≤ |(n:ℝ)| := by exact_mod_cast Int.one_le_abs h0
      calc (2:ℝ) ^ (-1022 : ℤ) ≤ 1 * 2 ^ (-10 : ℤ) := by rw [one_mul]; exact zpow_le_zpow_right₀ (by norm_num) (by norm_num)
        _ ≤ _ := by gcongr
  rw [toBinary64_eq hs hb, r]

theorem fl_machine (n : ℤ) (h : |n| ≤ 2 ^ 40) {x : ℝ} (hx : x = n / 1024) : (fl x).Machine := .float _ (short64 n h hx)

theorem tuple_machine {l : List PyVal} (h : l.Forall PyVal.Machine) : PyVal.Machine (.tuple l) := .tuple _ (List.forall_iff_forall_mem.mp h)

/-- C120_values: the integer 1, the float 1.0, `True`, `(1,)` and `[1]` are told apart by 17 digits. -/
example : ([.int 1, fl 1, .bool true, .tuple [.int 1], .list [.int 1]].map seventeen.str).Nodup := by
  have ho : ∀ v ∈ [PyVal.int 1, fl 1, .bool true, .tuple [.int 1], .list [.int 1]], v.Ordinary := by
    simp only [List.forall_mem_cons, List.not_mem_nil, IsEmpty.forall_iff, implies_true, and_true]
    refine ⟨⟨.int _, .int _⟩, ⟨.float _, fl_machine 1024 (by norm_num) (by norm_num)⟩, ⟨.bool _, .bool _⟩, ⟨.tuple _ ?_, .tuple _ ?_⟩, ⟨.list _ ?_, .list _ ?_⟩⟩
    · simp only [List.mem_singleton, forall_eq]; exact .int 1
    · simp only [List.mem_singleton, forall_eq]; exact .int 1
    · simp only [List.mem_singleton, forall_eq]; exact .int 1
    · simp only [List.mem_singleton, forall_eq]; exact .int 1
  refine List.Nodup.map_on (fun v hv w hw h => (C120_values seventeen_faithful v w (ho v hv) (ho w hw)).mp h) ?_
  simp [fl]

/-- the example call with porosities that are binary64 numbers, and with a given tolerance -/
noncomputable def printedCall (r : ℤ) (tol : ℝ) : PyArgs := { exampleCall r with pDist := .tuple [fl 0.25, fl 0.5], tol := fl tol }

/-- the numbers in it -/
noncomputable def printedInputs (r : ℤ) (tol : ℝ) : Inputs :=
  { exampleInputs r with run := { (exampleInputs r).run with pDist := .tuple [0.25, 0.5], tol := .fin tol } }

theorem printedCall_acceptable (r : ℤ) {tol : ℝ} (h : 0 < tol) : Acceptable (printedCall r tol) :=
  { exampleCall_acceptable r with
    pDist := by
      refine .inr (.inl ⟨_, _, _, _, .inl rfl, rfl, rfl, ?_, ?_, ?_⟩)
      · show (0:ℝ) ≤ 0.25
        norm_num
      · show (0.25:ℝ) ≤ 0.5
        norm_num
      · show (0.5:ℝ) ≤ 1
        norm_num
    tol := ⟨_, rfl, fin_pos h⟩ }

theorem printedCall_denotes (r : ℤ) (tol : ℝ) : (printedCall r tol).Denotes (printedInputs r tol) :=
  { exampleCall_denotes r with
    pDist := ⟨_, rfl, .cons (fl_isReal _) (.cons (fl_isReal _) .nil)⟩
    tol := by simp [printedCall, printedInputs, PyVal.num, fl] }

theorem printedCall_machine (r : ℤ) (tol : ℝ) : (printedCall r tol).Machine where
  cDist := by
    refine tuple_machine ?_
    exact ⟨fl_machine 5120 (by norm_num) (by norm_num), fl_machine 10240 (by norm_num) (by norm_num), fl_machine 20480 (by norm_num) (by norm_num)⟩
  pDist := by
    refine tuple_machine ?_
    exact ⟨fl_machine 256 (by norm_num) (by norm_num), fl_machine 512 (by norm_num) (by norm_num)⟩
  tDist := fl_machine 20480 (by norm_num) (by norm_num)
  wells := by
    refine .list _ ?_
    simp only [List.mem_singleton, forall_eq]
    refine tuple_machine ?_
    exact ⟨fl_machine 1024000 (by norm_num) (by norm_num), fl_machine 1024000 (by norm_num) (by norm_num), fl_machine 256 (by norm_num) (by norm_num),
      tuple_machine ⟨fl_machine 512000 (by norm_num) (by norm_num), fl_machine 1024000 (by norm_num) (by norm_num)⟩⟩
  observations := by
    refine .list _ fun v hv => ?_
    obtain ⟨o, ho, rfl⟩ := List.mem_map.mp hv
    have key : ∃ a b c d : ℤ, |a| ≤ 2 ^ 40 ∧ |b| ≤ 2 ^ 40 ∧ |c| ≤ 2 ^ 40 ∧ |d| ≤ 2 ^ 40 ∧ o.x = a / 1024 ∧ o.y = b / 1024 ∧ o.z = c / 1024 ∧ o.std = d / 1024 := by
      simp only [sevenObs, sixObs, List.cons_append, List.nil_append, List.mem_cons, List.not_mem_nil, or_false] at ho
      rcases ho with rfl | rfl | rfl | rfl | rfl | rfl | rfl
      · exact ⟨3072, 0, 30720, 1024, by norm_num, by norm_num, by norm_num, by norm_num, by norm_num, by norm_num, by norm_num, by norm_num⟩
      · exact ⟨1024, 0, 31744, 1024, by norm_num, by norm_num, by norm_num, by norm_num, by norm_num, by norm_num, by norm_num, by norm_num⟩
      · exact ⟨0, 1024, 32768, 2048, by norm_num, by norm_num, by norm_num, by norm_num, by norm_num, by norm_num, by norm_num, by norm_num⟩
      · exact ⟨1024, 1024, 30720, 1024, by norm_num, by norm_num, by norm_num, by norm_num, by norm_num, by norm_num, by norm_num, by norm_num⟩
      · exact ⟨2048, 0, 35840, 1024, by norm_num, by norm_num, by norm_num, by norm_num, by norm_num, by norm_num, by norm_num, by norm_num⟩
      · exact ⟨0, 2048, 29696, 512, by norm_num, by norm_num, by norm_num, by norm_num, by norm_num, by norm_num, by norm_num, by norm_num⟩
      · exact ⟨2048, 2048, 33792, 1024, by norm_num, by norm_num, by norm_num, by norm_num, by norm_num, by norm_num, by norm_num, by norm_num⟩
    obtain ⟨a, b, c, d, ha, hb, hc, hd, ea, eb, ec, ed⟩ := key
    exact tuple_machine ⟨fl_machine a ha ea, fl_machine b hb eb, fl_machine c hc ec, fl_machine d hd ed⟩
  smooth := .int 1

theorem printedTol : fixedVal (fl (1 + 1 / 1024)) = fixedVal (fl 1) := by
  have h1 : scaled 2 (1 : ℝ) = 100 := by
    have : roundEven (|(1:ℝ)| * 10 ^ 2) = 100 := by rw [← roundEven_int 100]; congr 1; norm_num
    simp only [scaled, this]
    rfl
  have h2 : scaled 2 (1 + 1 / 1024 : ℝ) = 100 := by
    have f : ⌊|(1 + 1 / 1024 : ℝ)| * 10 ^ 2⌋ = 100 := by
      rw [abs_of_pos (by norm_num), Int.floor_eq_iff]
      constructor <;> norm_num
    have : roundEven (|(1 + 1 / 1024 : ℝ)| * 10 ^ 2) = 100 := by
      unfold roundEven
      rw [f, if_pos]
      rw [abs_of_pos (by norm_num)]
      norm_num
    simp only [scaled, this]
    rfl
  simp only [fixedVal, fl, PyVal.num, fixed, h1, h2, signChars]
  norm_num

/-- C120_log: two different calls whose logs agree as far as the observations: the tolerances 1 and 1.0009765625 are both printed as 1.00. (So 0.01 in the theorem cannot be replaced by 0.) -/
example (r : ℤ) (pr : Printer) (hpr : pr.val = seventeen.str) (env env' : CallEnv) :
    let h := printedCall r 1
    let h' := printedCall r (1 + 1 / 1024)
    h.tol ≠ h'.tol ∧ h.nrealizations = h'.nrealizations ∧ h.tol.Near (1 / 100) h'.tol := by
  intro a a'
  have ha : Acceptable a := printedCall_acceptable r (by norm_num)
  have ha' : Acceptable a' := printedCall_acceptable r (by norm_num)
  have hn := printedCall_denotes r 1
  have hn' := printedCall_denotes r (1 + 1 / 1024)
  obtain ⟨rest, e⟩ := callText_arguments ha hn.nrealizations pr (printedInputs r 1) env rfl rfl
  obtain ⟨rest', e'⟩ := callText_arguments ha' hn'.nrealizations pr (printedInputs r (1 + 1 / 1024)) env' rfl rfl
  have hs : ∀ st ws, scalarTexts pr a st ws = scalarTexts pr a' st ws := by
    intro st ws
    have ht : valueText pr "tol" a.tol = valueText pr "tol" a'.tol := by
      simp only [valueText, String.reduceEq, or_self, if_false, List.mem_cons, List.not_mem_nil, or_false, false_or, or_true, true_or, if_true]
      exact congrArg _ printedTol.symm
    unfold scalarTexts
    rw [ht]
    rfl
  have hl : (callText pr a (printedInputs r 1) env).take 39 = (callText pr a' (printedInputs r (1 + 1 / 1024)) env').take 39 := by
    rw [e, e', hs]
    have split : ∀ (A B B' : List (List Char)) (k : ℕ), B.take (k - A.length) = B'.take (k - A.length) → (A ++ B).take k = (A ++ B').take k := by
      intro A B B' k h
      rw [List.take_append, List.take_append, h]
    refine split _ _ _ _ (split _ _ _ _ (split _ _ _ _ (split _ _ _ _ (split _ _ _ _ ?_))))
    rfl
  have h := C120_log seventeen_faithful pr hpr a a' ha ha' (printedCall_machine r 1) (printedCall_machine r _) _ _ hn hn' env env' _ _ rfl rfl
    (by simpa [sevenObs, sixObs] using hl)
  refine ⟨?_, rfl, h.2.2.2.2.2.2.2.2.2.2.2.2.2.2.2.2.2.1⟩
  simp [a, a', printedCall, fl]

/-- a model with one well -/
noncomputable def printedModel : PyModel := ⟨.float (.fin 0), .float (.fin 1), .float (.fin (1/4)), .float (.fin 10), .list [.tuple [.int 0, .int 0, .int 1, .int 500]], .int 0, .int 0, .none⟩

/-- C121_model: it is printed like the same model without wells; the text is not a call of the constructor. -/
example : (printedModel.text seventeen = { printedModel with wells := .list [] }.text seventeen) ∧ printedModel.text seventeen ≠ { printedModel with thickness := .int 10 }.text seventeen ∧
    ∀ args, (∀ v ∈ args, v.Ordinary) → IsCall seventeen "Model" args (printedModel.text seventeen) → makeModel args = .error .typeError := by
  have m0 : (PyVal.float (.fin 0)).Machine := fl_machine 0 (by norm_num) (by norm_num)
  have m1 : (PyVal.float (.fin 1)).Machine := fl_machine 1024 (by norm_num) (by norm_num)
  have m2 : (PyVal.float (.fin (1/4))).Machine := fl_machine 256 (by norm_num) (by norm_num)
  have m3 : (PyVal.float (.fin 10)).Machine := fl_machine 10240 (by norm_num) (by norm_num)
  have hm : ∀ v ∈ [printedModel.base, printedModel.conductivity, printedModel.porosity, printedModel.thickness], v.Ordinary := by
    simp only [printedModel, List.forall_mem_cons, List.not_mem_nil, IsEmpty.forall_iff, implies_true, and_true]
    exact ⟨⟨.float _, m0⟩, ⟨.float _, m1⟩, ⟨.float _, m2⟩, ⟨.float _, m3⟩⟩
  have hm' : ∀ v ∈ [printedModel.base, printedModel.conductivity, printedModel.porosity, .int 10], v.Ordinary := by
    simp only [printedModel, List.forall_mem_cons, List.not_mem_nil, IsEmpty.forall_iff, implies_true, and_true]
    exact ⟨⟨.float _, m0⟩, ⟨.float _, m1⟩, ⟨.float _, m2⟩, ⟨.int _, .int _⟩⟩
  refine ⟨(C121_model seventeen_faithful _ _ hm hm).mpr ⟨rfl, rfl, rfl, rfl⟩, fun h => ?_, (C121_model_fails seventeen_faithful _ hm).2⟩
  have := ((C121_model seventeen_faithful printedModel { printedModel with thickness := .int 10 } hm hm').mp h).2.2.2
  simp [printedModel] at this

theorem emptyField_machine : (PField.mk (1:ℝ) 2 0 0 none).Machine :=
  ⟨short64 1024 (by norm_num) (by norm_num), short64 2048 (by norm_num) (by norm_num), fun _ h => by cases h⟩

/-- C121_empty and C121_empty_fails: the empty field with spacings 1 and 2. -/
example : ∃ t, fieldRepr seventeen (PField.mk (1:ℝ) 2 0 0 none) = .ok t ∧ (∃ args, (∀ v ∈ args, v.Ordinary) ∧ IsCall seventeen "ProbabilityField" args t) ∧
    ∀ args, (∀ v ∈ args, v.Ordinary) → IsCall seventeen "ProbabilityField" args t → makeField args = .ok (PField.mk (1:ℝ) 2 0 0 none) :=
  C121_empty seventeen_faithful _ emptyField_machine 1 2 (by norm_num [PField.new])

example (pg : Grid ℝ → List Char) (rg : Grid Bool → List Char) : ∃ t, fieldStr seventeen pg rg (PField.mk (1:ℝ) 2 0 0 none) = .ok t ∧
    ∀ args, (∀ v ∈ args, v.Ordinary) → IsCall seventeen "ProbabilityField" args t → ∃ g, makeField args = .ok g ∧ g.nrows = 3 := by
  obtain ⟨t, h1, -, h2⟩ := C121_empty_fails seventeen_faithful pg rg _ emptyField_machine 1 2 (by norm_num [PField.new])
  refine ⟨t, h1, fun args ho h => ?_⟩
  obtain ⟨g, b, h3, h4, -⟩ := h2 args ho h
  exact ⟨g, h3, h4⟩

/-- C121_field and C121_field_fails: a field with nine nodes; changing a probability does not show. -/
example (g g' : Grid ℝ) (r r' : Grid Bool) :
    let f : PField ℝ := ⟨1, 1, 3, 3, some ⟨-1, 1, -1, 1, 2, g, r⟩⟩
    let f' : PField ℝ := ⟨1, 1, 3, 3, some ⟨-1, 1, -1, 1, 2, g', r'⟩⟩
    fieldRepr seventeen f = fieldRepr seventeen f' ∧ ∃ t, fieldRepr seventeen f = .ok t ∧ (∃ args, (∀ v ∈ args, v.Ordinary) ∧ IsCall seventeen "ProbabilityField" args t) ∧
      ∀ args, (∀ v ∈ args, v.Ordinary) → IsCall seventeen "ProbabilityField" args t → makeField args = .error .typeError := by
  intro f f'
  have one : toBinary64 (.fin 1) = .fin 1 := short64 1024 (by norm_num) (by norm_num)
  have neg : toBinary64 (.fin (-1)) = .fin (-1) := short64 (-1024) (by norm_num) (by norm_num)
  have two : toBinary64 (.fin 2) = .fin 2 := short64 2048 (by norm_num) (by norm_num)
  have hf : ∀ g r, (PField.mk (1:ℝ) 1 3 3 (some ⟨-1, 1, -1, 1, 2, g, r⟩)).Machine := by
    intro g r
    refine ⟨one, one, fun b hb => ?_⟩
    cases hb
    simp only [List.forall_mem_cons, List.not_mem_nil, IsEmpty.forall_iff, implies_true, and_true]
    exact ⟨neg, one, neg, one, two⟩
  refine ⟨(C121_field seventeen_faithful f f' (hf g r) (hf g' r') _ _ rfl rfl (by simp [f]) (by simp [f'])).mpr ⟨rfl, rfl, rfl, rfl, ?_⟩, C121_field_fails seventeen_faithful f (hf g r) _ rfl (by simp [f])⟩
  intro b b' h h'
  cases h
  cases h'
  exact ⟨rfl, rfl, rfl, rfl, rfl⟩

end Oneka
