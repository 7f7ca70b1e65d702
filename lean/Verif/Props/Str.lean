import Verif.Lemmas.StrCall

/-!
# C120 and C121: printed forms
-/

namespace Oneka

/-- **C120.** Different objects built from numbers, tuples and lists have different printed forms: the integer 1, the float 1.0 and `True`, a tuple and a list, a pair and two nested singletons can be
told apart. -/
theorem C120_values {p : PyText} (hp : p.Faithful) (v w : PyVal) (hv : v.Ordinary) (hw : w.Ordinary) : p.str v = p.str w ↔ v = w :=
  ⟨str_injective hp hv.1 hv.2 hw.1 hw.2, fun h => by rw [h]⟩

/-- **C120.** The log identifies the call: if the logs of two accepted calls agree as far as the list of observations, then both calls were given the same names, distributions, wells, observations,
smoothing and switch, the same integers, and the same values of the other parameters to within 0.01. -/
theorem C120_log {p : PyText} (hp : p.Faithful) (pr : Printer) (hpr : pr.val = p.str) (a a' : PyArgs) (ha : Acceptable a) (ha' : Acceptable a') (ma : a.Machine) (ma' : a'.Machine) (n n' : Inputs)
    (hn : a.Denotes n) (hn' : a'.Denotes n') (env env' : CallEnv) (ws os : List PyVal) (hw : a.wells = .list ws) (ho : a.observations = .list os)
    (h : (callText pr a n env).take (31 + ws.length + os.length) = (callText pr a' n' env').take (31 + ws.length + os.length)) :
    a.projectname = a'.projectname ∧ a.runtime = a'.runtime ∧ a.cDist = a'.cDist ∧ a.pDist = a'.pDist ∧ a.tDist = a'.tDist ∧ a.wells = a'.wells ∧ a.observations = a'.observations ∧
      a.smooth = a'.smooth ∧ a.confined = a'.confined ∧ a.target.SameInteger a'.target ∧ a.npaths.SameInteger a'.npaths ∧ a.nrealizations.SameInteger a'.nrealizations ∧
      a.duration.Near (1 / 100) a'.duration ∧ a.base.Near (1 / 100) a'.base ∧ a.buffer.Near (1 / 100) a'.buffer ∧ a.spacing.Near (1 / 100) a'.spacing ∧ a.umbra.Near (1 / 100) a'.umbra ∧
      a.tol.Near (1 / 100) a'.tol ∧ a.maxstep.Near (1 / 100) a'.maxstep := by
  obtain ⟨ws', hw', hws', -⟩ := ha'.wells
  obtain ⟨os', ho', -, hos'⟩ := ha'.observations
  have hws : ∀ w ∈ ws, w.IsWell := by
    obtain ⟨l, e, h, -⟩ := ha.wells
    rw [hw] at e
    cases e
    exact h
  have hos : ∀ o ∈ os, o.IsObs := by
    obtain ⟨l, e, -, h⟩ := ha.observations
    rw [ho] at e
    cases e
    exact h
  obtain ⟨rest, e⟩ := callText_arguments ha hn.nrealizations pr n env hw ho
  obtain ⟨rest', e'⟩ := callText_arguments ha' hn'.nrealizations pr n' env' hw' ho'
  rw [e, e'] at h
  have lb : (banner.map (oneText pr)).length = 10 := rfl
  have ls : ∀ a st ws, (scalarTexts pr a st ws).length = 19 := fun _ _ _ => rfl
  have peel : ∀ (A B B' : List (List Char)) (k : ℕ), A.length ≤ k → (A ++ B).take k = (A ++ B').take k → B.take (k - A.length) = B'.take (k - A.length) := by
    intro A B B' k hk h
    rw [List.take_append, List.take_append] at h
    exact List.append_cancel_left h
  have split : ∀ (A A' B B' : List (List Char)) (k : ℕ), A.length = A'.length → A.length ≤ k → (A ++ B).take k = (A' ++ B').take k → A = A' ∧ B.take (k - A.length) = B'.take (k - A.length) := by
    intro A A' B B' k hl hk h
    rw [List.take_append, List.take_append, List.take_of_length_le (l := A) hk, List.take_of_length_le (l := A') (hl ▸ hk), ← hl] at h
    exact List.append_inj h hl
  have h1 := peel _ _ _ _ (by rw [lb]; omega) h
  rw [lb] at h1
  obtain ⟨h2, h3⟩ := split _ _ _ _ _ (by rw [ls, ls]) (by rw [ls]; omega) h1
  rw [ls] at h3
  simp only [scalarTexts, List.cons.injEq, and_true, true_and] at h2
  obtain ⟨t1, t2, t3, t4, t5, t6, t7, t8, t9, t10, t11, t12, t13, t14, t15, t16, t17, t18⟩ := h2
  have cw : ws.length = ws'.length := by
    simp only [valueText, String.reduceEq, or_self, if_false, List.mem_cons, List.not_mem_nil, or_false, false_or, true_or, if_true] at t18
    have := intDigits_inj (List.append_cancel_left t18)
    exact_mod_cast this
  obtain ⟨h4, h5⟩ := split _ _ _ _ _ (by simp [cw]) (by simp; omega) h3
  obtain ⟨h6, h7⟩ := split _ _ _ _ _ (by simp) (by simp; omega) h5
  have co : os.length = os'.length := by
    simp only [List.cons.injEq, true_and, and_true] at h6
    simp only [valueText, String.reduceEq, or_self, if_false, List.mem_cons, List.not_mem_nil, or_false, or_true, if_true] at h6
    have := intDigits_inj (List.append_cancel_left h6)
    exact_mod_cast this
  obtain ⟨h8, -⟩ := split _ _ _ _ _ (by simp [co]) (by simp; omega) h7
  have mw : ∀ v ∈ ws, v.Machine := by have := ma.wells; rw [hw] at this; exact list_parts this
  have mo : ∀ v ∈ os, v.Machine := by have := ma.observations; rw [ho] at this; exact list_parts this
  have mw' : ∀ v ∈ ws', v.Machine := by have := ma'.wells; rw [hw'] at this; exact list_parts this
  have mo' : ∀ v ∈ os', v.Machine := by have := ma'.observations; rw [ho'] at this; exact list_parts this
  have entry : ∀ v w : PyVal, v.Numeric → v.Machine → w.Numeric → w.Machine → valueText pr "    " v = valueText pr "    " w → v = w := by
    intro v w hv mv hw mw h
    simp only [valueText, String.reduceEq, or_self, if_false, List.mem_cons, List.not_mem_nil, if_true, hpr] at h
    exact str_injective hp hv mv hw mw (List.append_cancel_left h)
  have name : ∀ v w : PyVal, (∃ s, v = .str s) → (∃ s, w = .str s) → p.str v = p.str w → v = w := by
    rintro v w ⟨s, rfl⟩ ⟨t, rfl⟩ h
    simp only [PyText.str] at h
    rw [String.ext h]
  simp only [valueText, String.reduceEq, or_self, true_or, or_true, if_false, List.mem_cons, List.not_mem_nil, or_false, false_or, if_true, hpr, List.append_cancel_left_eq] at t1 t2 t3 t4 t5 t7 t8 t9 t10 t11 t12 t13 t14 t15 t16 t17
  have t6' : intVal a.nrealizations = intVal a'.nrealizations := by
    have b : ∀ v : PyVal, (∃ k, v.IsInteger k) → ' ' ∉ intVal v := by
      rintro v ⟨k, hk⟩
      rw [intVal_integer hk]
      exact intDigits_no_blank k
    have b1 := b _ ⟨_, hn.nrealizations⟩
    have b2 := b _ ⟨_, hn'.nrealizations⟩
    have form : ∀ (st : Bool) (v : PyVal), ∃ s, valueText pr (if st then "nrealizations STOCHASTIC" else "nrealizations DETERMINISTIC") v = "nrealizations = ".toList ++ (intVal v ++ ' ' :: s) := by
      intro st v
      cases st
      · exact ⟨"DETERMINISTIC".toList, by simp [valueText]⟩
      · exact ⟨"STOCHASTIC".toList, by simp [valueText]⟩
    obtain ⟨s, hs⟩ := form (decide (1 < n.nrealizations)) a.nrealizations
    obtain ⟨s', hs'⟩ := form (decide (1 < n'.nrealizations)) a'.nrealizations
    rw [hs, hs'] at t6
    exact before_blank b1 b2 (List.append_cancel_left t6)
  have conf : a.confined = a'.confined := by
    obtain ⟨b, hb⟩ := ha.confined
    obtain ⟨b', hb'⟩ := ha'.confined
    rw [hb, hb'] at t15 ⊢
    exact str_injective hp (.bool b) (.bool b) (.bool b') (.bool b') t15
  refine ⟨name _ _ ha.projectname ha'.projectname t1, name _ _ ha.runtime ha'.runtime t2,
    str_injective hp (dist_numeric ha.cDist) ma.cDist (dist_numeric ha'.cDist) ma'.cDist t8, str_injective hp (dist_numeric ha.pDist) ma.pDist (dist_numeric ha'.pDist) ma'.pDist t9,
    str_injective hp (dist_numeric ha.tDist) ma.tDist (dist_numeric ha'.tDist) ma'.tDist t10, ?_, ?_,
    str_injective hp (number_numeric ha.smooth) ma.smooth (number_numeric ha'.smooth) ma'.smooth t14, conf, same_integer ⟨_, hn.target⟩ ⟨_, hn'.target⟩ t3, same_integer ⟨_, hn.npaths⟩ ⟨_, hn'.npaths⟩ t4,
    same_integer ⟨_, hn.nrealizations⟩ ⟨_, hn'.nrealizations⟩ t6', near_of_text ha.duration ha'.duration t5, near_of_text ha.base ha'.base t7, near_of_text ha.buffer ha'.buffer t11,
    near_of_text ha.spacing ha'.spacing t12, near_of_text ha.umbra ha'.umbra t13, near_of_text ha.tol ha'.tol t16, near_of_text ha.maxstep ha'.maxstep t17⟩
  · rw [hw, hw', map_injOn (fun v hv w hw => entry v w (well_numeric (hws v hv)) (mw v hv) (well_numeric (hws' w hw)) (mw' w hw)) h4]
  · rw [ho, ho', map_injOn (fun v hv w hw => entry v w (obs_numeric (hos v hv)) (mo v hv) (obs_numeric (hos' w hw)) (mo' w hw)) h8]

/-- **C121.** The printed form of a `Model` shows base, conductivity, porosity and thickness and nothing else. -/
theorem C121_model {p : PyText} (hp : p.Faithful) (m m' : PyModel) (hm : ∀ v ∈ [m.base, m.conductivity, m.porosity, m.thickness], v.Ordinary)
    (hm' : ∀ v ∈ [m'.base, m'.conductivity, m'.porosity, m'.thickness], v.Ordinary) :
    m.text p = m'.text p ↔ m.base = m'.base ∧ m.conductivity = m'.conductivity ∧ m.porosity = m'.porosity ∧ m.thickness = m'.thickness := by
  have e : ∀ m : PyModel, (∀ v ∈ [m.base, m.conductivity, m.porosity, m.thickness], v.Ordinary) → IsCall p "Model" [m.base, m.conductivity, m.porosity, m.thickness] (m.text p) := by
    intro m hm
    unfold IsCall PyModel.text
    rw [str_numeric p (hm m.base (by simp)).1, str_numeric p (hm m.conductivity (by simp)).1, str_numeric p (hm m.porosity (by simp)).1, str_numeric p (hm m.thickness (by simp)).1]
    simp [List.intercalate]
  constructor
  · intro h
    have := call_unique hp hm hm' (e m hm) (h ▸ e m' hm')
    simpa using this
  · rintro ⟨h1, h2, h3, h4⟩
    unfold PyModel.text
    rw [h1, h2, h3, h4]

/-- **C121.** The printed form of a `Model` looks like a call of the constructor but is not one: however it is read, calling the constructor with the arguments in it raises TypeError. -/
theorem C121_model_fails {p : PyText} (hp : p.Faithful) (m : PyModel) (hm : ∀ v ∈ [m.base, m.conductivity, m.porosity, m.thickness], v.Ordinary) :
    (∃ args, (∀ v ∈ args, v.Ordinary) ∧ IsCall p "Model" args (m.text p)) ∧
      ∀ args, (∀ v ∈ args, v.Ordinary) → IsCall p "Model" args (m.text p) → makeModel args = .error .typeError := by
  have e : IsCall p "Model" [m.base, m.conductivity, m.porosity, m.thickness] (m.text p) := by
    unfold IsCall PyModel.text
    rw [str_numeric p (hm m.base (by simp)).1, str_numeric p (hm m.conductivity (by simp)).1, str_numeric p (hm m.porosity (by simp)).1, str_numeric p (hm m.thickness (by simp)).1]
    simp [List.intercalate]
  refine ⟨⟨_, hm, e⟩, fun args ho h => ?_⟩
  rw [call_unique hp ho hm h e]
  rfl

/-- **C121.** The `repr` of an empty probability field is a call of the constructor that gives the field back. -/
theorem C121_empty {p : PyText} (hp : p.Faithful) (f : PField ℝ) (hf : f.Machine) (dx dy : ℝ) (hnew : PField.new dx dy none none = .ok f) :
    ∃ t, fieldRepr p f = .ok t ∧ (∃ args, (∀ v ∈ args, v.Ordinary) ∧ IsCall p "ProbabilityField" args t) ∧
      ∀ args, (∀ v ∈ args, v.Ordinary) → IsCall p "ProbabilityField" args t → makeField args = .ok f := by
  have hn : f = ⟨dx, dy, 0, 0, none⟩ := by
    unfold PField.new at hnew
    split_ifs at hnew
    exact (Except.ok.inj hnew).symm
  have hdx : f.deltax = dx := by rw [hn]
  have hdy : f.deltay = dy := by rw [hn]
  have h0 : f.nrows = 0 := by rw [hn]
  have hord : ∀ v ∈ [PyVal.float (.fin f.deltax), .float (.fin f.deltay)], v.Ordinary := by
    intro v hv
    simp only [List.mem_cons, List.not_mem_nil, or_false] at hv
    rcases hv with rfl | rfl
    · exact ⟨.float _, .float _ hf.deltax⟩
    · exact ⟨.float _, .float _ hf.deltay⟩
  have hc : IsCall p "ProbabilityField" [.float (.fin f.deltax), .float (.fin f.deltay)] ("ProbabilityField(".toList ++ p.num f.deltax ++ ", ".toList ++ p.num f.deltay ++ ")".toList) := by
    simp [IsCall, List.intercalate, PyText.repr, PyText.float]
  refine ⟨_, by simp only [fieldRepr, if_pos h0], ⟨_, hord, hc⟩, fun args ho h => ?_⟩
  rw [call_unique hp ho hord h hc]
  simp only [makeField, List.map_cons, List.map_nil, PyVal.real?, PyVal.num, hdx, hdy]
  exact hnew

/-- **C121.** The `repr` of a field with data shows its spacing, shape, extent and total weight and nothing else: not the probabilities. -/
theorem C121_field {p : PyText} (hp : p.Faithful) (f g : PField ℝ) (hf : f.Machine) (hg : g.Machine) (b b' : Body ℝ) (hb : f.body = some b) (hb' : g.body = some b') (h0 : f.nrows ≠ 0)
    (h0' : g.nrows ≠ 0) : fieldRepr p f = fieldRepr p g ↔ f.SameFrame g := by
  obtain ⟨t, e, hc⟩ := field_call p f b hb h0
  obtain ⟨t', e', hc'⟩ := field_call p g b' hb' h0'
  constructor
  · intro h
    rw [e, e'] at h
    have := Except.ok.inj h
    subst this
    have := call_unique hp (field_ordinary f hf b hb) (field_ordinary g hg b' hb') hc hc'
    simp only [List.cons.injEq, PyVal.float.injEq, XR.fin.injEq, PyVal.int.injEq, Nat.cast_inj, and_true] at this
    obtain ⟨h1, h2, h3, h4, h5⟩ := this
    refine ⟨h1, h2, h3, h4, fun c c' hc hc' => ?_⟩
    rw [hb] at hc
    rw [hb'] at hc'
    cases hc
    cases hc'
    exact h5
  · rintro ⟨h1, h2, h3, h4, h5⟩
    obtain ⟨h5, h6, h7, h8, h9⟩ := h5 b b' hb hb'
    simp only [fieldRepr, hb, hb', h1, h2, h3, h4, h5, h6, h7, h8, h9]

/-- **C121.** The `repr` of a field with data looks like a call of the constructor but is not one: calling the constructor with the arguments in it raises TypeError. -/
theorem C121_field_fails {p : PyText} (hp : p.Faithful) (f : PField ℝ) (hf : f.Machine) (b : Body ℝ) (hb : f.body = some b) (h0 : f.nrows ≠ 0) :
    ∃ t, fieldRepr p f = .ok t ∧ (∃ args, (∀ v ∈ args, v.Ordinary) ∧ IsCall p "ProbabilityField" args t) ∧
      ∀ args, (∀ v ∈ args, v.Ordinary) → IsCall p "ProbabilityField" args t → makeField args = .error .typeError := by
  obtain ⟨t, e, hc⟩ := field_call p f b hb h0
  refine ⟨t, e, ⟨_, field_ordinary f hf b hb, hc⟩, fun args ho h => ?_⟩
  rw [call_unique hp ho (field_ordinary f hf b hb) h hc]
  simp [makeField, PyVal.real?, PyVal.num]

/-- **C121.** The `str` of an empty field is misleading: it is a call of the constructor, but of one that gives a field with nine nodes around the origin. -/
theorem C121_empty_fails {p : PyText} (hp : p.Faithful) (pgrid : Grid ℝ → List Char) (rgrid : Grid Bool → List Char) (f : PField ℝ) (hf : f.Machine) (dx dy : ℝ)
    (hnew : PField.new dx dy none none = .ok f) :
    ∃ t, fieldStr p pgrid rgrid f = .ok t ∧ (∃ args, (∀ v ∈ args, v.Ordinary) ∧ IsCall p "ProbabilityField" args t) ∧
      ∀ args, (∀ v ∈ args, v.Ordinary) → IsCall p "ProbabilityField" args t →
        ∃ g b, makeField args = .ok g ∧ g.nrows = 3 ∧ g.ncols = 3 ∧ g.body = some b ∧ b.xmin = -f.deltax ∧ b.xmax = f.deltax ∧ b.ymin = -f.deltay ∧ b.ymax = f.deltay := by
  have hn : f = ⟨dx, dy, 0, 0, none⟩ ∧ ¬dx ≤ 0 ∧ ¬dy ≤ 0 := by
    unfold PField.new at hnew
    split_ifs at hnew with h1 h2
    exact ⟨(Except.ok.inj hnew).symm, h1, h2⟩
  obtain ⟨hn, h1, h2⟩ := hn
  have hdx : f.deltax = dx := by rw [hn]
  have hdy : f.deltay = dy := by rw [hn]
  have h0 : f.nrows = 0 := by rw [hn]
  have h0' : f.ncols = 0 := by rw [hn]
  have hord : ∀ v ∈ [PyVal.float (.fin f.deltax), .float (.fin f.deltay), .int 0, .int 0], v.Ordinary := by
    simp only [List.forall_mem_cons, List.not_mem_nil, IsEmpty.forall_iff, implies_true, and_true]
    exact ⟨⟨.float _, .float _ hf.deltax⟩, ⟨.float _, .float _ hf.deltay⟩, ⟨.int _, .int _⟩, ⟨.int _, .int _⟩⟩
  have hc : IsCall p "ProbabilityField" [.float (.fin f.deltax), .float (.fin f.deltay), .int 0, .int 0] ("ProbabilityField(".toList ++ p.num f.deltax ++ ", ".toList ++ p.num f.deltay ++ ", ".toList ++
      natDigits f.nrows ++ ", ".toList ++ natDigits f.ncols ++ ")".toList) := by
    rw [h0, h0']
    simp [IsCall, List.intercalate, PyText.repr, PyText.float, intDigits]
  refine ⟨_, by simp only [fieldStr, if_pos h0], ⟨_, hord, hc⟩, fun args ho h => ?_⟩
  rw [call_unique hp ho hord h hc]
  simp only [makeField, List.map_cons, List.map_nil, PyVal.real?, PyVal.num, hdx, hdy, PField.new, if_neg h1, if_neg h2]
  simp

end Oneka
