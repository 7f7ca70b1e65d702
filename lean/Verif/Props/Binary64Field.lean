import Verif.Lemmas.Binary64Field
import Verif.Lemmas.Binary64Range
import Verif.Props.Rounding

/-! # C117 The probability field neither overflows nor underflows -/

namespace Oneka
open PField

/-- **C117.** A field is constructed in binary64 arithmetic as with unlimited exponents, or both raise the same exception. -/
theorem C117_constructor {dx dy : Fl} {xo yo : Option Fl} (hdx : dx.Ordinary) (hdy : dy.Ordinary) (hx : ∀ x, xo = some x → x.Ordinary) (hy : ∀ y, yo = some y → y.Ordinary) :
    Alike PField.Is64 (new dx.to64 dy.to64 (xo.map Fl.to64) (yo.map Fl.to64)) (new dx dy xo yo) :=
  (new_same hdx hdy hx hy).weaken fun _ _ h => h.is64

/-- **C117.** Any history of calls with arguments of ordinary sizes, in binary64 arithmetic: it returns if and only if it does with unlimited exponents, and then all numbers of the field are finite and the same. The number of calls
and the number of registered tracks are not limited. -/
theorem C117_history {dx dy : Fl} {xo yo : Option Fl} (hdx : dx.Ordinary) (hdy : dy.Ordinary) (hx : ∀ x, xo = some x → x.Ordinary) (hy : ∀ y, yo = some y → y.Ordinary)
    {f0 : PField Fl} (h0 : new dx dy xo yo = .ok f0) (cs : List (Call Fl)) (hc : ∀ k ∈ cs, k.Ordinary) :
    ∃ c0, new dx.to64 dy.to64 (xo.map Fl.to64) (yo.map Fl.to64) = .ok c0 ∧ OptAlike PField.Is64 (c0.run (cs.map Call.to64)) (f0.run cs) := by
  have s := new_same hdx hdy hx hy
  rw [h0] at s
  cases e : new dx.to64 dy.to64 (xo.map Fl.to64) (yo.map Fl.to64) with
  | error e' => rw [e] at s; exact s.elim
  | ok c0 => rw [e] at s; exact ⟨c0, rfl, (run_same cs hc s).weaken fun _ _ h => h.is64⟩

/-- **C117.** After such a history every further call does the same in both arithmetics: both never return, or both raise the same exception, or both return. -/
theorem C117_call {dx dy : Fl} {xo yo : Option Fl} (hdx : dx.Ordinary) (hdy : dy.Ordinary) (hx : ∀ x, xo = some x → x.Ordinary) (hy : ∀ y, yo = some y → y.Ordinary)
    {f0 f : PField Fl} (h0 : new dx dy xo yo = .ok f0) (cs : List (Call Fl)) (hc : ∀ k ∈ cs, k.Ordinary) (h : f0.run cs = some f) (k : Call Fl) (hk : k.Ordinary) :
    ∃ c0 c, new dx.to64 dy.to64 (xo.map Fl.to64) (yo.map Fl.to64) = .ok c0 ∧ c0.run (cs.map Call.to64) = some c ∧ c.Is64 f ∧
      OptAlike (fun a b => a.1.Is64 b.1 ∧ a.2 = b.2) (c.step k.to64) (f.step k) := by
  have s := new_same hdx hdy hx hy
  rw [h0] at s
  cases e : new dx.to64 dy.to64 (xo.map Fl.to64) (yo.map Fl.to64) with
  | error e' => rw [e] at s; exact s.elim
  | ok c0 =>
    rw [e] at s
    have r := run_same cs hc s
    rw [h] at r
    cases e2 : c0.run (cs.map Call.to64) with
    | none => rw [e2] at r; exact r.elim
    | some c => rw [e2] at r; exact ⟨c0, c, rfl, e2, FieldSame.is64 r, (step_same r k hk).weaken fun _ _ h => ⟨h.1.is64, h.2⟩⟩

/-- **C117.** So C87 holds in binary64 arithmetic: with weights that are not negative all entries are finite, and between 0 and the total weight. -/
theorem C117_bounds {dx dy : Fl} {xo yo : Option Fl} (hdx : dx.Ordinary) (hdy : dy.Ordinary) (hx : ∀ x, xo = some x → x.Ordinary) (hy : ∀ y, yo = some y → y.Ordinary)
    (cs : List (Call Fl)) (hc : ∀ k ∈ cs, k.Ordinary) (hw : ∀ w, Call.register w ∈ cs → 0 ≤ w.val)
    {c0 c : PField B64} (h0 : new dx.to64 dy.to64 (xo.map Fl.to64) (yo.map Fl.to64) = .ok c0) (h : c0.run (cs.map Call.to64) = some c) {s : Body B64} (hs : c.body = some s) :
    ∃ W : ℝ, s.totalWeight.v = .fin W ∧ ∀ i j, i < c.nrows → j < c.ncols → ∃ p : ℝ, (s.pgrid.val i j).v = .fin p ∧ 0 ≤ p ∧ p ≤ W := by
  have n := new_same hdx hdy hx hy
  rw [h0] at n
  cases e : new dx dy xo yo with
  | error e' => rw [e] at n; exact n.elim
  | ok f0 =>
    rw [e] at n
    have r := run_same cs hc n
    rw [h] at r
    cases e2 : f0.run cs with
    | none => rw [e2] at r; exact r.elim
    | some f =>
      rw [e2] at r
      have r : FieldSame c f := r
      have hb := r.is64.body
      rw [hs] at hb
      cases e3 : f.body with
      | none => rw [e3] at hb; exact hb.elim
      | some b =>
        rw [e3] at hb
        obtain ⟨-, ht, ⟨-, -, hp⟩, -⟩ := hb
        obtain ⟨-, -, -, -, -, -, -, key⟩ := C87_bounds e hw e2 e3
        refine ⟨_, ht, fun i j hi hj => ⟨_, hp i j, ?_⟩⟩
        rw [r.nrows] at hi
        rw [r.ncols] at hj
        exact ⟨(key i j hi hj).1, (key i j hi hj).2.1⟩

/-- **C117.** Weights of ordinary sizes are needed: two tracks of weight `2^1023` make the total weight infinite. -/
theorem C117_overflow : ∃ (dx xo w : Fl) (c0 c : PField B64) (s : Body B64), dx.Ordinary ∧ xo.Ordinary ∧ 0 < w.val ∧ new dx.to64 dx.to64 (some xo.to64) (some xo.to64) = .ok c0 ∧
    c0.run [Call.register w.to64, Call.register w.to64] = some c ∧ c.body = some s ∧ s.totalWeight.v = .pinf := by
  have one : (flt 1).val = 1 := by rw [flt_val _ (by norm_num)]; norm_num
  have o1 : (flt 1).Ordinary := .of_val one (by norm_num) (by norm_num)
  have hn := new_same (xo := some 0) (yo := some 0) o1 o1 (by rintro x ⟨⟩; exact .zero) (by rintro x ⟨⟩; exact .zero)
  have hw : (Fl.of ((2:ℝ) ^ (1023:ℤ))).to64.v = .fin (2 ^ (1023:ℤ)) :=
    to64_v of_pow (Or.inr (by rw [abs_of_pos (two_zpow_pos _)]; exact two_zpow_le (by norm_num))) (by rw [abs_of_pos (two_zpow_pos _)])
  cases e : new (flt 1).to64 (flt 1).to64 (some (0:Fl).to64) (some (0:Fl).to64) with
  | error e' =>
    unfold new at e
    split_ifs at e with c1
    · have : flt 1 ≤ 0 := (o1.same.le_iff (Same.zero (g := 0) (k := 0) (by norm_num) (by norm_num))).mp c1
      rw [Fl.le_iff, one, Fl.val_zero] at this
      norm_num at this
  | ok c0 =>
    have h0 := e
    unfold new at e
    split_ifs at e with c1
    obtain rfl := Except.ok.inj e
    refine ⟨flt 1, 0, Fl.of (2 ^ (1023:ℤ)), _, _, _, o1, .zero, ?_, h0, rfl, rfl, ?_⟩
    · rw [of_pow]; exact two_zpow_pos _
    · change (0 + (Fl.of ((2:ℝ) ^ (1023:ℤ))).to64 + (Fl.of ((2:ℝ) ^ (1023:ℤ))).to64 : B64).v = _
      have z : (0 : B64).v = .fin 0 := toBinary64_zero
      rw [B64.add_v, B64.add_v, z, hw, xfin_add, zero_add, toBinary64_zpow 1023 (by norm_num) (by norm_num), xfin_add, ← two_mul]
      have : (2:ℝ) * 2 ^ (1023:ℤ) = 2 ^ (1024:ℤ) := by
        have := two_zpow_add 1 1023
        rw [zpow_one] at this
        rw [← this]; norm_num
      rw [this, toBinary64_huge _ (by norm_num)]

/-- A field with spacing 10 around (500000, 5000000), a track, a weight, a box and a mistake (reversed limits). -/
example : ∃ (dx : Fl) (xo yo : Fl) (cs : List (Call Fl)) (f0 f : PField Fl), dx.Ordinary ∧ xo.Ordinary ∧ yo.Ordinary ∧ (∀ k ∈ cs, k.Ordinary) ∧ (∀ w, Call.register w ∈ cs → 0 ≤ w.val) ∧
    new dx dx (some xo) (some yo) = .ok f0 ∧ f0.run cs = some f ∧ cs.length = 5 := by
  have e : eps = 1 / 9007199254740992 := by unfold eps; norm_num
  have o : ∀ n : ℕ, 0 < n → n ≤ 10000000 → (flt n).Ordinary := fun n h0 h1 => by
    have a : (1:ℝ) ≤ n := by exact_mod_cast h0
    have b : (n:ℝ) ≤ 10000000 := by exact_mod_cast h1
    refine .of_val (flt_val n (by omega)) ?_ ?_
    · rw [abs_of_nonneg (by linarith)]; refine le_trans ?_ a; norm_num
    · rw [abs_of_nonneg (by linarith)]; refine b.trans ?_; norm_num
  obtain ⟨f0, h0⟩ : ∃ f0, new (flt 10) (flt 10) (some (flt 500000)) (some (flt 5000000)) = .ok f0 := by
    unfold new
    rw [if_neg (by rw [Fl.le_iff]; simp [flt_val]), if_neg (by rw [Fl.le_iff]; simp [flt_val])]
    exact ⟨_, rfl⟩
  obtain ⟨f, h⟩ := C88_returns h0 (Qx := 10000000) (Qy := 10000000) (by rintro y ⟨⟩; rw [flt_val _ (by norm_num)]; norm_num) (by rintro y ⟨⟩; rw [flt_val _ (by norm_num)]; norm_num)
    (by rw [flt_val _ (by norm_num), e]; norm_num) (by rw [flt_val _ (by norm_num), e]; norm_num)
    [.rasterize [flt 500000, flt 500100, flt 500200] [flt 5000000, flt 5000100, flt 5000300] (flt 50), .register (flt 2), .expand (flt 400000) (flt 600000) (flt 5000000) (flt 5000000), .expand (flt 3) (flt 2) (flt 1) (flt 1), .reset] (by
      intro c hc
      simp only [List.mem_cons, List.not_mem_nil, or_false] at hc
      rcases hc with rfl | rfl | rfl | rfl | rfl <;> simp [Call.Within, flt_val, abs_of_pos] <;> norm_num)
  refine ⟨flt 10, flt 500000, flt 5000000, _, f0, f, o _ (by norm_num) (by norm_num), o _ (by norm_num) (by norm_num), o _ (by norm_num) (by norm_num), ?_, ?_, h0, h, rfl⟩
  · intro k hk
    simp only [List.mem_cons, List.not_mem_nil, or_false] at hk
    rcases hk with rfl | rfl | rfl | rfl | rfl <;> simp [Call.Ordinary, o]
  · intro w hw
    simp at hw
    subst hw
    rw [flt_val _ (by norm_num)]
    norm_num

end Oneka
