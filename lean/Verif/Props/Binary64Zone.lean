import Verif.Lemmas.Binary64Zone
import Verif.Props.Binary64Trace
import Verif.Props.RoundingZone
import Verif.Lemmas.PropsBinary64Zone

/-! # C119 A capture zone neither overflows nor underflows -/

namespace Oneka
open Aquifer PField

section
variable [LibM]

/-- **C119.** Capture zones in binary64 arithmetic. Let all arguments and all parameters of the models have ordinary sizes, and let the traces of all models from all starting points stay in regions with ordinary coordinates. Then the
whole computation - angles, starting points, traces with their velocities, the field and its weights - does the same as with unlimited exponents: it never returns, or raises the same exception, or returns a field with the same
(finite) numbers. -/
theorem C119_zones (hl : LogAccurate) (hroot : RootAccurate) (htrig : TrigAccurate) {n : ℕ} (hn : n ≤ 2 ^ 40) (hrange : TrigRange n) {xt yt rt D u d tol maxstep : Fl} (hxt : xt.Ordinary) (hyt : yt.Ordinary)
    (hrt : rt.Ordinary) (hu : u.Ordinary) (hd : d.Ordinary) (hD : D.Ordinary) (hD0 : 0 < D.val) (ht : tol.Ordinary) (ht0 : 0 < tol.val) (hx : maxstep.Ordinary) (hx0 : 0 < maxstep.val) (confined : Bool)
    (ms : List (Aquifer Fl)) (hms : ∀ m ∈ ms, m.Ordinary) (hstay : ∀ m ∈ ms, ∀ θ ∈ flAngles n, ∃ Q M, StaysIn m confined (flStart xt yt rt θ) D tol maxstep Q M) :
    OptAlike (Alike PField.Is64) (zones xt.to64 yt.to64 rt.to64 n D.to64 u.to64 d.to64 tol.to64 maxstep.to64 confined (ms.map Aquifer.to64)) (zones xt yt rt n D u d tol maxstep confined ms) := by
  have path : ∀ m ∈ ms, List.Forall₂ (PathSame xt yt rt D tol maxstep (m.to64.backVelocity confined) (m.backVelocity confined)) (zoneAngles n) (zoneAngles n) := by
    intro m hm
    have ha := angles_same htrig hn
    rw [zoneAngles_fl]
    refine List.forall₂_iff_get.mpr ⟨ha.length_eq, fun i h1 h2 => ?_⟩
    have hi := (List.forall₂_iff_get.mp ha).2 i h1 h2
    have hmem : (flAngles n).get ⟨i, h2⟩ ∈ flAngles n := List.get_mem _ _
    obtain ⟨Q, M, s⟩ := hstay m hm _ hmem
    obtain ⟨r, hr, hw⟩ := s.run
    obtain ⟨e1, r64, e2, e3⟩ := C118_trace hl hroot (hms m hm) confined Q M s.region s.nonneg s.small _ _ D tol maxstep hD hD0 ht ht0 hx hx0 s.tol_way s.maxstep_way s.near hr hw
    obtain ⟨s1, s2⟩ := start_same hrange hxt hyt hrt hmem hi
    refine ⟨r64, r, ?_, ?_, e3.vertices, fun v hv => ?_⟩
    · rw [s1.to64, s2.to64, back_reverse]; exact e2
    · rw [zoneStart_fl, back_reverse]; exact e1
    · obtain ⟨k, w, hk⟩ := vertices_answered hw hr v hv
      obtain ⟨o1, o2, -⟩ := s.region v (within_ok hk).1
      exact ⟨o1, o2⟩
  have s := zones_same (r := rt) (D := D) (tol := tol) (maxstep := maxstep) hxt hyt hd hu ms path
  revert s
  cases zones xt.to64 yt.to64 rt.to64 n D.to64 u.to64 d.to64 tol.to64 maxstep.to64 confined (ms.map Aquifer.to64) with
  | none => cases zones xt yt rt n D u d tol maxstep confined ms <;> exact id
  | some a =>
    cases zones xt yt rt n D u d tol maxstep confined ms with
    | none => exact id
    | some b => exact fun h => Alike.weaken h fun _ _ h => h.is64

open Classical in
/-- **C119.** So the frequencies of C105 hold in binary64 arithmetic, too, if all magnitudes are ordinary: the call returns a field of finite numbers; its total weight is the number of models, and the weight of a node is
at least the number of models with an exact pathline passing within the umbra less `η + δ`, and at most the number with one passing within the umbra plus `η + δ`. -/
theorem C119_frequencies (hlog : LogAccurate) (hroot : RootAccurate) (htrig : TrigAccurate) {A B : Axis} {S η δ : ℝ} {n : ℕ} (hn : n ≤ 2 ^ 40) (hrange : TrigRange n) (xt yt rt D u d tol maxstep : Fl)
    (hxt : xt.Ordinary) (hyt : yt.Ordinary) (hrt : rt.Ordinary) (huo : u.Ordinary) (hdo : d.Ordinary) (hD : D.Ordinary) (hD0 : 0 < D.val) (ht : tol.Ordinary) (ht0 : 0 < tol.val) (hx : maxstep.Ordinary)
    (hx0 : 0 < maxstep.val) (confined : Bool) (ms : List (Aquifer Fl)) (hms : ∀ m ∈ ms, m.Ordinary)
    (hd : 0 < d.val) (hA : A.Fits xt.val d.val) (hB : B.Fits yt.val d.val) (η0 : 0 ≤ η) (hηu : η ≤ u.val) (huS : u.val ≤ S) (hmS : 2 * maxstep.val ≤ S)
    (hη : 2000 * (2 ^ (-53 : ℤ) * S ^ 2) ≤ u.val * η) (hlen : ms.length ≤ 2 ^ 53) (P : ℕ → ℕ → ℝ → ℝ × ℝ)
    (hP : ∀ i m, ms[i]? = some m → ∀ j θ, (flAngles n)[j]? = some θ → OrdinaryFollows m confined (flStart xt yt rt θ) D tol maxstep A.reach B.reach δ (P i j)) :
    ∃ c f, zones xt.to64 yt.to64 rt.to64 n D.to64 u.to64 d.to64 tol.to64 maxstep.to64 confined (ms.map Aquifer.to64) = some (.ok c) ∧ PField.Is64 c f ∧ f.exact.total = ms.length ∧
      ∀ p q : ℤ, (|p| ≤ 1 ∧ |q| ≤ 1) ∨ u.val ≤ d.val → ∀ X Y : ℝ, X = xt.val + p * d.val → Y = yt.val + q * d.val →
        ((List.range ms.length).countP fun i => ∃ j, j < n ∧ Passes (P i j) D.val (u.val - η - δ) X Y) ≤ f.exact.weightAt X Y ∧
        f.exact.weightAt X Y ≤ ((List.range ms.length).countP fun i => ∃ j, j < n ∧ Passes (P i j) D.val (u.val + η + δ) X Y) := by
  obtain ⟨f, h1, h2, h3⟩ := C105_frequencies hlog hroot xt yt rt D u d tol maxstep n confined ms hd hA hB η0 hηu huS hmS hη hlen P fun i m hm j θ hθ => by
    obtain ⟨f, L, M, H, ρ, R, ν, η, μ, mm, T, E, N, h, -⟩ := hP i m hm j θ hθ
    exact ⟨f, L, M, H, ρ, R, ν, η, μ, mm, T, E, N, h⟩
  have s := C119_zones hlog hroot htrig hn hrange hxt hyt hrt huo hdo hD hD0 ht ht0 hx hx0 confined ms hms fun m hm θ hθ => by
    obtain ⟨i, hi⟩ := List.mem_iff_getElem?.mp hm
    obtain ⟨j, hj⟩ := List.mem_iff_getElem?.mp hθ
    obtain ⟨f, L, M, H, ρ, R, ν, η, μ, mm, T, E, N, h, hp, hM⟩ := hP i m hi j θ hj
    exact ⟨_, _, stays_in_tube hlog hroot h hp hM⟩
  rw [zones_eq_flZones xt, h1] at s
  revert s
  cases e : zones xt.to64 yt.to64 rt.to64 n D.to64 u.to64 d.to64 tol.to64 maxstep.to64 confined (ms.map Aquifer.to64) with
  | none => exact fun s => s.elim
  | some a =>
    cases a with
    | error e => exact fun s => s.elim
    | ok c => exact fun s => ⟨c, f, rfl, s, h2, h3⟩

end

end Oneka
