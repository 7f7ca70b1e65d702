import Verif.Spec.Ratio
import Verif.Spec.Run

/-!
# Changing the units of length and time

What it means for inputs, models and traces that all lengths are `ℓ` times and all times `τ` times as large (because they are given in another unit), and the tracer with its constants of length and time as parameters.
Conductivities are then `ℓ / τ` times, discharges of wells and potentials `ℓ³ / τ` times as large.
-/

namespace Oneka

/-- A well in the other units. -/
noncomputable def SWell.inUnits (ℓ τ : ℝ) (w : SWell) : SWell := ⟨ℓ * w.xw, ℓ * w.yw, ℓ * w.rw, w.q.times (ℓ ^ 3 / τ)⟩

/-- A well with a definite discharge in the other units. -/
noncomputable def Well.inUnits (ℓ τ : ℝ) (w : Well ℝ) : Well ℝ := ⟨ℓ * w.xw, ℓ * w.yw, ℓ * w.rw, ℓ ^ 3 / τ * w.qw⟩

/-- An observation in the other units. -/
noncomputable def Obs.inUnits (ℓ : ℝ) (o : Obs) : Obs := ⟨ℓ * o.x, ℓ * o.y, ℓ * o.z, ℓ * o.std⟩

/-- The arguments of a run in the other units. -/
noncomputable def RunArgs.inUnits (ℓ τ : ℝ) (a : RunArgs) : RunArgs :=
  { a with
    duration := .fin τ * a.duration, base := ℓ * a.base, cDist := a.cDist.times (ℓ / τ), tDist := a.tDist.times ℓ, wells := a.wells.map (SWell.inUnits ℓ τ), obs := a.obs.map (Obs.inUnits ℓ),
    spacing := ℓ * a.spacing, umbra := ℓ * a.umbra, tol := .fin ℓ * a.tol, maxstep := .fin ℓ * a.maxstep }

/-- The numbers of a call in the other units. (`smooth` counts grid nodes.) -/
noncomputable def Inputs.inUnits (ℓ τ : ℝ) (n : Inputs) : Inputs := { n with run := n.run.inUnits ℓ τ, buffer := ℓ * n.buffer }

/-- The factors of the six coefficients: they are a potential divided by two lengths, one length or none. -/
noncomputable def coefUnits (ℓ τ : ℝ) : Fin 6 → ℝ := ![ℓ / τ, ℓ / τ, ℓ / τ, ℓ ^ 2 / τ, ℓ ^ 2 / τ, ℓ ^ 3 / τ]

/-- The coefficients in the other units. `s`: by how much the potential of the wells grows through the other unit of length (a logarithm of a length is in it); the constant coefficient makes up for it. -/
noncomputable def coefInUnits (ℓ τ s : ℝ) (c : Fin 6 → ℝ) : Fin 6 → ℝ := fun i => coefUnits ℓ τ i * (c i - if i = 5 then s else 0)

/-- The covariances of the coefficients in the other units. -/
noncomputable def covInUnits (ℓ τ : ℝ) (c : Matrix (Fin 6) (Fin 6) ℝ) : Matrix (Fin 6) (Fin 6) ℝ := fun i j => coefUnits ℓ τ i * coefUnits ℓ τ j * c i j

/-- By how much the potential of the wells grows through the other unit of length: the sum of the discharges, times the logarithm of `ℓ²`, divided by 4π (as the code rounds it). -/
noncomputable def Aquifer.logShift (ℓ : ℝ) (m : Aquifer ℝ) : ℝ := (m.wells.map fun w => w.qw * Real.log (ℓ ^ 2) * Aquifer.fourPiInv).sum

/-- A model in the other units. -/
noncomputable def Aquifer.inUnits (ℓ τ : ℝ) (m : Aquifer ℝ) : Aquifer ℝ :=
  ⟨ℓ * m.base, ℓ / τ * m.conductivity, m.porosity, ℓ * m.thickness, m.wells.map (Well.inUnits ℓ τ), ℓ * m.xo, ℓ * m.yo, coefInUnits ℓ τ (m.logShift ℓ) m.coef⟩

/-- A place in the other unit of length. -/
noncomputable def placeInUnits (ℓ : ℝ) (p : XR × XR) : XR × XR := (.fin ℓ * p.1, .fin ℓ * p.2)

/-- A trace in the other units. -/
noncomputable def Trace.inUnits (ℓ τ : ℝ) (r : Trace XR) : Trace XR :=
  ⟨r.vertices.map (placeInUnits ℓ), r.steps.map fun a => ⟨.fin τ * a.t, .fin τ * a.dt, .fin ℓ * a.est, placeInUnits ℓ a.vertex⟩, r.warning.map (.fin τ * ·)⟩

/-- The generator of normal numbers `mvn'` gives the same vectors as `mvn` in the other units, if expected values and covariances are in the other units. -/
def ConvertsNormal (ℓ τ : ℝ) (mvn mvn' : ℕ → (Fin 6 → ℝ) → Matrix (Fin 6) (Fin 6) ℝ → Except PyErr (Fin 6 → ℝ)) : Prop :=
  ∀ i ev cov s, mvn' i (coefInUnits ℓ τ s ev) (covInUnits ℓ τ cov) = (mvn i ev cov).map (coefInUnits ℓ τ s)

/-! ## The tracer with its constants as parameters -/

/-- The loop of the tracer (`traceLoop`), with `eps` in place of the machine epsilon that the code adds to the estimated error and to the length of a step. -/
noncomputable def tracerLoop (eps : ℝ) (duration tol maxstep : XR) (feval : ℕ → XR × XR → Except PyErr (XR × XR))
    (t dt : XR) (xy k1 : XR × XR) (n : ℕ) (vs : List (XR × XR)) (ss : List (Accepted XR)) : Option (Trace XR) :=
  if PyMath.abs t < PyMath.abs duration then
    match trial feval n xy k1 (clipDt duration t dt) with
    | .error _ => some ⟨vs, ss, some t⟩
    | .ok (xyt, k2, est, ds) =>
      let dt' := PyMath.q (9/10) * pyMin3 (PyMath.root5 (tol / (est + .fin eps))) (maxstep / (ds + .fin eps)) (PyMath.q 10) * clipDt duration t dt
      if est < tol ∧ ds < maxstep then
        tracerLoop eps duration tol maxstep feval (t + clipDt duration t dt) dt' xyt k2 (n+6) (vs ++ [xyt]) (ss ++ [⟨t, clipDt duration t dt, est, xyt⟩])
      else
        tracerLoop eps duration tol maxstep feval t dt' xy k1 (n+6) vs ss
  else some ⟨vs, ss, none⟩
partial_fixpoint

/-- The tracer (`compute_backtrace`), with `first` in place of the first time step of 0.1, and `eps` in place of the machine epsilon. -/
noncomputable def tracer (first eps : ℝ) (xs ys duration tol maxstep : XR) (feval : ℕ → XR × XR → Except PyErr (XR × XR)) : Option (Trace XR) :=
  match feval 0 (xs, ys) with
  | .error _ => some ⟨[(xs, ys)], [], some (.fin 0)⟩
  | .ok k1 => tracerLoop eps duration tol maxstep feval (.fin 0) (.fin first * PyMath.sign duration) (xs, ys) k1 1 [(xs, ys)] []

/-- The traces of a realization, had they been computed in the present units with the constants that the code uses in the other units: a distance of one other unit of length between the rim of the well and the starts, a first
step of 0.1 other units of time, and machine epsilon in the other unit of length. -/
def RetracedIn (ℓ τ : ℝ) (a : RunArgs) (t : SWell) (interrupt : ℕ → ℕ → Option PyErr) (m : Aquifer ℝ) (trs : List (Trace XR)) : Prop :=
  trs.length = a.npaths.toNat ∧ ∀ (k : ℕ) (tr : Trace XR), trs[k]? = some tr →
    tracer (1 / 10 / τ) (1 / 4503599627370496 / ℓ) (.fin (t.xw + (t.rw + 1 / ℓ) * Real.cos (2 * Real.pi * k / a.npaths))) (.fin (t.yw + (t.rw + 1 / ℓ) * Real.sin (2 * Real.pi * k / a.npaths)))
      a.duration a.tol a.maxstep (fun n p => match interrupt k n with
        | some e => .error e
        | none => m.toX.reverseVelocity a.confined p) = some tr

end Oneka
