/-
Specification for C190: the values of a track written in other units of force and time, and results that are the same in both.
-/
import Verif.Spec.LinearDynamics
import Verif.Model.TrackSystem

set_option linter.unusedSectionVars false

namespace Rose.Spec

/-- Values of a rod in units in which a force has `α` times and a time has `τ` times its former number: a stiffness is a force per length, a
damping a force per velocity and a mass a force per acceleration. Lengths keep their unit. -/
noncomputable def rodInUnits (α τ : ℝ) (v : RodValues ℝ) : RodValues ℝ :=
  { stiffness := α * v.stiffness, mass := v.mass.map fun m => α * τ ^ 2 * m, damping := v.damping.map fun c => α * τ * c }

/-- Values of a rail in these units: Young's modulus is a force per area and density a mass per volume. -/
noncomputable def railInUnits (α τ : ℝ) (b : BeamPart ℝ) : BeamPart ℝ := { b with E := α * b.E, rho := α * τ ^ 2 * b.rho }

/-- Values of a track in these units; the frequencies of the Rayleigh damping are per unit of time. -/
noncomputable def trackInUnits (α τ : ℝ) (v : TrackValues) : TrackValues :=
  { v with rail := railInUnits α τ v.rail, pad := rodInUnits α τ v.pad, soil := rodInUnits α τ v.soil, sleeperMass := α * τ ^ 2 * v.sleeperMass,
           w1 := v.w1 / τ, w2 := v.w2 / τ }

/-- The calculations of two structures, of which the second is the first in units in which a force has `α` times and a time has `τ` times its
former number, report the same displacements, and velocities and accelerations that are the same in these units. -/
structure SameInUnits (inp inp' : SystemInput ℝ) (α τ : ℝ) : Prop where
  /-- Static calculations. -/
  static : ∀ (loads : List (TimedLoad ℝ)) times r r', (∀ l ∈ loads, LoadFits inp.n l) → StaticResults inp loads times r →
    StaticResults inp' (loads.map (scaledLoad α)) times r' → ∀ s < times, ∀ i < inp.n, ∀ d, shape r' s i d = shape r s i d
  /-- Calculations in time steps. -/
  dynamic : ∀ (loads : List (TimedLoad ℝ)) (dt : ℝ) times u₀ v₀ r r', 0 < dt → (∀ l ∈ loads, LoadFits inp.n l) →
    DynamicResults inp loads dt times u₀ v₀ r →
    DynamicResults inp' (loads.map (scaledLoad α)) (τ * dt) times u₀ (fun i d => v₀ i d / τ) r' →
      ∀ s < times, ∀ i < inp.n, ∀ d, shape r' s i d = shape r s i d ∧ shapeRate r' s i d = shapeRate r s i d / τ ∧
        shapeAcceleration r' s i d = shapeAcceleration r s i d / τ ^ 2

end Rose.Spec
