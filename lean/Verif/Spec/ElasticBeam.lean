/-
Specification of an elastic beam by the differential equations of Timoshenko (C170).
-/
import Mathlib.Analysis.Calculus.Deriv.Basic
import Mathlib.MeasureTheory.Integral.IntervalIntegral.Basic
import Verif.Spec.SemiRigid

namespace Rose.Spec

/-- The state of a straight beam, as functions of the distance from its first end: axial displacement `u`, deflection `w`, rotation of
the cross sections `theta`, bending moment `M`, shear force `V` and normal force `N`. -/
structure BeamState where
  u : ℝ → ℝ
  w : ℝ → ℝ
  theta : ℝ → ℝ
  M : ℝ → ℝ
  V : ℝ → ℝ
  N : ℝ → ℝ

/-- The beam is in equilibrium without loads between its ends and obeys the laws of elasticity: axial stiffness `EA`, bending
stiffness `EI`, shear flexibility `s` (zero for a shear-rigid beam, otherwise the reciprocal of the shear stiffness). -/
structure BeamState.Elastic (EA EI s : ℝ) (b : BeamState) : Prop where
  /-- No axial load. -/
  axial : ∀ x, HasDerivAt b.N 0 x
  /-- No transverse load. -/
  shear : ∀ x, HasDerivAt b.V 0 x
  /-- Balance of moments. -/
  moment : ∀ x, HasDerivAt b.M (-b.V x) x
  /-- Normal force and elongation. -/
  elongation : ∀ x, HasDerivAt b.u (b.N x / EA) x
  /-- Moment and curvature. -/
  curvature : ∀ x, HasDerivAt b.theta (b.M x / EI) x
  /-- Shear force and shear strain: slope less rotation. -/
  strain : ∀ x, HasDerivAt b.w (b.theta x + s * b.V x) x

/-- The ends at distance zero and `l` have the displacements, deflections and rotations `d`. -/
def BeamState.HasEnds (b : BeamState) (l : ℝ) (d : Fin 6 → ℝ) : Prop :=
  b.u 0 = d 0 ∧ b.w 0 = d 1 ∧ b.theta 0 = d 2 ∧ b.u l = d 3 ∧ b.w l = d 4 ∧ b.theta l = d 5

/-- The ends of the beam are attached to two nodes with the displacements, deflections and rotations `d`; the rotations are transmitted
by the springs `s1, s2`. -/
def BeamState.OnSprings (b : BeamState) (l : ℝ) (s1 s2 : Option ℝ) (d : Fin 6 → ℝ) : Prop :=
  b.u 0 = d 0 ∧ b.w 0 = d 1 ∧ SpringLaw s1 (d 2) (b.theta 0) (-b.M 0) ∧
    b.u l = d 3 ∧ b.w l = d 4 ∧ SpringLaw s2 (d 5) (b.theta l) (b.M l)

/-- The forces and moments that act on the two ends, in the directions of the displacements and rotations. -/
def BeamState.endForces (b : BeamState) (l : ℝ) : Fin 6 → ℝ := ![-b.N 0, -b.V 0, -b.M 0, b.N l, b.V l, b.M l]

/-- Twice the elastic energy. -/
noncomputable def BeamState.elasticEnergy (b : BeamState) (EA EI s l : ℝ) : ℝ :=
  ∫ x in (0 : ℝ)..l, (b.N x ^ 2 / EA + b.M x ^ 2 / EI + s * b.V x ^ 2)

/-- Twice the kinetic energy if the displacements are taken as velocities: mass per length `m`, rotary inertia per length `j`. -/
noncomputable def BeamState.inertia (b : BeamState) (m j l : ℝ) : ℝ :=
  ∫ x in (0 : ℝ)..l, (m * (b.u x ^ 2 + b.w x ^ 2) + j * b.theta x ^ 2)

end Rose.Spec
