/-
Specification of a beam whose ends are attached through rotational springs.
-/
import Mathlib.Algebra.Order.Field.Basic

namespace Rose.Spec
variable {K : Type*} [Field K] [LinearOrder K]

/-- A rotational spring of stiffness `s` (`none` = rigid) between a node (rotation `theta`) and a beam end (rotation
`psi`) transmits the moment `M`. -/
def SpringLaw (s : Option K) (theta psi M : K) : Prop :=
  match s with
  | none => psi = theta
  | some s => M = s * (theta - psi)

/-- Textbook end forces `(V1, M1, V2, M2)` of a prismatic shear-rigid beam of bending stiffness `EI` and length `l` with
end deflections `w1, w2` and end rotations `t1, t2` (slope-deflection equations). -/
def slopeDeflection (EI l w1 t1 w2 t2 : K) : K × K × K × K :=
  let chord := (w1 - w2) / l
  (6 * EI / l ^ 2 * (t1 + t2 + 2 * chord), 2 * EI / l * (2 * t1 + t2 + 3 * chord),
   -(6 * EI / l ^ 2 * (t1 + t2 + 2 * chord)), 2 * EI / l * (t1 + 2 * t2 + 3 * chord))

/-- `(V1, M1, V2, M2)` are end forces of the beam attached through the springs `s1, s2`, for nodal deflections
`w1, w2` and nodal rotations `t1, t2`: there are beam end rotations compatible with springs and beam. -/
def SemiRigidBeam (EI l : K) (s1 s2 : Option K) (w1 t1 w2 t2 : K) (F : K × K × K × K) : Prop :=
  ∃ p1 p2, F = slopeDeflection EI l w1 p1 w2 p2 ∧ SpringLaw s1 t1 p1 F.2.1 ∧ SpringLaw s2 t2 p2 F.2.2.2

/-- Textbook end forces `(V1, M1, V2, M2)` of a prismatic Timoshenko beam: bending stiffness `EI`, length `l`, ratio of
bending to shear stiffness `phi = 12 EI / (k G A l²)`. -/
def shearSlopeDeflection (EI phi l w1 t1 w2 t2 : K) : K × K × K × K :=
  let chord := (w1 - w2) / l
  let V := 6 * EI / ((1 + phi) * l ^ 2) * (t1 + t2 + 2 * chord)
  (V, EI / ((1 + phi) * l) * ((4 + phi) * t1 + (2 - phi) * t2 + 6 * chord),
   -V, EI / ((1 + phi) * l) * ((2 - phi) * t1 + (4 + phi) * t2 + 6 * chord))

/-- `(V1, M1, V2, M2)` are end forces of the Timoshenko beam attached through the springs `s1, s2`. -/
def SemiRigidTimoshenko (EI phi l : K) (s1 s2 : Option K) (w1 t1 w2 t2 : K) (F : K × K × K × K) : Prop :=
  ∃ p1 p2, F = shearSlopeDeflection EI phi l w1 p1 w2 p2 ∧ SpringLaw s1 t1 p1 F.2.1 ∧ SpringLaw s2 t2 p2 F.2.2.2

end Rose.Spec
