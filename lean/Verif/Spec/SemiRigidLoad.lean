/-
Specification of a beam with a transverse point load whose ends are attached through rotational springs (C169).
-/
import Verif.Spec.SemiRigid

namespace Rose.Spec
variable {K : Type*} [Field K] [LinearOrder K]

/-- Textbook end forces `(V1, M1, V2, M2)` that hold a prismatic shear-rigid beam of length `l`, clamped at both ends, against the transverse
force `P` at distance `a` from its first end. -/
def clampedReactions (P a l : K) : K × K × K × K :=
  let b := l - a
  (-(P * b ^ 2 * (3 * a + b) / l ^ 3), -(P * a * b ^ 2 / l ^ 2), -(P * a ^ 2 * (a + 3 * b) / l ^ 3), P * a ^ 2 * b / l ^ 2)

/-- `(V1, M1, V2, M2)` are end forces of the beam with the force `P` at distance `a`, attached through the springs `s1, s2`, for nodal
deflections `w1, w2` and nodal rotations `t1, t2`: there are beam end rotations compatible with springs, beam and load. -/
def LoadedSemiRigidBeam (EI l : K) (s1 s2 : Option K) (P a w1 t1 w2 t2 : K) (F : K × K × K × K) : Prop :=
  ∃ p1 p2, F = slopeDeflection EI l w1 p1 w2 p2 + clampedReactions P a l ∧ SpringLaw s1 t1 p1 F.2.1 ∧ SpringLaw s2 t2 p2 F.2.2.2

/-- `y` is the deflection at distance `a` of the beam without load, attached through the springs `s1, s2`: cubic line through its ends. -/
def SemiRigidDeflection (EI l : K) (s1 s2 : Option K) (w1 t1 w2 t2 a y : K) : Prop :=
  ∃ p1 p2, (let F := slopeDeflection EI l w1 p1 w2 p2
    SpringLaw s1 t1 p1 F.2.1 ∧ SpringLaw s2 t2 p2 F.2.2.2) ∧
    y = w1 + p1 * a + (3 * (w2 - w1) / l ^ 2 - (2 * p1 + p2) / l) * a ^ 2 + ((p1 + p2) / l ^ 2 - 2 * (w2 - w1) / l ^ 3) * a ^ 3

end Rose.Spec
