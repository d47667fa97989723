/-
Specification: a straight cantilever of Timoshenko's beam theory, clamped at its left end, with an axial force, a
transverse force and a moment at its right end.
-/
import Mathlib.Algebra.Order.Field.Basic
import Mathlib.Data.Fin.VecNotation

namespace Rose.Spec

variable {K : Type*} [Field K] [LinearOrder K] [IsStrictOrderedRing K]

/-- Displacements of both ends. The axial force `N` stretches the beam by `N l / (E A)`. The transverse force `V` deflects
the free end by `V l³ / (3 E I)` through bending and by `V l / GAs` through shear (`shear = 1 / GAs`, 0 for a
shear-rigid beam) and turns it by `V l² / (2 E I)`. The moment `M` deflects it by `M l² / (2 E I)` and turns it by
`M l / (E I)`. -/
def cantilever (EA EI shear l N V M : K) : Fin 6 → K :=
  ![0, 0, 0, N * l / EA, V * (l ^ 3 / (3 * EI) + l * shear) + M * l ^ 2 / (2 * EI), V * l ^ 2 / (2 * EI) + M * l / EI]

/-- Forces at both ends: the loads at the free end and the reactions of the clamp. -/
def cantileverForces (l N V M : K) : Fin 6 → K := ![-N, -V, -(V * l + M), N, V, M]

end Rose.Spec
