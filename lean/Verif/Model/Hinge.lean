/-
Model of the hinge stiffness of `rose/model/track.py` and of its use in `rose/pre_process/mesh_utils.py`.
-/
import Verif.Model.Rotation

set_option linter.unusedSectionVars false

namespace Rose
variable {K : Type*} [Field K] [LinearOrder K] [IsStrictOrderedRing K]

/-- `np.isclose(x, 1)` (default tolerances: `1e-8 + 1e-5 * |1|`), `rose/model/track.py:190`. -/
def npIsCloseOne (x : K) : Prop := |x - 1| ≤ 1 / 100000000 + 1 / 100000

instance (x : K) : Decidable (npIsCloseOne x) := by unfold npIsCloseOne; infer_instance

/-- `Hinge.calculate_hinge_stiffness`, `rose/model/track.py:176-194`: the new value of the attribute
`rotational_stiffness`, given its old value. The last branch constructs an exception object without raising it, so the
attribute keeps its old value. -/
def hingeStiffness (E I l f : K) (old : Option K) : Option K :=
  if 0 ≤ f ∧ f < 1 then some (3 * E * I * f / ((1 - f) * l))
  else if npIsCloseOne f then some (10 ^ 30)
  else old

/-- `Hinge.set_aux_mass_matrix` and the zero stiffness and damping matrices, `rose/model/track.py:150-174`, which is
the same code as for `Sleeper`, `rose/model/track.py:96-120`. -/
def pointMass (mass : K) : Matrix (Fin 1) (Fin 1) K := fun _ _ => mass

/-- `Sleeper/Hinge.set_aux_stiffness_matrix`, `rose/model/track.py:96-102, 150-156`. -/
def pointStiffness : Matrix (Fin 1) (Fin 1) K := fun _ _ => 0

end Rose
