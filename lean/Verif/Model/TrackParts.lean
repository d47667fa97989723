/-
Model of the rail part of `rose/model/track.py` and of hinges on generated rails (`rose/pre_process/mesh_utils.py`).
-/
import Verif.Model.MeshUtils
import Verif.Model.Hinge
import Mathlib.Analysis.Real.Sqrt

set_option linter.unusedSectionVars false

namespace Rose

/-- `distances` in `calculate_length_rail`, `rose/model/track.py:50-56`: distances of consecutive nodes. -/
noncomputable def railDistances : List (Fin 3 → ℝ) → List ℝ
  | p :: q :: rest =>
    Real.sqrt ((q 0 - p 0) ^ 2 + (q 1 - p 1) ^ 2 + (q 2 - p 2) ^ 2) :: railDistances (q :: rest)
  | _ => []

open Classical in
/-- `Rail.calculate_length_rail`, `rose/model/track.py:43-64`: the new value of `length_element`, given its old one;
`InvalidRailException` is `.exception`. -/
noncomputable def calculateLengthRail (nodes : List (Fin 3 → ℝ)) (old : Option ℝ) : Except Err (Option ℝ) :=
  match railDistances nodes with
  | [] => .ok old
  | d0 :: ds => if ∀ d ∈ d0 :: ds, npIsClose d0 d then .ok (some d0) else .error .exception

section
variable {K : Type*} [Field K] [LinearOrder K] [IsStrictOrderedRing K]

/-- Coordinates of `rail_model_part.nodes`, `rose/pre_process/mesh_utils.py:264`. -/
def HorizontalTrack.railPositions (t : HorizontalTrack K) : List (Fin 3 → K) := t.rail.map fun i => (t.store i).pos

/-- `create_hinge_model_part` on the rail of a generated track, `rose/pre_process/mesh_utils.py:172-179`: the rotational
stiffness of the new hinge, computed with the `length_element` that the generation has set. -/
def createdHingeStiffness (t : HorizontalTrack K) (E I f : K) : Option K := hingeStiffness E I t.lengthElement f none

end
end Rose
