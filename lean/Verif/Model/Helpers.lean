/-
Helper functions of the public modules that the calculations themselves do not call.
-/
import Verif.Model.System
import Verif.Model.MovingLoad
import Verif.Model.Rotation

set_option linter.unusedSectionVars false

namespace Rose

/-- What can be handed to `calculate_rotation`: arrays of coordinates, which have a `shape`, or a `Node`, which has none
(`rose/model/geometry.py:5-36`, `rose/model/utils.py:193-204`). -/
inductive Place where
  | coordinates (rows : List (ℝ × ℝ))
  | node (x y z : ℝ)

/-- `calculate_rotation`, `rose/model/utils.py:193-219`, with the first access `coord1.shape[0]` (line 204), which is an `AttributeError` for a
node, and `coord2[:, 0]` (line 207), a `TypeError` for a node. Arrays of different lengths raise (broadcasting of single rows is not modelled). -/
noncomputable def rotationsBetween : Place → Place → Except Err (List ℝ)
  | .coordinates p, .coordinates q =>
    if p.length = q.length then .ok (List.zipWith (fun a b => calculateRotation a.1 a.2 b.1 b.2) p q) else .error .valueError
  | .coordinates _, .node .. => .error .typeError
  | .node .., _ => .error .exception

/-- `rotate_force_vector`, `rose/model/utils.py:255-275`: an element of two nodes hands its nodes, not their coordinates, to
`calculate_rotation`; the rotation matrix of the contact model part is that of rods and beams (`rose/model/model_part.py:408-421, 604-616`). -/
noncomputable def rotateForceVector (nodes : List (ℝ × ℝ × ℝ)) (force : ℝ × ℝ × ℝ) : Except Err (ℝ × ℝ × ℝ) :=
  match nodes with
  | [a, b] => do
    let rot ← rotationsBetween (.node a.1 a.2.1 a.2.2) (.node b.1 b.2.1 b.2.2)
    .ok (rotatePoint (rot.headD 0) force)
  | _ => .ok force

variable {K : Type*} [Field K] [LinearOrder K] [IsStrictOrderedRing K]

/-- `set_load_vector_as_function_of_time` of the mesh utilities, `rose/pre_process/mesh_utils.py:18-33`, for `n = len(time)`: the ramp, then
`filter_data_outside_range` (`rose/model/utils.py:30-45`; a mask of another length is an `IndexError`), whose single array is unpacked into two
names (a `ValueError` unless it has two entries). -/
def meshLoadVector (n : ℕ) (load : K) (build : ℕ) (locations : List K) (lo hi : K) : Except Err (K × K) := do
  let ramp ← loadRamp n build build load
  if locations.length = ramp.length then
    match List.zipWith (filterData lo hi) locations ramp with
    | [a, b] => .ok (a, b)
    | _ => .error .valueError
  else .error .indexError

end Rose
