/-
Model of a wheel on a rail with a semi-rigid hinge: the contact element of the wheel when the rail consists of several parts
(`rose/model/train_track_interaction.py`, `rose/model/boundary_conditions.py`).
-/
import Verif.Model.TrainOnTrack
import Verif.Model.MeshUtils
import Verif.Model.Hinge

set_option linter.unusedSectionVars false

namespace Rose

/-- The rail parts of a track with a hinge at `xh`: `add_semi_rigid_hinge_at_x`, `rose/pre_process/mesh_utils.py:79-159`, with the
stiffness of a hinge in the rail of the track, `rose/model/track.py:176-194`, as called in `run_rose/demo_semi_rigid.py`. Without a
stiffness the first division `rotational_stiffness / 2` raises (line 125); simplification: also where no node stands at `xh`. -/
noncomputable def HorizontalTrack.hingedRail (t : HorizontalTrack ℝ) (E I f lengthElement xh : ℝ) : Except Err (List (RailPart ℝ)) :=
  match hingeStiffness E I lengthElement f none with
  | none => .error .typeError
  | some s => addHinge (fun k => (t.store k).pos 0) s t.rail t.railElements xh

/-- The contact element of a wheel at every time index, for a rail that consists of `parts`:
`initialize_wheel_loads`, `rose/model/train_track_interaction.py:441-471` (the node lists and the element lists of the rail parts are
concatenated; `unique_idxs` is computed but not used), then `set_active_elements`, `rose/model/boundary_conditions.py:359-387`, and
`set_contact_model_part_as_function_of_time`, `rose/model/boundary_conditions.py:297-328`. -/
noncomputable def railContact (t : HorizontalTrack ℝ) (parts : List (RailPart ℝ)) (path : List ℝ) : Except Err (List (ℕ × ℕ)) := do
  let nodes := parts.flatMap RailPart.nodes
  let elements := parts.flatMap RailPart.elements
  let act ← activeElements elements.length (cumDistances (nodes.map t.coords)) path
  let _ ← contactParts (parts.map fun p => p.elements.length) act
  .ok (act.map fun i => elements.getD i (0, 0))

end Rose
