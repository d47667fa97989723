/-
Model of the hinge of the demo with a semi-rigid hinge as a part with its own mass (`run_rose/demo_semi_rigid.py`,
`rose/pre_process/mesh_utils.py`, `rose/model/track.py`).
-/
import Verif.Model.HingedSystem

set_option linter.unusedSectionVars false

namespace Rose

/-- The dictionary `hinge_data` of the demo, `run_rose/demo_semi_rigid.py:328-331`, `rose/pre_process/mesh_utils.py:172-182`. -/
structure HingeData where
  coord : ℝ
  fixity : ℝ
  mass : ℝ

/-- The hinge as a part of a system: one degree of freedom per node, the mass matrix `[[mass]]`, no stiffness and no damping,
`rose/model/track.py:121-174`; the same code as for `Sleeper`. -/
noncomputable def hingeAssembly (mass : ℝ) (nodes : List ℕ) : AssemblyPart ℝ := sleeperAssembly mass nodes

/-- `create_model` up to the train, `run_rose/demo_semi_rigid.py:74-163`: `create_hinge_model_part` gives the parts of the split rail and
the hinge (line 112, `rose/pre_process/mesh_utils.py:162-186`); the parts of the system are the rail parts, the pads, the sleepers, the
boundaries and the soil (lines 158-161), without the hinge, so its mass is not used. Simplification: one segment. -/
noncomputable def HorizontalTrack.demoSystem (t : HorizontalTrack ℝ) (v : TrackValues) (hinge : HingeData) (held : Bool) :
    Except Err (SystemInput ℝ) :=
  t.hingedSystem v hinge.fixity hinge.coord held

end Rose
