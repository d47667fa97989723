/-
Model of the benchmark of a beam with a hinge under a load that moves along its nodes
(`tests/test_benchmark_set1.py`, `test_point_load_on_beam_with_hinge`).
-/
import Verif.Model.HingedSystem

set_option linter.unusedSectionVars false

namespace Rose

/-- Elements between the nodes `Node(i * length_beam, 0, 0)` with the direction cosines of `calculate_rotation`,
`tests/test_benchmark_set1.py:457-460`. Simplification: node `i` is at position `i` of `mesh.nodes`, as `add_unique_nodes_to_mesh`
gives it for distinct nodes. -/
noncomputable def beamElements (l : ℝ) (es : List (ℕ × ℕ)) : List ((ℕ × ℕ) × (ℝ × ℝ)) :=
  es.map fun e =>
    let rot := calculateRotation ((e.1 : ℝ) * l) 0 ((e.2 : ℝ) * l) 0
    (e, (Real.cos rot, Real.sin rot))

/-- The moving load of the benchmark: at output time `t` it stands on the node `place t`, `tests/test_benchmark_set1.py:502-521`. All
nodes of the rail are nodes of the load. Simplification: the nodal forces are those of a load at the end of an element, where the shape
functions put the whole force on the node (C156, second part). -/
def steppingLoad (m : ℕ) (place : ℕ → ℕ) (force : ℕ → ℝ) : TimedLoad ℝ :=
  { nodes := List.range (m + 1), act := ![true, true, true]
    source := .moving fun i t => if i = place t then ![0, force t, 0] else 0 }

/-- The calculation of a beam of `m` elements with a hinge without rotational stiffness at `xh`,
`tests/test_benchmark_set1.py:443-549`: `add_semi_rigid_hinge_at_x`, the material and section of the parts, the constraints on the first
node of the first part and the last node of the last part, and the load. Simplification: the length of every part is the common
length of the elements. -/
noncomputable def hingedBeamRun (b : BeamPart ℝ) (m : ℕ) (xh : ℝ) (place : ℕ → ℕ) (force : ℕ → ℝ) : Except Err (SystemRun ℝ) := do
  let pieces ← addHinge (fun i => (i : ℝ) * b.l) 0 (List.range (m + 1)) ((List.range m).map fun i => (i, i + 1)) xh
  let sides ← match pieces.head?.bind (fun p => p.nodes.head?), pieces.getLast?.bind (fun p => p.nodes.getLast?) with
    | some a, some z => .ok (a, z)
    | _, _ => .error .indexError
  .ok {
    system :=
      { n := m + 1
        parts := pieces.map fun p => beamAssembly (p.beam b) (beamElements b.l p.elements) p.nodes
        loads := []
        constraints := [{ nodes := [sides.1], free := ![false, false, false] }, { nodes := [sides.2], free := ![false, false, true] }]
        isRayleigh := true, ratio := 3 / 10, w1 := 2, w2 := 500 }
    timed := [steppingLoad m place force] }

end Rose
