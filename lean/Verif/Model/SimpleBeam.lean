/-
Model of the beams of the benchmarks: a chain of beam elements with supports and a load on one node
(`tests/test_benchmark_set1.py`).
-/
import Verif.Model.TrackSystem
import Verif.Model.Results

set_option linter.unusedSectionVars false

namespace Rose

/-- The elements of a chain of `m` beam elements between the nodes `Node(i * length_beam, 0, 0)`, with the direction cosines of
`calculate_rotation`, `tests/test_benchmark_set1.py:265-266`. Simplification: node `i` is at position `i` of `mesh.nodes`,
as `add_unique_nodes_to_mesh` gives it for distinct nodes. -/
noncomputable def chainElements (l : ℝ) (m : ℕ) : List ((ℕ × ℕ) × (ℝ × ℝ)) :=
  (List.range m).map fun i : ℕ =>
    let rot := calculateRotation ((i : ℝ) * l) 0 (((i + 1 : ℕ) : ℝ) * l) 0
    ((i, i + 1), (Real.cos rot, Real.sin rot))

/-- The part `TimoshenkoBeamElementModelPart` on the chain, `tests/test_benchmark_set1.py:282-291`. -/
noncomputable def chainPart (b : BeamPart ℝ) (m : ℕ) : AssemblyPart ℝ :=
  beamAssembly b (chainElements b.l m) (List.range (m + 1))

/-- A load condition in y on one node with `y_force_matrix[0, t] = force t`, `tests/test_benchmark_set1.py:299-303`. -/
def nodeLoad (k : ℕ) (force : ℕ → ℝ) : TimedLoad ℝ :=
  { nodes := [k], act := ![false, true, false], source := .table fun _ t => ![0, force t, 0] }

/-- The constraint parts of a beam on two supports, `tests/test_benchmark_set1.py:293-297`: the first node is held in x and y,
the last in y. -/
def simpleSupports (m : ℕ) : List ConstraintPart :=
  [{ nodes := [0], free := ![false, false, true] }, { nodes := [m], free := ![true, false, true] }]

/-- The calculation of a beam on two supports of `m` elements with a load on node `k`, `tests/test_benchmark_set1.py:265-318`. -/
noncomputable def simpleBeamRun (b : BeamPart ℝ) (m k : ℕ) (force : ℕ → ℝ) : SystemRun ℝ :=
  { system :=
      { n := m + 1, parts := [chainPart b m], loads := [], constraints := simpleSupports m
        isRayleigh := false, ratio := 0, w1 := 0, w2 := 0 }
    timed := [nodeLoad k force] }

end Rose
