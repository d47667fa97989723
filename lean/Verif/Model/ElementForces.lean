/-
Model of the element forces that a finished calculation reports (`rose/model/global_system.py`: `finalise`,
`calculate_force_in_elements`; `rose/model/geometry.py`: `Element.assign_force`).
-/
import Verif.Model.Results
import Verif.Model.TrackSystem

set_option linter.unusedSectionVars false

namespace Rose

section
variable {K : Type*} [Field K] [LinearOrder K] [IsStrictOrderedRing K]

/-- What `calculate_force_in_elements` reads from a part, `rose/model/global_system.py:558-570, 576-582`: the reshaped
stiffness matrix, the active dofs and the directions of the elements; nothing for a part without stiffness matrix. -/
def AssemblyPart.forceData (p : AssemblyPart K) : Option (ElementPartForces K) :=
  p.stiffness.map fun a =>
    { stiffness := Matrix.of fun i j => p.reshaped a (i, j), mask := p.act, dirs := p.elements.map (·.2) }

/-- `np.concatenate([node.displacements for node in element.nodes], axis=1)` at one output index,
`rose/model/global_system.py:571-573`; `row` are the results of all nodes at this index. -/
def stackedDisplacements (row : List (NodeRow K)) (e : ℕ × ℕ) : Fin 6 → K :=
  let a := ((row[e.1]?).map NodeRow.displacement).getD 0
  let b := ((row[e.2]?).map NodeRow.displacement).getD 0
  ![a 0, a 1, a 2, b 0, b 1, b 2]

/-- `element.force` of all elements of a part at one output index, `rose/model/global_system.py:546-590`,
`rose/model/geometry.py:196-207`. Simplification: every element belongs to one part with elements, so that the first
`ElementModelPart` of `element.model_parts` (lines 559-563) is this part. -/
noncomputable def AssemblyPart.elementForces (p : AssemblyPart K) (row : List (NodeRow K)) : List (Fin 3 → K) :=
  match p.forceData with
  | some f => p.elements.map fun e => elementForce f (stackedDisplacements row e.1)
  | none => []

/-- `main` with `finalise`, `rose/model/global_system.py:592-605, 657-675`: states, results of the nodes and forces of the
elements by output index and model part. -/
noncomputable def SystemRun.mainForces (c : SystemRun K) (flags : ℕ → Fin 3 → Bool) (times : ℕ)
    (solver : TrimState K → (List ℕ → ℕ → ℕ → K) → SolverOutput K) :
    Except Err (TrimState K × List (List (NodeRow K)) × List (List (List (Fin 3 → K)))) := do
  let (st, rows) ← c.main flags times solver
  .ok (st, rows, rows.map fun row => c.input.parts.map fun p => p.elementForces row)

/-- `vertical_force_rail`, `run_rose/demo.py:198-199`: the second column of the forces of the elements of the first model
part, at one output index. -/
def demoRailForces (forces : List (List (Fin 3 → K))) : List K := (forces.getD 0 []).map fun f => f 1

/-- `vertical_force_rail_pad`, `run_rose/demo.py:204-205`: the second column of the forces of the elements of the second
model part, at one output index. -/
def demoPadForces (forces : List (List (Fin 3 → K))) : List K := (forces.getD 1 []).map fun f => f 1

/-- `vertical_force_soil`, `run_rose/demo.py:213-224, 236-237`: the first column of the forces of the elements of the parts
of class `Soil`, at one output index. Simplification: one segment, whose soil is the fourth part. -/
def demoSoilForces (forces : List (List (Fin 3 → K))) : List K := (forces.getD 3 []).map fun f => f 0

/-- The soil matrices of the result file and the list `idx_matrix` (before `set`). -/
structure SoilMatrices (K : Type*) where
  stiff : ℕ → ℕ → K
  damp : ℕ → ℕ → K
  idx : List ℕ

/-- One pass of the loop that collects the soil matrices, `run_rose/demo.py:250-257`: `eqn` gives `index_dof` of the nodes,
`v` are the attributes of the soil part, `e` is the element. Assumption about the external `lil_matrix`: an index `None` is
an error; the sum with a damping `None` is a `TypeError`. -/
def collectSoil (eqn : ℕ → Fin 3 → Option ℕ) (v : RodValues K) (s : SoilMatrices K) (e : ℕ × ℕ) :
    Except Err (SoilMatrices K) :=
  match eqn e.1 1, v.damping with
  | none, _ => .error .indexError
  | some _, none => .error .typeError
  | some x, some c => .ok {
      stiff := fun i j => if i = x ∧ j = x then s.stiff x x + v.stiffness else s.stiff i j
      damp := fun i j => if i = x ∧ j = x then s.damp x x + c else s.damp i j
      idx := s.idx ++ [x] }

/-- The soil matrices of the result file, `run_rose/demo.py:245-257`, for one soil part. -/
def collectSoilMatrices (eqn : ℕ → Fin 3 → Option ℕ) (v : RodValues K) (es : List (ℕ × ℕ)) : Except Err (SoilMatrices K) :=
  es.foldlM (collectSoil eqn v) ⟨fun _ _ => 0, fun _ _ => 0, []⟩

end
end Rose
