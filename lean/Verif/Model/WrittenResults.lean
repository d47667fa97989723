/-
Model of what the scripts write about the track: `write_results` of `run_rose/demo.py` (180-292), `run_rose/demo_rf.py` (184-294),
`run_rose/demo_semi_rigid.py` (192-320), `run_rose/demo_semi_rigid_rf.py` (191-318) and `run_rose/batch_calculation.py` (200-266), for
tracks of any number of segments. The entries about the train are in `Model/Results`, times and velocities in `Model/OutputInterval`.
-/
import Verif.Model.ElementForces
import Verif.Model.HingedCombined
import Verif.Model.BatchBase

set_option linter.unusedSectionVars false

namespace Rose

/-- The classes of the model parts of a track in the scripts, `run_rose/demo.py:107-149`. -/
inductive PartClass
  | rail | railPad | sleeper | constraint | soil
deriving DecidableEq

section
variable {K : Type*} [Field K] [LinearOrder K] [IsStrictOrderedRing K]

/-- A model part as `write_results` sees it: its class, its nodes (by number), and what its elements need for their forces
(nothing for a constraint). -/
structure ScriptPart (K : Type*) where
  cls : PartClass
  nodes : List ℕ
  part : Option (AssemblyPart K)

/-- A part with a stiffness matrix, `run_rose/demo.py:147-149`. -/
def ScriptPart.ofPart (cls : PartClass) (p : AssemblyPart K) : ScriptPart K := ⟨cls, p.nodes, some p⟩

/-- A boundary, `run_rose/demo.py:138-139, 147-149`. -/
def ScriptPart.ofConstraint (c : ConstraintPart) : ScriptPart K := ⟨.constraint, c.nodes, none⟩

/-- `model_parts` of the scripts, `run_rose/demo.py:147-149` with one rail part, `run_rose/demo_semi_rigid.py:158-160` with four: rail parts,
rail pads, sleepers, side boundaries, soils, bottom boundaries. -/
def scriptParts (rails : ℕ) (inp : SystemInput K) : List (ScriptPart K) :=
  (inp.parts.take rails).map (.ofPart .rail) ++ ((inp.parts.drop rails).take 1).map (.ofPart .railPad) ++
    ((inp.parts.drop (rails + 1)).take 1).map (.ofPart .sleeper) ++ (inp.constraints.take 1).map .ofConstraint ++
    (inp.parts.drop (rails + 2)).map (.ofPart .soil) ++ (inp.constraints.drop 1).map .ofConstraint

/-- `model_parts[i]`, `run_rose/demo.py:196-208`. -/
def partAt (parts : List (ScriptPart K)) (i : ℕ) : Except Err (ScriptPart K) :=
  match parts[i]? with
  | some p => .ok p
  | none => .error .indexError

/-- `node.displacements[:, 1]`, `run_rose/demo.py:197`: the vertical displacements of the node `n` at all output indices. -/
def writtenHistory (rows : List (List (NodeRow K))) (n : ℕ) : List K :=
  rows.map fun row => ((row[n]?).map fun r => r.displacement 1).getD 0

/-- `[node.displacements[:, 1] for node in part.nodes]`, e.g. `run_rose/demo.py:196-197`. -/
def ScriptPart.displacements (rows : List (List (NodeRow K))) (p : ScriptPart K) : List (List K) := p.nodes.map (writtenHistory rows)

/-- `[element.force[:, col] for element in part.elements]`, e.g. `run_rose/demo.py:198-199, 236-237`. -/
noncomputable def ScriptPart.forces (rows : List (List (NodeRow K))) (col : Fin 3) (p : ScriptPart K) : List (List K) :=
  match p.part with
  | some a => (List.range a.elements.length).map fun e => rows.map fun row => (a.elementForces row).getD e 0 col
  | none => []

/-- `len(part.elements)`, `run_rose/demo.py:233`. -/
def ScriptPart.count (p : ScriptPart K) : ℕ := ((p.part).map fun a => a.elements.length).getD 0

/-- The entries of the result file about the track, `run_rose/demo.py:259-286`. -/
structure WrittenTrack (K : Type*) where
  railDisplacements : List (List K)
  railForces : List (List K)
  railCoords : List K
  padDisplacements : List (List K)
  padForces : List (List K)
  padCoords : List K
  sleeperDisplacements : List (List K)
  soilDisplacements : List (List K)
  soilForces : List (List K)
  soilCoords : List K
  soilId : List ℕ

/-- `soil_id`, `run_rose/demo.py:228-234`: the soils are numbered, each gives its number once per element. -/
def soilIds : ℕ → List (ScriptPart K) → List ℕ
  | _, [] => []
  | i, p :: ps => if p.cls = .soil then List.replicate p.count i ++ soilIds (i + 1) ps else soilIds i ps

/-- `rail_nodes` of the scripts with a hinge, `run_rose/demo_semi_rigid.py:216-220`: a node is left out if the list contains it or a node that
equals it (`Node.__eq__`, `rose/model/geometry.py:87-103`: all coordinates within `1e-9`). Simplification: the merging of degrees of freedom
of equal nodes (lines 105-117), which has no effect on a node and itself. -/
def uniqueNodes (pos : ℕ → Fin 3 → K) (ns : List ℕ) : List ℕ :=
  ns.foldl (fun acc n => if acc.any (fun m => decide (n = m) ||
    ((List.finRange 3).all fun i => decide (|pos n i - pos m i| ≤ 1 / 1000000000))) then acc else acc ++ [n]) []

/-- The soil entries, `run_rose/demo.py:213-238`: all parts of the class `Soil`. -/
def soilParts (parts : List (ScriptPart K)) : List (ScriptPart K) := parts.filter fun p => p.cls = .soil

/-- `write_results` of the demo scripts, `run_rose/demo.py:195-238` (`run_rose/demo_rf.py:199-242`): `pos` are the coordinates of the nodes,
`rows` the results of the nodes by output index. -/
noncomputable def writeDemo (pos : ℕ → Fin 3 → K) (parts : List (ScriptPart K)) (rows : List (List (NodeRow K))) :
    Except Err (WrittenTrack K) := do
  let rail ← partAt parts 0
  let pad ← partAt parts 1
  let sleeper ← partAt parts 2
  .ok {
    railDisplacements := rail.displacements rows
    railForces := rail.forces rows 1
    railCoords := rail.nodes.map fun n => pos n 0
    padDisplacements := pad.displacements rows
    padForces := pad.forces rows 1
    padCoords := pad.nodes.map fun n => pos n 0
    sleeperDisplacements := sleeper.displacements rows
    soilDisplacements := (soilParts parts).flatMap (ScriptPart.displacements rows)
    soilForces := (soilParts parts).flatMap (ScriptPart.forces rows 0)
    soilCoords := (soilParts parts).flatMap fun p => p.nodes.map fun n => pos n 0
    soilId := soilIds 0 parts }

/-- `write_results` of the scripts with a hinge, `run_rose/demo_semi_rigid.py:207-275` (`run_rose/demo_semi_rigid_rf.py:206-273`): the first four
parts are the rail; rail pads and sleepers are the parts 4 and 5. -/
noncomputable def writeSemiRigid (pos : ℕ → Fin 3 → K) (parts : List (ScriptPart K)) (rows : List (List (NodeRow K))) :
    Except Err (WrittenTrack K) := do
  let rails ← (List.range 4).mapM (partAt parts)
  let railNodes := uniqueNodes pos (rails.flatMap ScriptPart.nodes)
  let pad ← partAt parts 4
  let sleeper ← partAt parts 5
  .ok {
    railDisplacements := railNodes.map (writtenHistory rows)
    railForces := rails.flatMap (ScriptPart.forces rows 1)
    railCoords := railNodes.map fun n => pos n 0
    padDisplacements := pad.displacements rows
    padForces := pad.forces rows 1
    padCoords := pad.nodes.map fun n => pos n 0
    sleeperDisplacements := sleeper.displacements rows
    soilDisplacements := (soilParts parts).flatMap (ScriptPart.displacements rows)
    soilForces := (soilParts parts).flatMap (ScriptPart.forces rows 0)
    soilCoords := (soilParts parts).flatMap fun p => p.nodes.map fun n => pos n 0
    soilId := soilIds 0 parts }

/-- The soil matrices of the result file, `run_rose/demo.py:245-257`, `run_rose/demo_semi_rigid.py:277-292`, for all soil parts: `soils` are
the values and the elements of the parts. Simplification as in `collectSoil`. -/
def collectAllSoil (eqn : ℕ → Fin 3 → Option ℕ) (soils : List (RodValues K × List (ℕ × ℕ))) : Except Err (SoilMatrices K) :=
  soils.foldlM (fun s p => p.2.foldlM (collectSoil eqn p.1) s) ⟨fun _ _ => 0, fun _ _ => 0, []⟩

end

/-- `write_results` of the batch, `run_rose/batch_calculation.py:229-233, 259-263`, the entries that `get_batch_dynamic_stiffnesses` reads: the
soil is the part 4; every `interval`-th output index is kept. -/
noncomputable def writeBatch (parts : List (ScriptPart ℝ)) (interval : ℕ) (name : Name) (rows : List (List (NodeRow ℝ))) :
    Except Err (DynamicFile ℝ) := do
  let soil ← partAt parts 4
  let displacements ← (soil.displacements rows).mapM (sampled interval)
  let forces ← (soil.forces rows 0).mapM (sampled interval)
  .ok ⟨resultFileName name, name, displacements, forces⟩

end Rose
