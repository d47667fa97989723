/-
Model of the whole path from the generation of a track to the system of the track: the parts of
`create_horizontal_track`, the properties that a script sets on them, the boundary conditions of the demo scripts and the
matrices that `initialize` gives to the parts (`rose/pre_process/mesh_utils.py`, `rose/model/model_part.py`,
`rose/model/track.py`, `rose/model/soil.py`, `run_rose/demo.py`).
-/
import Verif.Model.GlobalSystem
import Verif.Model.TrackParts
import Verif.Model.Rotation

set_option linter.unusedSectionVars false

namespace Rose

section
variable {K : Type*} [Field K] [LinearOrder K] [IsStrictOrderedRing K]

/-- The entries of a local matrix by row and column number, zero outside. -/
def matrixEntries {m : ℕ} (a : Matrix (Fin m) (Fin m) K) (p : ℕ × ℕ) : K :=
  if h : p.1 < m ∧ p.2 < m then a ⟨p.1, h.1⟩ ⟨p.2, h.2⟩ else 0

/-- Attributes of a `RodElementModelPart` that enter its matrices, `rose/model/model_part.py:369-374`; the stiffness is
set (`validate_input` only logs an error without it). -/
structure RodValues (K : Type*) where
  stiffness : K
  mass : Option K
  damping : Option K

/-- A rod part (rail pads, soil) after `initialize`, `rose/model/model_part.py:376-382, 421-458`: only the x dof is active. -/
def rodAssembly (v : RodValues K) (elements : List ((ℕ × ℕ) × (K × K))) (nodes : List ℕ) : AssemblyPart K :=
  { elements := elements, nodes := nodes, act := ![true, false, false]
    stiffness := some (matrixEntries (rodStiffness v.stiffness))
    mass := v.mass.map fun m => matrixEntries (rodMass m)
    damping := v.damping.map fun c => matrixEntries (rodDamping c) }

/-- A beam part (rail) after `initialize`, `rose/model/model_part.py:513-535, 772-777`: all dofs are active; its damping
matrix is zero. -/
def beamAssembly (b : BeamPart K) (elements : List ((ℕ × ℕ) × (K × K))) (nodes : List ℕ) : AssemblyPart K :=
  { elements := elements, nodes := nodes, act := ![true, true, true]
    stiffness := some (matrixEntries b.stiffness)
    mass := some (matrixEntries b.massMatrix)
    damping := some (matrixEntries (0 : Matrix (Fin 6) (Fin 6) K)) }

/-- A sleeper part after `initialize`, `rose/model/track.py:87-120`: a mass in y at each node. -/
def sleeperAssembly (mass : K) (nodes : List ℕ) : AssemblyPart K :=
  { elements := [], nodes := nodes, act := ![false, true, false]
    stiffness := some (matrixEntries (pointStiffness : Matrix (Fin 1) (Fin 1) K))
    mass := some (matrixEntries (pointMass mass))
    damping := some (matrixEntries (pointStiffness : Matrix (Fin 1) (Fin 1) K)) }

/-- The position of a node object in `mesh.nodes`. -/
def HorizontalTrack.position (t : HorizontalTrack K) (k : ℕ) : ℕ := t.meshNodes.idxOf k

end

/-- The elements of a part with their positions in the mesh and their direction cosines, `rose/model/utils.py:276-297`. -/
noncomputable def HorizontalTrack.placed (t : HorizontalTrack ℝ) (elements : List (ℕ × ℕ)) : List ((ℕ × ℕ) × (ℝ × ℝ)) :=
  elements.map fun e =>
    let p := (t.store e.1).pos
    let q := (t.store e.2).pos
    let rot := calculateRotation (p 0) (p 1) (q 0) (q 1)
    ((t.position e.1, t.position e.2), (Real.cos rot, Real.sin rot))

/-- What a script sets on the parts of a generated track, `run_rose/demo.py:107-129`, and the loads and Rayleigh damping of
the track. The element length of the rail is computed, the field `rail.l` is not used. -/
structure TrackValues where
  rail : BeamPart ℝ
  pad : RodValues ℝ
  soil : RodValues ℝ
  sleeperMass : ℝ
  loads : List (NodalLoad ℝ)
  isRayleigh : Bool
  ratio : ℝ
  w1 : ℝ
  w2 : ℝ

/-- The system of a generated track, `run_rose/demo.py:79-149`: rail (its length from `calculate_length_rail`), pads, sleepers
and soil; a side boundary that holds the first and the last rail node in x if `held` (lines 137-139); the bottom of the
soil fixed by `add_no_displacement_boundary_to_bottom` (lines 95-97). For a rail without nodes `rail_model_part.nodes[0]`
raises. Simplification: one segment, without a train. -/
noncomputable def HorizontalTrack.system (t : HorizontalTrack ℝ) (v : TrackValues) (held : Bool) :
    Except Err (SystemInput ℝ) := do
  let length ← calculateLengthRail t.railPositions (some t.lengthElement)
  let bottom ← bottomBoundary (fun k => (t.store k).pos 1) (t.soil.map fun e => [e.1, e.2])
  let sides ← match t.rail.head?, t.rail.getLast? with
    | some a, some b => .ok [a, b]
    | _, _ => .error .indexError
  .ok {
    n := t.meshNodes.length
    parts := [
      beamAssembly { v.rail with l := length.getD t.lengthElement } (t.placed t.railElements) (t.rail.map t.position),
      rodAssembly v.pad (t.placed t.pads) (t.padNodes.map t.position),
      sleeperAssembly v.sleeperMass (t.sleepers.map t.position),
      rodAssembly v.soil (t.placed t.soil) (t.soilNodes.map t.position)]
    loads := v.loads
    constraints := (if held then [⟨sides.map t.position, ![false, true, true]⟩] else []) ++
      [⟨bottom.map t.position, ![false, false, false]⟩]
    isRayleigh := v.isRayleigh, ratio := v.ratio, w1 := v.w1, w2 := v.w2 }

end Rose
