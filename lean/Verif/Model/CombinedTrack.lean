/-
Model of the whole path from the generation of several track segments to the system of the combined track
(`rose/pre_process/mesh_utils.py:292-367`, `run_rose/demo.py:79-149`) and of a train on it.
-/
import Verif.Model.TrainOnTrack

set_option linter.unusedSectionVars false

namespace Rose

section generic
variable {K : Type*} [Field K] [LinearOrder K] [IsStrictOrderedRing K] {H : Type*} [DecidableEq H]
variable {ι : Type*} [DecidableEq ι]

/-- What `combine_horizontal_tracks` returns, `rose/pre_process/mesh_utils.py:367`: the node objects, the nodes of the global
mesh, the combined rail, sleeper and pad parts, and elements and nodes of the soil part of each segment. The elements of
the global mesh are left out: the system reads those of the parts. -/
structure CombinedTrack (ι K : Type*) where
  store : ι → NodeObj K
  meshNodes : List ι
  rail : List ι
  railElements : List (ι × ι)
  sleepers : List ι
  padNodes : List ι
  pads : List (ι × ι)
  soils : List (List (ι × ι) × List ι)

/-- `for node in mesh.nodes: node.coordinates[0] += dx`, `rose/pre_process/mesh_utils.py:316-317`, on node objects. -/
def shiftNodes (store : ι → NodeObj K) (mesh : List ι) (dx : K) : ι → NodeObj K :=
  fun k => { store k with pos := shiftMesh (fun k => (store k).pos) mesh dx k }

/-- The loop over the meshes of `combine_horizontal_tracks`, `rose/pre_process/mesh_utils.py:309-321`, after its first round:
each mesh is moved behind the one before and its nodes are added to the global mesh; `max` of an empty mesh raises. -/
def mergeMeshes (hash : (Fin 3 → K) → H) (d : K) :
    (ι → NodeObj K) × List ι → List (List ι) → Except Err ((ι → NodeObj K) × List ι)
  | st, a :: b :: rest =>
    match a with
    | [] => .error .valueError
    | m :: ms =>
      mergeMeshes hash d
        (addUniqueNodes hash
          (shiftNodes st.1 b (listMax ((st.1 m).pos 0) (ms.map fun n => (st.1 n).pos 0) + d), st.2) b) (b :: rest)
  | st, _ => .ok st

/-- `combine_horizontal_tracks`, `rose/pre_process/mesh_utils.py:292-367`: the loop over the meshes, the loop over the tracks
(`joinTracks`; the nodes created at the joints are appended by `fast_add_nodes_to_mesh`, line 335, `rose/model/geometry.py:253-260`),
`reorder_node_ids` (line 364). No tracks: `tracks[-1]` raises. -/
def combineHorizontalTracks (hash : (Fin 3 → K) → H) (r : ℕ) (d : K) (fresh : ℕ → ℕ → ι) (store : ι → NodeObj K) :
    List (TrackSeg ι) → Except Err (CombinedTrack ι K)
  | [] => .error .indexError
  | t :: ts => do
    let merged ← mergeMeshes hash d (addUniqueNodes hash (store, []) t.mesh) ((t :: ts).map TrackSeg.mesh)
    let joined ← joinTracks r fresh 0 (fun k => (merged.1 k).pos) t ts
    let new := (List.range ts.length).flatMap fun k => (List.range (r - 1)).map (fresh k)
    let mesh := merged.2 ++ new
    let store := reorderIds (fun (a : NodeObj K) i => { a with index := some i }) 0
      (fun k => { merged.1 k with pos := joined.1 k }) mesh
    .ok {
      store := store, meshNodes := mesh
      rail := joined.2.rail, railElements := joined.2.railElements, sleepers := joined.2.sleepers
      padNodes := joined.2.padNodes, pads := joined.2.pads
      soils := (t :: ts).map fun s => (s.soil, s.soilNodes) }

/-- The node objects of generated tracks; those of the joints are not placed yet (`rose/pre_process/mesh_utils.py:334`). -/
def trackObjects (ts : List (HorizontalTrack K)) : TrackNode → NodeObj K
  | .orig k i => match ts[k]? with
    | some t => t.store i
    | none => newNode 0 0 0
  | .joint _ _ => newNode 0 0 0

/-- Generation and combination of the segments of a geometry, `run_rose/demo.py:79-93`: `segments` are the numbers of sleepers
and soil depths, `d` and `r` the sleeper distance and the number of rail elements per sleeper of all of them. -/
def combinedTrack (hash : (Fin 3 → K) → H) (r : ℕ) (d : K) (segments : List (ℕ × K)) :
    Except Err (CombinedTrack TrackNode K) := do
  let ts ← segments.mapM fun s => createHorizontalTrack hash s.1 r d s.2
  combineHorizontalTracks hash r d .joint (trackObjects ts) (ts.zipIdx.map fun p => ofTrack p.2 p.1)

/-- The number of a node after `reorder_node_ids`: its position in the global mesh, `rose/model/geometry.py:223-231`. -/
def CombinedTrack.place (c : CombinedTrack ι K) (k : ι) : ℕ := c.meshNodes.idxOf k

/-- The pairs of node numbers of a list of elements (`element.nodes[i].index`, `rose/model/geometry.py:223-231`). -/
def CombinedTrack.placeAll (c : CombinedTrack ι K) (es : List (ι × ι)) : List (ℕ × ℕ) := es.map fun e => (c.place e.1, c.place e.2)

/-- The combined track with nodes identified by their numbers in the global mesh; `length` is the `length_element` of the
last rail part, `rose/pre_process/mesh_utils.py:359`. The soil parts of all segments are joined. -/
def CombinedTrack.numbered (c : CombinedTrack ι K) (length : K) : HorizontalTrack K where
  store := fun i => match c.meshNodes[i]? with
    | some k => c.store k
    | none => newNode 0 0 0
  meshNodes := List.range c.meshNodes.length
  meshElements := c.placeAll (c.railElements ++ c.pads ++ c.soils.flatMap Prod.fst)
  rail := c.rail.map c.place
  railElements := c.placeAll c.railElements
  padNodes := c.padNodes.map c.place
  pads := c.placeAll c.pads
  sleepers := c.sleepers.map c.place
  soilNodes := (c.soils.flatMap Prod.snd).map c.place
  soil := c.placeAll (c.soils.flatMap Prod.fst)
  lengthElement := length

end generic

section system
variable {ι : Type*} [DecidableEq ι]

/-- The system of a combined track, `run_rose/demo.py:79-149`: as `HorizontalTrack.system`, with a soil part and a bottom
boundary for each segment. `soils` are the values of the soil parts; a segment without values raises (lines 127-129). The
field `v.soil` is not used. -/
noncomputable def CombinedTrack.system (c : CombinedTrack ι ℝ) (length : ℝ) (v : TrackValues) (soils : List (RodValues ℝ))
    (held : Bool) : Except Err (SystemInput ℝ) := do
  let t := c.numbered length
  let bottoms ← c.soils.mapM fun s => bottomBoundary (fun k => (t.store k).pos 1) ((c.placeAll s.1).map fun e => [e.1, e.2])
  if soils.length < c.soils.length then .error .indexError else
  let sides ← match t.rail.head?, t.rail.getLast? with
    | some a, some b => .ok [a, b]
    | _, _ => .error .indexError
  let length ← calculateLengthRail t.railPositions (some t.lengthElement)
  .ok {
    n := t.meshNodes.length
    parts := [
      beamAssembly { v.rail with l := length.getD t.lengthElement } (t.placed t.railElements) (t.rail.map t.position),
      rodAssembly v.pad (t.placed t.pads) (t.padNodes.map t.position),
      sleeperAssembly v.sleeperMass (t.sleepers.map t.position)] ++
      (soils.zip c.soils).map fun s =>
        rodAssembly s.1 (t.placed (c.placeAll s.2.1)) ((s.2.2.map c.place).map t.position)
    loads := v.loads
    constraints := (if held then [⟨sides.map t.position, ![false, true, true]⟩] else []) ++
      bottoms.map fun b => ⟨b.map t.position, ![false, false, false]⟩
    isRayleigh := v.isRayleigh, ratio := v.ratio, w1 := v.w1, w2 := v.w2 }

/-- The coupled calculation of a train on a combined track, `run_rose/demo.py:79-185`: the values of the ride `q` (its track
is replaced by the combined one). -/
noncomputable def TrackRide.coupledOnCombined (q : TrackRide) (c : CombinedTrack ι ℝ) (length : ℝ) (soils : List (RodValues ℝ)) :
    Except Err (CoupledRun ℝ) := do
  let system ← c.system length q.values soils q.held
  { q with track := c.numbered length }.coupledOn system

/-- `main` of the coupled model of a ride on a combined track, `rose/model/train_track_interaction.py:588-613`. -/
noncomputable def TrackRide.mainOnCombined {H : Type*} [DecidableEq H] (hash : (Fin 3 → ℝ) → H) (q : TrackRide)
    (c : CombinedTrack ι ℝ) (length : ℝ) (soils : List (RodValues ℝ)) (times : ℕ)
    (solver : TrimState ℝ → (List (ℕ × List (ℕ → ℝ)) → List (ℕ → ℝ) → ℕ → (ℕ → ℝ) → ℕ → ℝ) → SolverOutput ℝ) :
    Except Err (CoupledResult ℝ) := do
  let run ← q.coupledOnCombined c length soils
  run.main hash (fun _ _ => true) times solver

end system

end Rose
