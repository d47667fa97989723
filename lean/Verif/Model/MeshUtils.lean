/-
Model of the mesh generation helpers: `rose/pre_process/mesh_utils.py`.
-/
import Verif.Model.Geometry
import Verif.Model.Coupled
import Mathlib.Data.List.Sort

set_option linter.unusedSectionVars false

namespace Rose

section generic
variable {K : Type*} [Field K] [LinearOrder K] [IsStrictOrderedRing K]

/-! ### Horizontal track -/

/-- `Node(x, y, z)`, `rose/model/geometry.py:24-37`. -/
def newNode (x y z : K) : NodeObj K :=
  { pos := ![x, y, z], index := none, idx := fun _ => none, act := fun _ => true, parts := [] }

/-- The node objects created by `create_horizontal_track`: the rail nodes are numbered first
(`rose/pre_process/mesh_utils.py:206`), then the nodes below the pads (line 215), then the nodes below the soil springs
(lines 237-241; the coordinates of the node above are substituted). -/
def trackStore (n r : ℕ) (d h : K) (k : ℕ) : NodeObj K :=
  if k < n * r then newNode ((k : K) * d / r) 0 0
  else if k < n * r + n then newNode (((k - n * r : ℕ) : K) * d) (-1) 0
  else newNode (((k - (n * r + n) : ℕ) : K) * d) (-1 - h) 0

/-- Result of `create_horizontal_track`: nodes are numbers in the store, elements are pairs of nodes; the position in
`meshElements` is the index of the element, `rose/pre_process/mesh_utils.py:187-289`. -/
structure HorizontalTrack (K : Type*) where
  store : ℕ → NodeObj K
  meshNodes : List ℕ
  meshElements : List (ℕ × ℕ)
  rail : List ℕ
  railElements : List (ℕ × ℕ)
  padNodes : List ℕ
  pads : List (ℕ × ℕ)
  sleepers : List ℕ
  soilNodes : List ℕ
  soil : List (ℕ × ℕ)
  lengthElement : K

/-- `create_horizontal_track`, `rose/pre_process/mesh_utils.py:187-289`. `nodes_track[0]` raises for `r = 0`. -/
def createHorizontalTrack {H : Type*} [DecidableEq H] (hash : (Fin 3 → K) → H) (n r : ℕ) (d h : K) :
    Except Err (HorizontalTrack K) :=
  if r = 0 ∧ n ≠ 0 then .error .indexError
  else
    let nodesTrack := List.range (n * r)
    let mesh := addUniqueNodes hash (trackStore n r d h, []) nodesTrack
    let elementsTrack := (List.range (n * r - 1)).map fun i => (nodesTrack.getD i 0, nodesTrack.getD (i + 1) 0)
    let pointsRailPad := (List.range n).flatMap fun i => [nodesTrack.getD (i * r) 0, n * r + i]
    let mesh := addUniqueNodes hash mesh pointsRailPad
    let elementsRailPad := (List.range n).map fun i => (pointsRailPad.getD (i * 2) 0, pointsRailPad.getD (i * 2 + 1) 0)
    let nodesSleeper := (List.range n).map fun i => pointsRailPad.getD (i * 2 + 1) 0
    let mesh := addUniqueNodes hash mesh nodesSleeper
    let pointsSoil := (List.range n).flatMap fun i => [pointsRailPad.getD (i * 2 + 1) 0, n * r + n + i]
    let mesh := addUniqueNodes hash mesh pointsSoil
    let elementsSoil := (List.range n).map fun i => (pointsSoil.getD (i * 2) 0, pointsSoil.getD (i * 2 + 1) 0)
    let bottom := (List.range n).map fun i => pointsSoil.getD (i * 2 + 1) 0
    let mesh := addUniqueNodes hash mesh bottom
    let store := reorderIds (fun (a : NodeObj K) i => { a with index := some i }) 0 mesh.1 mesh.2
    .ok { store := store, meshNodes := mesh.2, meshElements := elementsTrack ++ elementsRailPad ++ elementsSoil,
          rail := nodesTrack, railElements := elementsTrack, padNodes := pointsRailPad, pads := elementsRailPad,
          sleepers := nodesSleeper, soilNodes := pointsSoil, soil := elementsSoil, lengthElement := d }

/-! ### Combining tracks -/

/-- One track segment: its mesh nodes and the nodes and elements of its model parts (`soil` per segment),
`rose/pre_process/mesh_utils.py:292-379`. -/
structure TrackSeg (ι : Type*) where
  mesh : List ι
  rail : List ι
  railElements : List (ι × ι)
  sleepers : List ι
  padNodes : List ι
  pads : List (ι × ι)
  soilNodes : List ι
  soil : List (ι × ι)

section combine
variable {ι : Type*} [DecidableEq ι]

/-- `for node in mesh.nodes: node.coordinates[0] += dx`, `rose/pre_process/mesh_utils.py:316-317`. -/
def shiftMesh (pos : ι → Fin 3 → K) (mesh : List ι) (dx : K) : ι → Fin 3 → K :=
  mesh.foldl (fun p n => Function.update p n ![p n 0 + dx, p n 1, p n 2]) pos

/-- The loop over the meshes of `combine_horizontal_tracks`, `rose/pre_process/mesh_utils.py:309-321`, as far as the
coordinates go; `max` of an empty mesh raises. (The union of the meshes is modelled by `addUniqueNodes` and
`addUniqueElements`, see C01-C04.) -/
def moveMeshes (d : K) (pos : ι → Fin 3 → K) : List (List ι) → Except Err (ι → Fin 3 → K)
  | a :: b :: rest =>
    match a with
    | [] => .error .valueError
    | m :: ms => moveMeshes d (shiftMesh pos b (listMax (pos m 0) (ms.map fun n => pos n 0) + d)) (b :: rest)
  | _ => .ok pos

/-- The elements between two segments, `rose/pre_process/mesh_utils.py:333-343`: `a` and `b` are the end nodes, `new`
the nodes between. -/
def connectingElements (a b : ι) : List ι → List (ι × ι)
  | [] => [(a, b)]
  | n :: ns => (a, n) :: ((n :: ns).zip ns ++ [((n :: ns).getLast (List.cons_ne_nil _ _), b)])

/-- `np.linspace(start, end, r + 1)[1:-1]` written to the new nodes `fresh 0, ..., fresh (r - 2)`,
`rose/pre_process/mesh_utils.py:330-332`. -/
def placeBetween (r : ℕ) (fresh : ℕ → ι) (s e : Fin 3 → K) (pos : ι → Fin 3 → K) : ι → Fin 3 → K :=
  (List.range (r - 1)).foldl
    (fun p i => Function.update p (fresh i) fun c => s c + ((i + 1 : ℕ) : K) * ((e c - s c) / r)) pos

/-- The loop over the tracks of `combine_horizontal_tracks`, `rose/pre_process/mesh_utils.py:323-356`: `acc` is the
previous track, `fresh k i` the `i`-th node created at the `k`-th joint. -/
def joinTracks (r : ℕ) (fresh : ℕ → ℕ → ι) (k : ℕ) (pos : ι → Fin 3 → K) (acc : TrackSeg ι) :
    List (TrackSeg ι) → Except Err ((ι → Fin 3 → K) × TrackSeg ι)
  | [] => .ok (pos, acc)
  | t :: ts =>
    match acc.rail.getLast?, t.rail.head? with
    | some a, some b =>
      let new := (List.range (r - 1)).map (fresh k)
      joinTracks r fresh (k + 1) (placeBetween r (fresh k) (pos a) (pos b) pos)
        { mesh := t.mesh
          rail := acc.rail ++ new ++ t.rail
          railElements := acc.railElements ++ connectingElements a b new ++ t.railElements
          sleepers := acc.sleepers ++ t.sleepers
          padNodes := acc.padNodes ++ t.padNodes
          pads := acc.pads ++ t.pads
          soilNodes := t.soilNodes
          soil := t.soil } ts
    | _, _ => .error .indexError

/-- `combine_horizontal_tracks`, `rose/pre_process/mesh_utils.py:292-367`: coordinates and combined rail, sleeper and pad
parts. No tracks: `tracks[-1]` raises. -/
def combineTracks (r : ℕ) (d : K) (fresh : ℕ → ℕ → ι) (pos : ι → Fin 3 → K) :
    List (TrackSeg ι) → Except Err ((ι → Fin 3 → K) × TrackSeg ι)
  | [] => .error .indexError
  | t :: ts =>
    match moveMeshes d pos ((t :: ts).map TrackSeg.mesh) with
    | .error e => .error e
    | .ok pos => joinTracks r fresh 0 pos t ts

end combine

/-- Node objects of combined tracks: node `i` of segment `seg`, or the `i`-th node created at a joint,
`rose/pre_process/mesh_utils.py:332`. -/
inductive TrackNode where
  | orig (seg i : ℕ)
  | joint (k i : ℕ)
  deriving DecidableEq

/-- A generated track as segment number `k`, `rose/pre_process/mesh_utils.py:281-289`. -/
def ofTrack (k : ℕ) (t : HorizontalTrack K) : TrackSeg TrackNode where
  mesh := t.meshNodes.map (.orig k)
  rail := t.rail.map (.orig k)
  railElements := t.railElements.map fun e => (.orig k e.1, .orig k e.2)
  sleepers := t.sleepers.map (.orig k)
  padNodes := t.padNodes.map (.orig k)
  pads := t.pads.map fun e => (.orig k e.1, .orig k e.2)
  soilNodes := t.soilNodes.map (.orig k)
  soil := t.soil.map fun e => (.orig k e.1, .orig k e.2)

/-! ### Hinge -/

/-- `np.isclose(a, b)`: `|a - b| <= 1e-8 + 1e-5 * |b|`, `rose/pre_process/mesh_utils.py:102`. -/
def npIsClose (a b : K) : Prop := |a - b| ≤ 1 / 100000000 + 1 / 100000 * |b|

instance (a b : K) : Decidable (npIsClose a b) := by unfold npIsClose; infer_instance

/-- A rail model part after the split: nodes, elements, and the rotational spring stiffness at either end
(`none`: not set), `rose/pre_process/mesh_utils.py:108-160`. -/
structure RailPart (K : Type*) where
  nodes : List ℕ
  elements : List (ℕ × ℕ)
  spring1 : Option K
  spring2 : Option K

/-- State of the loop over the reversed elements: `removed_el_idx`, the remaining elements, the new parts,
`rose/pre_process/mesh_utils.py:115-150`. -/
structure HingeLoop (K : Type*) where
  removed : Option ℕ
  remaining : List (ℕ × ℕ)
  parts : List (RailPart K)

/-- Body of the loop, `rose/pre_process/mesh_utils.py:116-139`. Nodes are identified by number (rail nodes are farther
apart than the tolerance of `Node.__eq__`). -/
def hingeStep (hinge : ℕ) (stiff : K) (st : HingeLoop K) (idx : ℕ) (e : ℕ × ℕ) : HingeLoop K :=
  if e.1 = hinge ∨ e.2 = hinge then
    { removed := some idx
      remaining := st.remaining.erase e
      parts := st.parts ++ [{ nodes := [e.1, e.2], elements := [e]
                              spring1 := if e.1 = hinge then some (stiff / 2) else none
                              spring2 := if e.2 = hinge then some (stiff / 2) else none }] }
  else st

/-- The loop, `rose/pre_process/mesh_utils.py:116`, over `enumerate(reversed(elements))`; removing the current element of
a reversed iteration does not disturb it. -/
def hingeLoop (hinge : ℕ) (stiff : K) : HingeLoop K → ℕ → List (ℕ × ℕ) → HingeLoop K
  | st, _, [] => st
  | st, idx, e :: es => hingeLoop hinge stiff (hingeStep hinge stiff st idx e) (idx + 1) es

/-- `add_semi_rigid_hinge_at_x`, `rose/pre_process/mesh_utils.py:79-159`: `x` gives the x-coordinate of the nodes. The
assertions on the mesh (lines 93-96) are taken to hold. The last subtraction is in the natural numbers: it is never
negative for at most two elements at the hinge node. -/
def addHinge (x : ℕ → K) (stiff : K) (nodes : List ℕ) (elements : List (ℕ × ℕ)) (xh : K) :
    Except Err (List (RailPart K)) :=
  match nodes.findIdx? fun n => decide (npIsClose (x n) xh) with
  | none => .error .exception
  | some k =>
    let hinge := nodes.getD k 0
    let nodes := nodes.erase hinge
    let st := hingeLoop hinge stiff ⟨none, elements, []⟩ 0 elements.reverse
    match st.removed with
    | none => .error .typeError
    | some idx =>
      let elements := st.remaining
      let r := elements.length + 1 - idx
      if elements.length < r then .error .indexError
      else
        .ok ([⟨nodes.take k, elements.take r, none, none⟩] ++ st.parts.reverse ++
          [⟨nodes.drop k, elements.drop r, none, none⟩])

/-! ### Bottom boundary -/

/-- `sorted(element.nodes, key=lambda node: node.coordinates[1])[0]`, `rose/pre_process/mesh_utils.py:67-70`. -/
def lowestNode (y : ℕ → K) (nodes : List ℕ) : Except Err ℕ :=
  match nodes.insertionSort fun a b => y a ≤ y b with
  | [] => .error .indexError
  | n :: _ => .ok n

/-- `add_no_displacement_boundary_to_bottom`, `rose/pre_process/mesh_utils.py:56-76`: the nodes of the boundary. -/
def bottomBoundary (y : ℕ → K) : List (List ℕ) → Except Err (List ℕ)
  | [] => .ok []
  | e :: es =>
    match lowestNode y e with
    | .error err => .error err
    | .ok n =>
      match bottomBoundary y es with
      | .error err => .error err
      | .ok ns => .ok (n :: ns)

end generic

end Rose
