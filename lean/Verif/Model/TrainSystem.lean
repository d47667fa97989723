/-
Model of the global system of a train: the mesh with its node objects, the mass matrix, the force vector, trimming and
the contact degrees of freedom (`rose/model/train_model.py`).
-/
import Verif.Model.Train
import Verif.Model.Geometry

set_option linter.unusedSectionVars false

namespace Rose

/-! ### Parts and their nodes -/

/-- The parts of a train, one node each: cart number `i`, bogie object `b`, wheel `j` of bogie `b`
(`rose/model/train_model.py:69, 173, 395`). -/
inductive TrainPart where
  | cart (i : ℕ)
  | bogie (b : ℕ)
  | wheel (b j : ℕ)
  deriving DecidableEq

section mesh
variable {K : Type*}

/-- A bogie and its wheels in the order of `Bogie.set_mesh` and `Bogie.reset_mesh`,
`rose/model/train_model.py:162-193`. -/
def Train.bogieVisit (t : Train K) (b : ℕ) : List TrainPart :=
  TrainPart.bogie b :: (List.range (t.bogie b).wheels.length).map fun j => TrainPart.wheel b j

/-- Cart number `i` with its bogies in the order of `Cart.set_mesh` and `Cart.reset_mesh`,
`rose/model/train_model.py:385-417`. -/
def Train.cartVisit (t : Train K) (i : ℕ) (c : Cart K) : List TrainPart :=
  TrainPart.cart i :: c.bogies.flatMap fun b => t.bogieVisit b.1

/-- All parts in the order in which `set_mesh` and `reset_mesh` visit them, a shared bogie once per cart,
`rose/model/train_model.py:621-632, 859-873`. -/
def Train.visits (t : Train K) : List TrainPart :=
  (List.range t.carts.length).flatMap fun i => (t.carts[i]?.toList).flatMap fun c => t.cartVisit i c

variable [Field K] [LinearOrder K] [IsStrictOrderedRing K]

/-- The first entry of `distances` of every part after `calculate_distances`, `rose/model/train_model.py:816-841`: the
assignments in order, so that the last cart decides on a shared bogie. `x0 i` is `cart_distances[i]`. -/
def Train.startWrites (t : Train K) (x0 : ℕ → K) : List (TrainPart × K) :=
  (List.range t.carts.length).flatMap fun i => (t.carts[i]?.toList).flatMap fun c =>
    (TrainPart.cart i, x0 i) :: c.bogies.flatMap fun b =>
      (TrainPart.bogie b.1, x0 i + b.2) ::
        (List.range (t.bogie b.1).wheels.length).map fun j =>
          (TrainPart.wheel b.1 j, x0 i + b.2 + ((t.bogie b.1).wheels.getD j (0, 0)).2)

/-- Start coordinate of a part along the track, `rose/model/train_model.py:816-841`. -/
def Train.startX (t : Train K) (x0 : ℕ → K) : TrainPart → K := writes (fun _ => 0) (t.startWrites x0)

/-- Coordinates given to the node of a part: wheels at height 0, bogies at 1, carts at 2
(`rose/model/train_model.py:59-70, 162-176, 385-398`). -/
def partPosition (x : TrainPart → K) (p : TrainPart) : Fin 3 → K :=
  ![x p, match p with | .wheel _ _ => 0 | .bogie _ => 1 | .cart _ => 2, 0]

/-- `Node(x, y, z)`, `rose/model/geometry.py:24-37`. -/
def freshNode (p : Fin 3 → K) : NodeObj K := ⟨p, none, fun _ => none, fun _ => true, []⟩

/-- The objects involved in meshing a train: the node store, the next free identifier, the mesh, and `part.nodes[0]`
of every part (`rose/model/train_model.py:621-632`). -/
structure TrainMesh (K : Type*) where
  store : ℕ → NodeObj K
  fresh : ℕ
  mesh : List ℕ
  node : TrainPart → ℕ

/-- `Wheel.set_mesh`, `rose/model/train_model.py:59-70`, and the first lines of `Bogie.set_mesh` and `Cart.set_mesh`,
lines 171-176 and 394-398: a new node object for the part is added to the mesh. -/
def setMeshPart {H : Type*} [DecidableEq H] (hash : (Fin 3 → K) → H) (pos : TrainPart → Fin 3 → K) (m : TrainMesh K)
    (p : TrainPart) : TrainMesh K :=
  let r := addUniqueNodes hash (Function.update m.store m.fresh (freshNode (pos p)), m.mesh) [m.fresh]
  ⟨r.1, m.fresh + 1, r.2, Function.update m.node p m.fresh⟩

/-- `TrainModel.set_mesh`, `rose/model/train_model.py:621-632`, on a new train: the mesh is empty. -/
def Train.setMesh {H : Type*} [DecidableEq H] (hash : (Fin 3 → K) → H) (t : Train K) (x0 : ℕ → K) : TrainMesh K :=
  t.visits.foldl (setMeshPart hash (partPosition (t.startX x0)))
    ⟨fun _ => freshNode fun _ => 0, 0, [], fun _ => 0⟩

/-- `index_dof` of the node of a part, `rose/model/train_model.py:82-94, 195-222, 419-444`: no index in x direction,
no rotation for wheels. -/
def partIdx (s : Numbering) : TrainPart → Fin 3 → Option ℕ
  | .cart i => ![none, s.idx (.cartY i), s.idx (.cartRot i)]
  | .bogie b => ![none, s.idx (.bogieY b), s.idx (.bogieRot b)]
  | .wheel b j => ![none, s.idx (.wheelY b j), none]

/-- The effect of `initialise_ndof` on the node objects, `rose/model/train_model.py:672-683`: `index_dof` of the node of
every part is assigned. -/
def Train.numberNodes (t : Train K) (m : TrainMesh K) : TrainMesh K :=
  let write := fun (s : ℕ → NodeObj K) (p : TrainPart) =>
    Function.update s (m.node p) { (s (m.node p)) with idx := partIdx t.numbering p }
  { m with store := t.visits.foldl write m.store }

/-- `TrainModel.reset_mesh`, `rose/model/train_model.py:859-873`: a new mesh is filled with the existing nodes of the
parts, one call of `add_unique_nodes_to_mesh` per visited part. -/
def Train.resetMesh {H : Type*} [DecidableEq H] (hash : (Fin 3 → K) → H) (t : Train K) (m : TrainMesh K) : TrainMesh K :=
  let r := (t.visits.map fun p => [m.node p]).foldl (addUniqueNodes hash) (m.store, [])
  { m with store := r.1, mesh := r.2 }

/-- The mesh after the geometry and numbering steps of `TrainModel.initialise`,
`rose/model/train_model.py:898-917`. -/
def Train.initialMesh {H : Type*} [DecidableEq H] (hash : (Fin 3 → K) → H) (t : Train K) (x0 : ℕ → K) : TrainMesh K :=
  t.resetMesh hash (t.numberNodes (t.setMesh hash x0))

end mesh

/-! ### Mass matrix and force vector -/

section system
variable {K : Type*} [Field K]

/-- The assignments of `fill_mass_matrix` in order, `rose/model/train_model.py:37-45` (wheels), `224-241` (bogies),
`446-463` (carts). -/
def Train.massDiagonal (t : Train K) : List (TrainDof × K) :=
  (List.range t.carts.length).flatMap fun i => (t.carts[i]?.toList).flatMap fun c =>
    (TrainDof.cartY i, c.mass) :: (TrainDof.cartRot i, c.inertia) :: c.bogies.flatMap fun b =>
      (TrainDof.bogieY b.1, (t.bogie b.1).mass) :: (TrainDof.bogieRot b.1, (t.bogie b.1).inertia) ::
        (List.range (t.bogie b.1).wheels.length).map fun j =>
          (TrainDof.wheelY b.1 j, ((t.bogie b.1).wheels.getD j (0, 0)).1)

/-- `set_global_mass_matrix`, `rose/model/train_model.py:687-699`. -/
def Train.massMatrix (t : Train K) : ℕ → ℕ → K := fun a b =>
  writes (fun _ : ℕ × ℕ => (0 : K)) (t.massDiagonal.map fun w => ((t.dof w.1, t.dof w.1), w.2)) (a, b)

/-- `set_static_force_vector` and `initialize_force_vector`, `rose/model/train_model.py:735-745, 804-814`. -/
def Train.forceVector (t : Train K) (g : K) : ℕ → K :=
  writes (fun _ => 0) ((t.massWrites fun m => -m * g).map fun w => (t.dof w.1, w.2))

end system

/-! ### Trimming and contact -/

section trimTrain
variable {K : Type*} [Field K] [LinearOrder K] [IsStrictOrderedRing K]

/-- The global system of a train before trimming, `rose/model/train_model.py:843-857`, with the nodes of the mesh. -/
def Train.system (t : Train K) (g : K) (m : TrainMesh K) : TrimState K :=
  { nodes := m.mesh.map fun n => ⟨(m.store n).idx, (m.store n).act⟩
    N := t.totalNdof
    M := t.massMatrix
    C := t.damping
    Kg := t.stiffness
    F := t.forceVector g }

/-- `index_dof` of the node of a part after `trim_all_global_matrices`, `rose/model/global_system.py:219-253`: the nodes
of the mesh are updated, another node object keeps its indices. -/
def Train.trimmedIdx (t : Train K) (g : K) (m : TrainMesh K) (p : TrainPart) : Fin 3 → Option ℕ :=
  match (trimAll (t.system g m)).nodes[m.mesh.idxOf (m.node p)]? with
  | some n => n.idx
  | none => (m.store (m.node p)).idx

/-- `get_contact_dofs`, `rose/model/train_model.py:785-802`: the indices of the nodes of the wheels, in order of the
wheels; `idx p` is `index_dof` of the node of part `p`. -/
def Train.contactDofs (t : Train K) (idx : TrainPart → Fin 3 → Option ℕ) : List ℕ :=
  t.bogies.flatMap fun b => (List.range (t.bogie b).wheels.length).flatMap fun j =>
    [0, 1, 2].filterMap fun d : Fin 3 => idx (.wheel b j) d

end trimTrain
end Rose
