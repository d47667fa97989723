/-
Specification for whole systems: the work that the parts of a structure do in a virtual displacement field, written from
the local matrices of the parts and the geometry, without equation numbers, embedding or assembly.
-/
import Verif.Model.GlobalSystem

set_option linter.unusedSectionVars false

namespace Rose.Spec
open Finset

variable {K : Type*} [Field K] [LinearOrder K] [IsStrictOrderedRing K]

/-- A displacement field: the values (x displacement, y displacement, rotation) of every node of the mesh. -/
abbrev NodalField (K : Type*) := ℕ → Fin 3 → K

/-- Number of active dofs of a node. -/
def activeCount (act : Fin 3 → Bool) : ℕ := (univ.filter fun k => act k = true).card

/-- Number of active dofs before dof `k`. -/
def activeBefore (act : Fin 3 → Bool) (k : Fin 3) : ℕ := (univ.filter fun k' => k' < k ∧ act k' = true).card

/-- The work `wᵀ a z` of a local matrix `a` of an element with `m` nodes; `a` has one row per active dof of each node. -/
def localWork (m : ℕ) (act : Fin 3 → Bool) (a : ℕ × ℕ → K) (w z : Fin m → Fin 3 → K) : K :=
  ∑ i : Fin m, ∑ j : Fin m, ∑ k : Fin 3, ∑ l : Fin 3,
    if act k = true ∧ act l = true then
      w i k * a (i * activeCount act + activeBefore act k, j * activeCount act + activeBefore act l) * z j l
    else 0

/-- The values at the two nodes of an element in the axes of an element with direction `(c, s)`. -/
def inElementAxes (c s : K) (u : NodalField K) (e : ℕ × ℕ) : Fin 2 → Fin 3 → K := fun i =>
  let m := if i = 0 then e.1 else e.2
  ![c * u m 0 + s * u m 1, -s * u m 0 + c * u m 1, u m 2]

/-- The work of a part: over its elements, or over its nodes if it has no elements. -/
def partWork (p : AssemblyPart K) (a : ℕ × ℕ → K) (v u : NodalField K) : K :=
  if p.elements = [] then (p.nodes.map fun m => localWork 1 p.act a (fun _ => v m) (fun _ => u m)).sum
  else (p.elements.map fun e =>
    localWork 2 p.act a (inElementAxes e.2.1 e.2.2 v e.1) (inElementAxes e.2.1 e.2.2 u e.1)).sum

/-- The work of all parts that have the matrix in question. -/
def systemWork (matrix : AssemblyPart K → Option (ℕ × ℕ → K)) (parts : List (AssemblyPart K)) (v u : NodalField K) : K :=
  (parts.map fun p => match matrix p with | some a => partWork p a v u | none => 0).sum

/-- The work of the nodal forces of the load conditions. -/
def loadWork (loads : List (NodalLoad K)) (v : NodalField K) : K :=
  (loads.map fun l => ∑ j ∈ range l.nodes.length, ∑ d : Fin 3,
    if l.act d = true then v (l.nodes.getD j 0) d * (l.force.getD j fun _ => 0) d else 0).sum

/-- The displacement field that moves one dof of one node by one. -/
def unitField (i : ℕ) (d : Fin 3) : NodalField K := fun j k => if j = i ∧ k = d then 1 else 0

/-- The last support listed for the node holds the dof. -/
def Supported (supports : List ConstraintPart) (i : ℕ) (d : Fin 3) : Prop :=
  ∃ before p after, supports = before ++ p :: after ∧ i ∈ p.nodes ∧ (∀ q ∈ after, i ∉ q.nodes) ∧ p.free d = false

/-- Only nodes of the mesh are used. -/
def NodesInMesh (inp : SystemInput K) : Prop :=
  ∀ p ∈ inp.parts, (∀ e ∈ p.elements, e.1.1 < inp.n ∧ e.1.2 < inp.n) ∧ ∀ m ∈ p.nodes, m < inp.n

/-- Elements are horizontal, or vertical with the axial dof only (rods). -/
def AxisAligned (inp : SystemInput K) : Prop :=
  ∀ p ∈ inp.parts, ∀ e ∈ p.elements, e.2.2 = 0 ∨ (e.2.1 = 0 ∧ p.act 1 = false ∧ p.act 2 = false)

end Rose.Spec
