/-
Model of the mesh container of `rose/model/geometry.py`: nodes and elements are mutable objects on a store, the mesh
lists hold object identifiers (of any type `ι`, natural numbers unless nodes of several meshes are combined).
-/
import Mathlib.Algebra.Order.Field.Basic
import Mathlib.Algebra.Order.Group.Abs
import Mathlib.Data.Fin.VecNotation
import Mathlib.Logic.Function.Basic
import Mathlib.Data.List.Dedup
import Mathlib.Data.Rat.Floor

set_option linter.unusedSectionVars false

namespace Rose

/-! ### `dict.fromkeys` over objects with a mutating `__eq__` -/

section dict
variable {ι : Type*} [DecidableEq ι] {α : Type*}

/-- Insertion of the key object `n` in a python `dict`: the keys already present that have the same hash are visited
in insertion order; the first that is the same object, or for which `key.__eq__(n)` holds, absorbs `n`
(`__eq__` mutates the key that is already present). Otherwise `n` is appended. `same` is "equal hash and equal",
`merge a b` the state of the present key `a` after `a == b` returned `True`. (`__eq__` returning `False` mutates
nothing: `rose/model/geometry.py:100-102` and `167-169`, the latter up to node flags, see `ElemObj`.) -/
def dictInsert (same : α → α → Bool) (merge : α → α → α) (st : (ι → α) × List ι) (n : ι) : (ι → α) × List ι :=
  match st.2.find? fun m => m == n || same (st.1 m) (st.1 n) with
  | some m => if m = n then st else (Function.update st.1 m (merge (st.1 m) (st.1 n)), st.2)
  | none => (st.1, st.2 ++ [n])

/-- `list(dict.fromkeys(old + new))`: a fresh dictionary is filled with the old objects and then the new ones
(`rose/model/geometry.py:251`, `269`). -/
def dictAdd (same : α → α → Bool) (merge : α → α → α) (st : (ι → α) × List ι) (new : List ι) :
    (ι → α) × List ι :=
  (st.2 ++ new).foldl (dictInsert same merge) (st.1, [])

end dict

/-! ### Nodes -/

/-- A `Node` object: coordinates, `index`, `index_dof`, dof flags and model parts (`rose/model/geometry.py:24-37`;
result arrays are `None` before a calculation and are left out). Model parts are identified by numbers. -/
structure NodeObj (K : Type*) where
  pos : Fin 3 → K
  index : Option ℕ
  idx : Fin 3 → Option ℕ
  act : Fin 3 → Bool
  parts : List ℕ

section nodes
variable {K : Type*} [Field K] [LinearOrder K] [IsStrictOrderedRing K]

/-- The loop over the coordinates in `Node.__eq__`, `rose/model/geometry.py:97-102`. -/
def nodesClose (p q : Fin 3 → K) : Bool := decide (∀ i, ¬ |p i - q i| > 1 / 1000000000)

/-- The effects of `Node.__eq__` returning `True`, `rose/model/geometry.py:104-117`. -/
def mergeNode (a b : NodeObj K) : NodeObj K :=
  { a with
    idx := fun d => match b.idx d with
      | some k => some k
      | none => a.idx d
    act := fun d => a.act d || b.act d
    parts := a.parts ++ b.parts }

/-- Equal hash and `__eq__` of two nodes. The hash is a parameter of the model: `Node.__hash__`
(`rose/model/geometry.py:119-126`) hashes the coordinates rounded to nine decimals. -/
def sameNode {H : Type*} [DecidableEq H] (hash : (Fin 3 → K) → H) (a b : NodeObj K) : Bool :=
  decide (hash a.pos = hash b.pos) && nodesClose a.pos b.pos

/-- `Mesh.add_unique_nodes_to_mesh`, `rose/model/geometry.py:243-251`. -/
def addUniqueNodes {ι : Type*} [DecidableEq ι] {H : Type*} [DecidableEq H] (hash : (Fin 3 → K) → H) :
    (ι → NodeObj K) × List ι → List ι → (ι → NodeObj K) × List ι :=
  dictAdd (sameNode hash) mergeNode

/-- The rounded coordinates that `Node.__hash__` hashes, in units of `1e-9` (`rose/model/geometry.py:125`). A hash
that separates different tuples is the situation of the counterexamples; ties are rounded up here, to even in
python. -/
def roundedCoords (p : Fin 3 → ℚ) : ℤ × ℤ × ℤ :=
  (⌊p 0 * 1000000000 + 1 / 2⌋, ⌊p 1 * 1000000000 + 1 / 2⌋, ⌊p 2 * 1000000000 + 1 / 2⌋)

/-- `Mesh.reorder_node_ids`, `rose/model/geometry.py:223-231`; the loop of `reorder_element_ids`, lines 233-241, is
the same with `element.index`. -/
def reorderIds {ι : Type*} [DecidableEq ι] {α : Type*} (setIndex : α → ℕ → α) : ℕ → (ι → α) → List ι → (ι → α)
  | _, s, [] => s
  | i, s, n :: ns => reorderIds setIndex (i + 1) (Function.update s n (setIndex (s n) i)) ns

end nodes

/-! ### Elements -/

/-- An `Element` object: the positions of its nodes in order, `index`, model parts (`rose/model/geometry.py:150-157`).
Simplification: the nodes themselves are not modelled as shared objects here, so the union of node flags that comparing
elements causes as a side effect (through `Node.__eq__`) is left out; positions never change. -/
structure ElemObj (K : Type*) where
  nodes : List (Fin 3 → K)
  index : Option ℕ
  parts : List ℕ

section elements
variable {K : Type*} [Field K] [LinearOrder K] [IsStrictOrderedRing K]

/-- `Element.__eq__` as a relation, `rose/model/geometry.py:167-169`: every node of `a` is among the nodes of `b`. -/
def elemEq (a b : ElemObj K) : Bool := a.nodes.all fun p => b.nodes.any fun q => nodesClose q p

/-- The effect of `Element.__eq__` returning `True`, `rose/model/geometry.py:171` (the order of a python set of
objects is arbitrary; the model keeps the order of first occurrence). -/
def mergeElem (a b : ElemObj K) : ElemObj K := { a with parts := (a.parts ++ b.parts).dedup }

/-- Equal hash and `__eq__` of two elements; `Element.__hash__` hashes the tuple of the node hashes
(`rose/model/geometry.py:175-182`). The hash of the tuple is modelled by the tuple of node hashes. -/
def sameElem {H : Type*} [DecidableEq H] (hash : (Fin 3 → K) → H) (a b : ElemObj K) : Bool :=
  decide (a.nodes.map hash = b.nodes.map hash) && elemEq a b

/-- `Mesh.add_unique_elements_to_mesh`, `rose/model/geometry.py:262-269`. -/
def addUniqueElements {H : Type*} [DecidableEq H] (hash : (Fin 3 → K) → H) :
    (ℕ → ElemObj K) × List ℕ → List ℕ → (ℕ → ElemObj K) × List ℕ :=
  dictAdd (sameElem hash) mergeElem

end elements

end Rose
