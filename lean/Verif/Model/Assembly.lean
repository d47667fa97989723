/-
Model of the assembly of the global system: dof numbering, embedding of element matrices, coordinate-list assembly,
trimming and assignment of results (`rose/model/utils.py`, `rose/model/global_system.py`, `rose/model/geometry.py`).

Arrays are functions of natural number indices together with their size.
-/
import Verif.Model.Rotation

set_option linter.unusedSectionVars false

namespace Rose

/-- Errors raised explicitly or implicitly by the modelled code, `rose/model/exceptions.py:6-27`, `rose/model/track.py:11-25`. -/
inductive Err where
  | valueError | typeError | indexError | keyError | assertion | exception
  deriving DecidableEq, Repr

/-- One numpy element assignment `a[p] = v` on an array given as a function, `rose/model/utils.py:88-118`. -/
def write {ι K : Type*} [DecidableEq ι] (a : ι → K) (w : ι × K) : ι → K :=
  fun p => if p = w.1 then w.2 else a p

/-- A sequence of element assignments, in order, `rose/model/utils.py:88-118`. -/
def writes {ι K : Type*} [DecidableEq ι] (a : ι → K) (ws : List (ι × K)) : ι → K := ws.foldl write a

section reshape
variable {K : Type*} [Zero K]

/-- `sum(dofs[0:k])`, `rose/model/utils.py:105-116`. -/
def dofRank (dofs : List Bool) (k : ℕ) : ℕ := (dofs.take k).count true

/-- The assignments performed by the four nested loops of `reshape_aux_matrix`, in loop order
(`rose/model/utils.py:103-116`). -/
def reshapeWrites (n : ℕ) (dofs : List Bool) (aux : ℕ × ℕ → K) : List ((ℕ × ℕ) × K) :=
  (List.range n).flatMap fun i =>
    (List.range n).flatMap fun j =>
      (List.range dofs.length).flatMap fun k =>
        if dofs.getD k false then
          (List.range dofs.length).flatMap fun l =>
            if dofs.getD l false then
              [((i * dofs.length + k, j * dofs.length + l),
                aux (i * dofs.count true + dofRank dofs k, j * dofs.count true + dofRank dofs l))]
            else []
        else []

/-- `reshape_aux_matrix`, `rose/model/utils.py:88-118`. -/
def reshapeAux (n : ℕ) (dofs : List Bool) (aux : ℕ × ℕ → K) : ℕ × ℕ → K :=
  writes (fun _ => 0) (reshapeWrites n dofs aux)

end reshape

/-! ### Nodal degrees of freedom -/

/-- The dof data of a node: `index_dof` and the flags `x_disp_dof`, `y_disp_dof`, `z_rot_dof`
(`rose/model/geometry.py:24-37`). -/
structure DofNode where
  idx : Fin 3 → Option ℕ
  act : Fin 3 → Bool

/-- The loop of `initialise_ndof`, `rose/model/global_system.py:424-433`, from the running index `k`. -/
def initialiseNdofFrom (k : ℕ) : List DofNode → List DofNode
  | [] => []
  | n :: ns => { n with idx := ![some k, some (k + 1), some (k + 2)] } :: initialiseNdofFrom (k + 3) ns

/-- `initialise_ndof`, `rose/model/global_system.py:417-439`: numbered nodes and `total_n_dof`. -/
def initialiseNdof (ns : List DofNode) : List DofNode × ℕ := (initialiseNdofFrom 0 ns, 3 * ns.length)

/-! ### Assembly -/

/-- One element (or node without element) of a model part with its local matrix in global axes: the flat list of the
equation numbers of its nodes (`None` possible) and the matrix (`rose/model/utils.py:329-334`, `350-353`). -/
structure Contribution (K : Type*) where
  n : ℕ
  dofs : Fin n → Option ℕ
  mat : Matrix (Fin n) (Fin n) K

section assembly
variable {K : Type*} [Field K] [DecidableEq K]

/-- The entries one element appends to the coordinate list, `rose/model/utils.py:337-346` (and `351-359` for a node):
all non-zero values in row-major order. -/
def Contribution.entries (c : Contribution K) : List (Option ℕ × Option ℕ × K) :=
  (List.finRange c.n).flatMap fun i =>
    (List.finRange c.n).flatMap fun j =>
      if c.mat i j ≠ 0 then [(c.dofs i, c.dofs j, c.mat i j)] else []

/-- `global_matrix.tocoo()` (`rose/model/utils.py:319-322`): the non-zero entries of an `N × N` matrix. -/
def toCoo (N : ℕ) (g : ℕ → ℕ → K) : List (Option ℕ × Option ℕ × K) :=
  (List.range N).flatMap fun i =>
    (List.range N).flatMap fun j => if g i j ≠ 0 then [(some i, some j, g i j)] else []

/-- `sparse.coo_matrix((data, (rows, cols)), shape).tolil()`, `rose/model/utils.py:363-366`: duplicates are summed. -/
def cooDense (es : List (Option ℕ × Option ℕ × K)) : ℕ → ℕ → K :=
  fun i j => (es.map fun e => if e.1 = some i ∧ e.2.1 = some j then e.2.2 else 0).sum

/-- `add_aux_matrix_to_global`, `rose/model/utils.py:297-369`, with the contributions of the part's elements (or
nodes). `coo_matrix` raises when an index is `None` or not below the matrix size. -/
def addAuxToGlobal (N : ℕ) (g : ℕ → ℕ → K) (cs : List (Contribution K)) : Except Err (ℕ → ℕ → K) :=
  let es := toCoo N g ++ cs.flatMap Contribution.entries
  if es.all fun e => (e.1.any (· < N)) && (e.2.1.any (· < N)) then .ok (cooDense es) else .error .valueError

/-- The loop over the element model parts of `add_model_parts_to_global_matrices` for one kind of matrix,
`rose/model/global_system.py:321-325` and `97-139`; each part is given by the contributions of its elements. -/
def addParts (N : ℕ) (g : ℕ → ℕ → K) (parts : List (List (Contribution K))) : Except Err (ℕ → ℕ → K) :=
  parts.foldlM (addAuxToGlobal N) g

end assembly

/-! ### Trimming -/

section trim
variable {K : Type*}

/-- `mat[mask]` for the mask that is false at `removed`: the indices that remain, in order
(`rose/model/utils.py:141-161`). -/
def keptIndices (N : ℕ) (removed : List ℕ) : List ℕ := (List.range N).filter fun i => i ∉ removed

/-- `delete_from_lil(mat, row_indices, col_indices)` with the same list for rows and columns,
`rose/model/utils.py:121-161`; for an empty list the matrix is returned unchanged, which is the same. -/
def deleteRowsCols (N : ℕ) (removed : List ℕ) (m : ℕ → ℕ → K) : ℕ → ℕ → K :=
  let kept := keptIndices N removed
  fun i j => m (kept.getD i 0) (kept.getD j 0)

/-- `delete_from_lil(vec, row_indices)`, `rose/model/utils.py:121-161`. -/
def deleteRows (N : ℕ) (removed : List ℕ) (v : ℕ → K) : ℕ → K :=
  let kept := keptIndices N removed
  fun i => v (kept.getD i 0)

/-- The body of the loop over `node.index_dof` in `recalculate_dof`, `rose/model/global_system.py:238-250`. -/
def recalcDof (removed : List ℕ) (st : DofNode × ℕ) (d : Fin 3) : DofNode × ℕ :=
  match st.1.idx d with
  | some o =>
    if o ∈ removed then
      ({ idx := Function.update st.1.idx d none, act := Function.update st.1.act d false }, st.2)
    else ({ st.1 with idx := Function.update st.1.idx d (some st.2) }, st.2 + 1)
  | none => ({ st.1 with act := Function.update st.1.act d false }, st.2)

/-- One node in `recalculate_dof`, `rose/model/global_system.py:229-250`. -/
def recalcNode (removed : List ℕ) (j : ℕ) (n : DofNode) : DofNode × ℕ :=
  if n.idx 0 = none ∧ n.idx 1 = none ∧ n.idx 2 = none then
    ({ n with act := ![false, false, false] }, j)
  else [0, 1, 2].foldl (recalcDof removed) (n, j)

/-- The loop over the nodes in `recalculate_dof`, `rose/model/global_system.py:228-253`: new nodes and the new total. -/
def recalcNodes (removed : List ℕ) (j : ℕ) : List DofNode → List DofNode × ℕ
  | [] => ([], j)
  | n :: ns =>
    let (n', j') := recalcNode removed j n
    let (ns', j'') := recalcNodes removed j' ns
    (n' :: ns', j'')

variable [Field K] [LinearOrder K] [IsStrictOrderedRing K]

/-- `__get_constrained_indices`, `rose/model/global_system.py:259-287`. -/
def constrainedIndices (ns : List DofNode) : List ℕ :=
  ns.reverse.flatMap fun n =>
    [0, 1, 2].filterMap fun d : Fin 3 => if n.act d then none else n.idx d

/-- `list(np.flip(np.where(np.isclose(diagonal, 0))[0]))`, `rose/model/global_system.py:297, 300`. -/
def zeroDiagonal (N : ℕ) (m : ℕ → ℕ → K) : List ℕ :=
  ((List.range N).filter fun i => |m i i| ≤ 1 / 100000000).reverse

/-- `obsolete_indices`, `rose/model/global_system.py:297-306`. Sorting and deduplication do not matter for its uses,
which are membership tests and mask assignments; they are left out. -/
def obsoleteIndices (N : ℕ) (ns : List DofNode) (M Kg : ℕ → ℕ → K) : List ℕ :=
  constrainedIndices ns ++ zeroDiagonal N M ++ zeroDiagonal N Kg

/-- The parts of the global system that trimming changes, `rose/model/global_system.py:196-258`. -/
structure TrimState (K : Type*) where
  nodes : List DofNode
  N : ℕ
  M : ℕ → ℕ → K
  C : ℕ → ℕ → K
  Kg : ℕ → ℕ → K
  F : ℕ → K

/-- `trim_all_global_matrices`, `rose/model/global_system.py:289-312`. -/
def trimAll (st : TrimState K) : TrimState K :=
  let rem := obsoleteIndices st.N st.nodes st.M st.Kg
  let r := recalcNodes rem 0 st.nodes
  { nodes := r.1, N := r.2, M := deleteRowsCols st.N rem st.M, C := deleteRowsCols st.N rem st.C,
    Kg := deleteRowsCols st.N rem st.Kg, F := deleteRows st.N rem st.F }

end trim

/-! ### Results -/

section results
variable {K : Type*}

/-- numpy `row[mask] = values` for a row of length three. A single value is broadcast; otherwise it raises when the number of values
differs from the number of true mask entries, `rose/model/geometry.py:54-85`. -/
def maskAssign (row : Fin 3 → K) (mask : Fin 3 → Bool) (vals : List K) : Except Err (Fin 3 → K) :=
  let pos := [0, 1, 2].filter fun d : Fin 3 => mask d
  if pos.length = vals.length then .ok (writes row (pos.zip vals))
  else match vals with
    | [v] => .ok (writes row (pos.map fun d => (d, v)))
    | _ => .error .valueError

/-- One row (time) of `_assign_result_to_node` and `Node.assign_result`: `rose/model/global_system.py:608-623`,
`rose/model/geometry.py:54-85`. `u` is the solver's row; the target row starts as zeros (lines 70-72). -/
def assignResultRow [Zero K] (n : DofNode) (u : ℕ → K) : Except Err (Fin 3 → K) :=
  maskAssign (fun _ => 0) n.act (([0, 1, 2].filterMap fun d : Fin 3 => n.idx d).map u)

/-- The same for the force, which starts as `np.empty` (`rose/model/geometry.py:84`): `garbage` is the arbitrary
content of uninitialised memory. -/
def assignForceRow (garbage : Fin 3 → K) (n : DofNode) (f : ℕ → K) : Except Err (Fin 3 → K) :=
  maskAssign garbage n.act (([0, 1, 2].filterMap fun d : Fin 3 => n.idx d).map f)

end results

end Rose
