/-
Model of the initialisation of a whole system (`rose/model/global_system.py`): numbering, assembly of all model parts,
supports, trimming and damping in the order of the code, and repeated initialisation of the same model.
-/
import Verif.Model.System
import Verif.Model.Beam

set_option linter.unusedSectionVars false

namespace Rose

section
variable {K : Type*} [Field K] [LinearOrder K] [IsStrictOrderedRing K]

/-- What assembly reads of an `ElementModelPart` after `initialize` (`rose/model/model_part.py:215-253`): the two nodes of
every element as positions in `mesh.nodes` with the direction cosines of the element, the nodes of the part, its active
dofs and its local matrices on these dofs. Parts with elements are rods and beams, which rotate their matrices. -/
structure AssemblyPart (K : Type*) where
  elements : List ((ℕ × ℕ) × (K × K))
  nodes : List ℕ
  act : Fin 3 → Bool
  stiffness : Option (ℕ × ℕ → K)
  mass : Option (ℕ × ℕ → K)
  damping : Option (ℕ × ℕ → K)

/-- `__reshape_aux_matrices` for one matrix, `rose/model/global_system.py:141-177`. -/
def AssemblyPart.reshaped (p : AssemblyPart K) (a : ℕ × ℕ → K) : ℕ × ℕ → K :=
  reshapeAux (if p.elements.length > 0 then 2 else 1) [p.act 0, p.act 1, p.act 2] a

/-- The element or node contributions of a part for one of its matrices, `rose/model/global_system.py:98-138`,
`rose/model/utils.py:324-359`; `eqn` gives `index_dof` of the nodes. -/
def AssemblyPart.contributions (eqn : ℕ → Fin 3 → Option ℕ) (p : AssemblyPart K) (a : ℕ × ℕ → K) :
    List (Contribution K) :=
  if p.elements.length > 0 then
    p.elements.map fun e =>
      { n := 6
        dofs := ![eqn e.1.1 0, eqn e.1.1 1, eqn e.1.1 2, eqn e.1.2 0, eqn e.1.2 1, eqn e.1.2 2]
        mat := rotateAux e.2.1 e.2.2 (Matrix.of fun i j => p.reshaped a (i, j)) }
  else
    p.nodes.map fun m =>
      { n := 3, dofs := ![eqn m 0, eqn m 1, eqn m 2], mat := Matrix.of fun i j => p.reshaped a (i, j) }

/-- The contributions of all parts that have the matrix, `rose/model/global_system.py:113-138, 321-324`. -/
def allContributions (eqn : ℕ → Fin 3 → Option ℕ) (matrix : AssemblyPart K → Option (ℕ × ℕ → K))
    (parts : List (AssemblyPart K)) : List (List (Contribution K)) :=
  parts.filterMap fun p => (matrix p).map fun a => p.contributions eqn a

/-- A load condition as `__add_condition_to_global` reads it during initialisation: nodes as positions in `mesh.nodes`,
active dofs and force vectors (`rose/model/global_system.py:179-194`). -/
structure NodalLoad (K : Type*) where
  nodes : List ℕ
  act : Fin 3 → Bool
  force : List (Fin 3 → K)

/-- The load with the equation numbers of its nodes, `rose/model/model_part.py:190-212`. -/
def NodalLoad.numbered (eqn : ℕ → Fin 3 → Option ℕ) (l : NodalLoad K) : LoadPart K :=
  { nodes := l.nodes.map eqn, act := l.act, force := l.force }

/-- The input of a system: number of mesh nodes, model parts by kind, Rayleigh damping (`rose/model/global_system.py:47-74`).
The relative order of parts of different kinds does not matter in the loops that read them. -/
structure SystemInput (K : Type*) where
  n : ℕ
  parts : List (AssemblyPart K)
  loads : List (NodalLoad K)
  constraints : List ConstraintPart
  isRayleigh : Bool
  ratio : K
  w1 : K
  w2 : K

/-- `index_dof` of the node at a position of the mesh, `rose/model/geometry.py:26`. -/
def nodeEquations (ns : List DofNode) (i : ℕ) : Fin 3 → Option ℕ := ((ns[i]?).map DofNode.idx).getD fun _ => none

/-- `calculate_rayleigh_damping`, `rose/model/global_system.py:390-415`, on the trimmed system. -/
def SystemInput.damped (inp : SystemInput K) (st : TrimState K) : TrimState K :=
  if inp.isRayleigh then
    let a := rayleighFactors inp.ratio inp.w1 inp.w2
    { st with C := fun i j => st.C i j + (a.1 * st.M i j + a.2 * st.Kg i j) }
  else st

/-- `GlobalSystem.initialise`, `rose/model/global_system.py:460-474` with `initialise_ndof` (417-439),
`initialise_global_matrices` (355-374) and `add_model_parts_to_global_matrices` (314-335). `flags` are the dof flags that the
node objects have when the function is called. Stages and the solver are left out here. -/
def SystemInput.initialise (inp : SystemInput K) (flags : ℕ → Fin 3 → Bool) : Except Err (TrimState K) := do
  let nd := initialiseNdof ((List.range inp.n).map fun i => ⟨fun _ => none, flags i⟩)
  let eqn := nodeEquations nd.1
  let N := nd.2
  let stiff ← addParts N (fun _ _ => 0) (allContributions eqn AssemblyPart.stiffness inp.parts)
  let mass ← addParts N (fun _ _ => 0) (allContributions eqn AssemblyPart.mass inp.parts)
  let damp ← addParts N (fun _ _ => 0) (allContributions eqn AssemblyPart.damping inp.parts)
  let force := (inp.loads.map (NodalLoad.numbered eqn)).foldl addCondition fun _ => 0
  let flags' := setConstraints flags inp.constraints
  let nodes := (List.range inp.n).map fun i => (⟨eqn i, flags' i⟩ : DofNode)
  .ok (inp.damped (trimAll { nodes := nodes, N := N, M := mass, C := damp, Kg := stiff, F := force }))

/-- The dof flags of the node objects after an initialisation (`recalculate_dof` clears those of removed dofs,
`rose/model/global_system.py:228-250`). -/
def flagsAfter (st : TrimState K) (i : ℕ) : Fin 3 → Bool := ((st.nodes[i]?).map DofNode.act).getD fun _ => true

/-- New node objects: every dof free, `rose/model/geometry.py:28-30`. -/
def freshFlags : ℕ → Fin 3 → Bool := fun _ _ => true

/-- A second initialisation of a model that uses the same node objects: `clean_model`
(`rose/model/train_track_interaction.py:507-524`) resets `index_dof` and `model_parts` of the nodes, not their dof flags. -/
def initialiseAgain (first second : SystemInput K) (flags : ℕ → Fin 3 → Bool) : Except Err (TrimState K) := do
  let st ← first.initialise flags
  second.initialise (flagsAfter st)

/-- Initialising the same model `k` more times, `rose/model/train_track_interaction.py:507-534`. -/
def initialiseTimes (inp : SystemInput K) (flags : ℕ → Fin 3 → Bool) : ℕ → Except Err (TrimState K)
  | 0 => inp.initialise flags
  | k + 1 => do
    let st ← initialiseTimes inp flags k
    inp.initialise (flagsAfter st)

end
end Rose
