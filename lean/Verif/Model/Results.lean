/-
Model of a whole calculation of a `GlobalSystem`: initialisation, the solver as a parameter that asks for right hand sides,
and the results on the nodes (`rose/model/global_system.py`).
-/
import Verif.Model.GlobalSystem
import Verif.Model.Calculation

set_option linter.unusedSectionVars false

namespace Rose

section
variable {K : Type*} [Field K] [LinearOrder K] [IsStrictOrderedRing K]

/-- A load condition of the input: its nodes as positions in `mesh.nodes`, its active dofs and the source of its forces
(`rose/model/boundary_conditions.py:39-65`). -/
structure TimedLoad (K : Type*) where
  nodes : List ℕ
  act : Fin 3 → Bool
  source : LoadSource K

/-- The load object on nodes with equation numbers `eqn`, before `initialize` (`rose/model/boundary_conditions.py:39-65`,
`rose/model/model_part.py:190-212`). -/
def TimedLoad.object (eqn : ℕ → Fin 3 → Option ℕ) (l : TimedLoad K) : LoadObject K :=
  { nodes := l.nodes.map eqn, act := l.act, source := l.source, vector := [] }

/-- The load during initialisation of the system, with the force vectors of `initialize`
(`rose/model/boundary_conditions.py:88-109, 239-281`). -/
def TimedLoad.initial (l : TimedLoad K) : NodalLoad K :=
  { nodes := l.nodes, act := l.act, force := (l.object fun _ _ => none).initialize.vector }

/-- The input of a calculation; the field `system.loads` is not used (`rose/model/global_system.py:47-74`). -/
structure SystemRun (K : Type*) where
  system : SystemInput K
  timed : List (TimedLoad K)

/-- The system with its loads as they are during `initialise`, `rose/model/global_system.py:460-474`. -/
def SystemRun.input (c : SystemRun K) : SystemInput K := { c.system with loads := c.timed.map TimedLoad.initial }

/-- The load objects after `initialise`: the vectors of `initialize`, the equation numbers of `recalculate_dof`
(`rose/model/global_system.py:252-257`). -/
def SystemRun.loaded (c : SystemRun K) (st : TrimState K) : LoadedSystem K :=
  { loads := c.timed.map fun l => (l.object (nodeEquations st.nodes)).initialize, F := st.F }

/-- What `update_time_step_rhs(t)` returns to the solver after it has been called for the time indices `asked`,
`rose/model/global_system.py:495-515`. -/
def SystemRun.rhs (c : SystemRun K) (st : TrimState K) (asked : List ℕ) (t : ℕ) : ℕ → K :=
  ((asked.foldl (fun s t => s.step t) (c.loaded st)).step t).F

/-- The result arrays of the solver by output index and equation number (`rose/model/global_system.py:598-603`). -/
structure SolverOutput (K : Type*) where
  u : ℕ → ℕ → K
  v : ℕ → ℕ → K
  a : ℕ → ℕ → K

/-- One row of the results of a node, `rose/model/geometry.py:54-85`. -/
structure NodeRow (K : Type*) where
  displacement : Fin 3 → K
  velocity : Fin 3 → K
  acceleration : Fin 3 → K

/-- `_assign_result_to_node` for one output index, `rose/model/global_system.py:607-623`. -/
def nodeRow (out : SolverOutput K) (t : ℕ) (n : DofNode) : Except Err (NodeRow K) := do
  let u ← assignResultRow n (out.u t)
  let v ← assignResultRow n (out.v t)
  let a ← assignResultRow n (out.a t)
  .ok ⟨u, v, a⟩

/-- `main` (`rose/model/global_system.py:657-675`) without validation and the forces in the elements (C16, C78): initialise,
let the solver compute `times` output rows, assign them to the nodes (`calculate_stage` 517-544, `assign_results_to_nodes`
625-632). Simplification: the external solver is one function of the initialised system and of the right hand sides it can
ask for; that the stages cover the same steps is C112. -/
def SystemRun.main (c : SystemRun K) (flags : ℕ → Fin 3 → Bool) (times : ℕ)
    (solver : TrimState K → (List ℕ → ℕ → ℕ → K) → SolverOutput K) :
    Except Err (TrimState K × List (List (NodeRow K))) := do
  let st ← c.input.initialise flags
  let out := solver st (c.rhs st)
  let rows ← (List.range times).mapM fun t => st.nodes.mapM (nodeRow out t)
  .ok (st, rows)

end
end Rose
