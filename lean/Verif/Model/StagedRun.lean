/-
Model of the stage loop of a calculation (`rose/model/global_system.py`: `calculate_stage`, `update`, `main`;
`rose/model/train_track_interaction.py`: `calculate_stage`, `main`).
External: the solver, an object with result arrays and a type (`solvers.base_solver`).
-/
import Verif.Model.CoupledRun
import Verif.Model.System

set_option linter.unusedSectionVars false

namespace Rose

/-- `TimeIntegrationType` as far as `calculate_stage` tells its values apart, `rose/model/global_system.py:535-541`. -/
inductive SolverType
  | dynamic | static | other
deriving DecidableEq

/-- A solver object: its type, its result arrays after `solver.initialise(total_n_dof, time)` (and, for a coupled model, the initial
state), and `solver.calculate` for a stage, which changes the arrays and reports for what it has asked the functions that update the right
hand side, `rose/model/global_system.py:478-479, 535-539`. `E` is what one step asks for, `X` what it gets. -/
structure StageSolver (K E X : Type*) where
  type : SolverType
  initial : TrimState K → SolverOutput K
  calculate : TrimState K → (List E → X) → ℕ → ℕ → SolverOutput K → SolverOutput K × List E

section
variable {K : Type*} [Field K] [LinearOrder K] [IsStrictOrderedRing K] {E X : Type*}

/-- `calculate_stage`, `rose/model/global_system.py:517-541`: a dynamic solver gets mass, damping and stiffness, a static one the stiffness
only; for another type an exception object is created but not raised. `rhs` is what the functions that update the right hand side
return after earlier calls (`x.2` are those of the stages before). Simplification: `update` (481-493) is part of `calculate`
(`update_model_parts`, 451-458, does nothing: `ModelPart.update`, `rose/model/model_part.py:172-173`). -/
def StageSolver.stage (s : StageSolver K E X) (st : TrimState K) (rhs : List E → X) (x : SolverOutput K × List E) (a b : ℕ) :
    SolverOutput K × List E :=
  match s.type with
  | .dynamic =>
    let r := s.calculate st (fun l => rhs (x.2 ++ l)) a b x.1
    (r.1, x.2 ++ r.2)
  | .static =>
    let r := s.calculate { st with M := fun _ _ => 0, C := fun _ _ => 0 } (fun l => rhs (x.2 ++ l)) a b x.1
    (r.1, x.2 ++ r.2)
  | .other => x

/-- The stage loop of `main`, `rose/model/global_system.py:668-671`, `rose/model/train_track_interaction.py:602-605`: the arrays after the last
stage; `ids` are the `stage_time_ids`. -/
def StageSolver.run (s : StageSolver K E X) (ids : List ℕ) (st : TrimState K) (rhs : List E → X) : SolverOutput K :=
  (runStages (s.stage st rhs) ids (s.initial st, [])).1

/-- `main`, `rose/model/global_system.py:657-675`, with its stages: the nodes get the results of the whole array after every stage (543-544,
625-632), so in the end those after the last stage. `rnd` rounds the step sizes (`set_stage_time_ids`, 441-449). Without a stage the nodes
have no results and `calculate_force_in_elements` (546-590) cannot join them. Simplifications: validation and element forces as in
`SystemRun.main`; the mesh has an element (otherwise the last exception does not occur). -/
def SystemRun.mainStaged (c : SystemRun K) (flags : ℕ → Fin 3 → Bool) (rnd : K → K) (time : List K) (s : StageSolver K ℕ (ℕ → ℕ → K)) :
    Except Err (TrimState K × List (List (NodeRow K))) := do
  let st ← c.input.initialise flags
  let ids := stageTimeIds rnd time
  let out := (runStages (s.stage st (c.rhs st)) ids (s.initial st, [])).1
  if stageCalls ids = [] then .error .valueError else
  let rows ← (List.range time.length).mapM fun t => st.nodes.mapM (nodeRow out t)
  .ok (st, rows)

/-- `main` of the coupled model with its stages, `rose/model/train_track_interaction.py:588-613`; `calculate_stage` (568-577) is that of the
global system; `finalise` (579-587) assigns the results once more. -/
def CoupledRun.mainStaged {H : Type*} [DecidableEq H] (hash : (Fin 3 → K) → H) (c : CoupledRun K) (flags : ℕ → Fin 3 → Bool)
    (rnd : K → K) (time : List K) (s : StageSolver K (ℕ × List (ℕ → K)) (List (ℕ → K) → ℕ → (ℕ → K) → ℕ → K)) :
    Except Err (CoupledResult K) := do
  let st ← c.loadedTrack.input.initialise flags
  let sys := c.system hash st
  let ids := stageTimeIds rnd time
  let out := (runStages (s.stage sys (c.rhs hash st)) ids (s.initial sys, [])).1
  if stageCalls ids = [] then .error .valueError else
  let trackRows ← (List.range time.length).mapM fun t => st.nodes.mapM (nodeRow out t)
  let trainRows ← (List.range time.length).mapM fun t =>
    ((c.trainState hash).nodes.map fun n => { n with idx := shiftDofs st.N n.idx }).mapM (nodeRow out t)
  .ok ⟨st, trackRows, trainRows⟩

end
end Rose
