/-
Model of the selection of output steps (`run_rose/demo.py:75-77, 241, 262-263`, `run_rose/demo_semi_rigid_rf.py:76-78`,
`rose/model/global_system.py:596-606`): the solver computes every time step and stores those of `state.output_time_indices` only. The
solver itself is not in the repository; the list of indices is a parameter of the model.
-/
import Verif.Model.CombinedTrack

set_option linter.unusedSectionVars false

namespace Rose

section
variable {K : Type*} [Field K] [LinearOrder K] [IsStrictOrderedRing K]

/-- The stored results, `solver.u`, `solver.v` and `solver.a` in `rose/model/global_system.py:602-604`: row `i` is that of the time
step `indices[i]`. -/
def SolverOutput.stored (indices : List ℕ) (out : SolverOutput K) : SolverOutput K :=
  { u := fun i => out.u (indices.getD i 0), v := fun i => out.v (indices.getD i 0), a := fun i => out.a (indices.getD i 0) }

/-- `main` of a global system (`rose/model/global_system.py:657-675`) whose solver stores the steps `indices`. -/
def SystemRun.mainStored (c : SystemRun K) (flags : ℕ → Fin 3 → Bool) (indices : List ℕ)
    (solver : TrimState K → (List ℕ → ℕ → ℕ → K) → SolverOutput K) : Except Err (TrimState K × List (List (NodeRow K))) :=
  c.main flags indices.length fun st rhs => (solver st rhs).stored indices

/-- `main` of a coupled model (`rose/model/train_track_interaction.py:588-613`) whose solver stores the steps `indices`. -/
def CoupledRun.mainStored {H : Type*} [DecidableEq H] (hash : (Fin 3 → K) → H) (c : CoupledRun K) (flags : ℕ → Fin 3 → Bool)
    (indices : List ℕ) (solver : TrimState K → (List (ℕ × List (ℕ → K)) → List (ℕ → K) → ℕ → (ℕ → K) → ℕ → K) → SolverOutput K) :
    Except Err (CoupledResult K) :=
  c.main hash flags indices.length fun sys rhs => (solver sys rhs).stored indices

end

/-- `main` of the coupled model of a ride on a combined track, `run_rose/demo.py:74-185`, whose solver stores the steps `indices`. -/
noncomputable def TrackRide.mainOnCombinedStored {ι H : Type*} [DecidableEq ι] [DecidableEq H] (hash : (Fin 3 → ℝ) → H)
    (q : TrackRide) (c : CombinedTrack ι ℝ) (length : ℝ) (soils : List (RodValues ℝ)) (indices : List ℕ)
    (solver : TrimState ℝ → (List (ℕ × List (ℕ → ℝ)) → List (ℕ → ℝ) → ℕ → (ℕ → ℝ) → ℕ → ℝ) → SolverOutput ℝ) :
    Except Err (CoupledResult ℝ) :=
  q.mainOnCombined hash c length soils indices.length fun sys rhs => (solver sys rhs).stored indices

/-- The entries `"time"` and `"velocity"` of the result file, `run_rose/demo.py:241, 262-263`: `time_out` is the time of the stored
steps, `train.velocities[output_time_indices]` fails for indices out of range. -/
def writtenColumn {K : Type*} (values : List K) (indices : List ℕ) : Except Err (List K) :=
  indices.mapM fun i => match values[i]? with
    | some x => .ok x
    | none => .error .indexError

end Rose
