/-
Model of the calculation of a train on its own (`rose/model/train_model.py`: `TrainModel.main`, `update`; `rose/model/global_system.py`:
`calculate_stage`) with the way in which the matrices are stored.
External: the solver.
-/
import Verif.Model.TrainSystem
import Verif.Model.StagedRun

set_option linter.unusedSectionVars false

namespace Rose

/-- How a matrix is stored: `np.zeros` gives an array, `rose/model/train_model.py:694, 708, 727`; `sparse.lil_matrix` a list of lists,
`rose/model/global_system.py:364-372`; `tocsc` compressed columns, `rose/model/global_system.py:528-530`. -/
inductive MatrixStorage
  | array | lil | csc
deriving DecidableEq

/-- `delete_from_lil`, `rose/model/utils.py:121-161`: a selection of rows and columns of an array is an array, that of a sparse matrix a
sparse matrix. -/
def MatrixStorage.trimmed (s : MatrixStorage) : MatrixStorage := s

/-- `mat.tocsc()`, `rose/model/global_system.py:528-530`: an array has no such attribute. -/
def MatrixStorage.tocsc : MatrixStorage → Except Err MatrixStorage
  | .array => .error .exception
  | .lil => .ok .csc
  | .csc => .ok .csc

/-- The three matrices of a train after `TrainModel.initialise_global_matrices`, `rose/model/train_model.py:687-733, 843-857`, in the order
mass, damping, stiffness. -/
def trainStorage : List MatrixStorage := [.array, .array, .array].map MatrixStorage.trimmed

/-- Those of a track after `GlobalSystem.initialise_global_matrices`, `rose/model/global_system.py:355-374`. -/
def systemStorage : List MatrixStorage := [.lil, .lil, .lil].map MatrixStorage.trimmed

/-- A solver with the state `S`: after `initialise`, `rose/model/train_model.py:925`; `solver.update(start)`,
`rose/model/train_model.py:1010`, which may fail; `solver.calculate`, `rose/model/global_system.py:535-539`. -/
structure AloneSolver (K S : Type*) where
  initial : TrimState K → S
  update : ℕ → S → Except Err S
  calculate : TrimState K → ℕ → ℕ → S → S

section
variable {K : Type*} {S : Type} [Field K] [LinearOrder K] [IsStrictOrderedRing K]

/-- `update` and `calculate_stage`, `rose/model/train_model.py:1002-1010`, `rose/model/global_system.py:517-541`. -/
def AloneSolver.stage (solver : AloneSolver K S) (storage : List MatrixStorage) (st : TrimState K) (s : S) (c : ℕ × ℕ) : Except Err S := do
  let s ← solver.update c.1 s
  let _ ← storage.mapM MatrixStorage.tocsc
  .ok (solver.calculate st c.1 c.2 s)

/-- The stage loop of `main`, `rose/model/train_model.py:1012-1024`, for matrices stored in the given way. -/
def AloneSolver.stages (solver : AloneSolver K S) (storage : List MatrixStorage) (st : TrimState K) (ids : List ℕ) : Except Err S :=
  (stageCalls ids).foldlM (solver.stage storage st) (solver.initial st)

/-- `TrainModel.main`, `rose/model/train_model.py:1012-1024`. `rnd` rounds the step sizes (`set_stage_time_ids`). Simplifications: the steps
of `initialise` that can fail (numbers of velocities, irregularities) succeed; the results at the nodes, assigned after every stage, are
those of the solver state. -/
def Train.main {H : Type*} [DecidableEq H] (hash : (Fin 3 → K) → H) (t : Train K) (x0 : ℕ → K) (g : K) (rnd : K → K) (time : List K)
    (solver : AloneSolver K S) : Except Err S :=
  solver.stages trainStorage (trimAll (t.system g (t.initialMesh hash x0))) (stageTimeIds rnd time)

end

end Rose
