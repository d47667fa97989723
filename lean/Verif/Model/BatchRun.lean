/-
Model of the batch scripts, second part: layering of all scenarios (`run_rose/run_wolf.py`), calculations
(`run_rose/batch_calculation.py`, `run_rose/batch_varandas.py`), the older collection of results and its table
(`run_rose/batch_post_process.py`) and the distance in `run_rose/post_process.py`. The coupled calculation itself is a
parameter here (see `Model/CoupledRun`).
-/
import Verif.Model.Batch
import Verif.Model.MovingLoad

set_option linter.unusedSectionVars false

namespace Rose

variable {K : Type} [Field K] [LinearOrder K]

/-! ### `run_wolf` -/

/-- The layering of one scenario, `run_rose/run_wolf.py:40-56`: the rows are those of `create_layering_for_wolf`
(`wolfLayering`), whose lines 22-40 are the same. -/
def wolfEntry (segment : Name) (e : Name × SosData K) : Except Err (Name × List (WolfRow K)) := do
  let rows ← wolfLayering e.2
  return (wolfName segment e.1, rows)

/-- `read_file`, `run_rose/run_wolf.py:25-57`: the loops over segments and scenarios. -/
def wolfInput (data : PyDict Name (PyDict Name (SosData K))) : Except Err (List (Name × List (WolfRow K))) := do
  let layers ← data.mapM fun s => s.2.mapM (wolfEntry s.1)
  return layers.flatten

/-! ### `batch_calculation` -/

/-- What a dynamic stiffness file gives, `run_rose/read_wolf.py:16-19`. -/
structure WolfResult (K : Type) where
  name : Name
  omega : K
  stiffness : K
  damping : K

/-- The parts of the coupled model that `calculate` changes (stiffness and damping of the soil, velocities of the train), and the rest. -/
structure BatchModel (K σ : Type) where
  soilStiffness : K
  soilDamping : K
  velocities : List K
  rest : σ

/-- The velocities of the base model, `run_rose/batch_calculation.py:136-140`: `ini` initial steps out of `n`. -/
def baseVelocities (n ini : ℕ) (v : K) : List K := (List.range n).map fun i => if i < ini then 0 else v

/-- `calculate` up to the call of `main`, `run_rose/batch_calculation.py:190-195`. -/
def prepareCase {σ : Type} (stiffness damping v : K) (m : BatchModel K σ) : BatchModel K σ :=
  { m with soilStiffness := stiffness, soilDamping := damping,
           velocities := m.velocities.map fun x => if x > 1 / 10 ^ 10 then v else x }

/-- The loop of `main`, `run_rose/batch_calculation.py:292-299`: `run` calculates (changing the model) and `content` is what
`write_results` stores of the calculated model; the directory maps file names to contents. Every calculation starts from a
deep copy of the base model. -/
def batchCalculation {σ ρ : Type} (run : BatchModel K σ → BatchModel K σ) (content : BatchModel K σ → ρ) (base : BatchModel K σ)
    (sleeperDistance v : K) (results : List (WolfResult K)) : PyDict Name ρ :=
  (results.foldl (fun (st : BatchModel K σ × PyDict Name ρ) r =>
    let copy := st.1
    let done := run (prepareCase (r.stiffness * sleeperDistance) (r.damping * sleeperDistance) v copy)
    (st.1, st.2.set (resultFileName r.name) (content done))) (base, [])).2

/-- `xs[0::interval]`, `run_rose/batch_calculation.py:215-244`. -/
def sampled {α : Type} (interval : ℕ) (xs : List α) : Except Err (List α) :=
  if interval = 0 then .error .valueError
  else .ok ((xs.zipIdx.filter fun e => e.2 % interval = 0).map Prod.fst)

/-! ### `post_process` -/

/-- `distance`, `run_rose/post_process.py:32-41`: from the stored times and velocities. -/
def shownDistance (first : ℕ) (time velocity : List K) : List K :=
  runningSums 0 (List.zipWith (· * ·) (npDiff (time.drop first)) ((velocity.drop first).drop 1))

/-! ### `batch_varandas` -/

/-- What can be accessed on an object of class `Varandas`: attributes set in `__init__` and the method,
`rose/model/accumulation_model.py:81-222`. -/
def varandasMembers : List String :=
  ["alpha", "beta", "gamma", "N0", "F0", "M_alpha_beta", "nb_nodes", "histogram_force", "force_max", "max_val_force", "h_f",
   "nb_int_step", "force_scl_fct", "disp_scl_fct", "settlement"]

/-- The members used by the batch in the given order, `run_rose/batch_varandas.py:72-76`. -/
def varandasUsed : List String := ["read_traffic", "settlement", "dump"]

/-- The files written by the batch, `run_rose/batch_varandas.py:38-90`: an access to a missing member raises, which `except: pass`
swallows. The calls are taken to succeed if the members exist. -/
def varandasOutput (dir : List Name) : Except Err (List Name) := do
  let triples ← trainTriples dir
  return triples.filterMap fun t => if varandasUsed.all fun m => varandasMembers.contains m then some (settlementFileName t.1) else none

/-! ### `get_results`, `calculate_weighted_values`, `write_gis_csv` -/

/-- A segment in `res_dict` of `get_results`, `run_rose/batch_post_process.py:273-283`: coordinates, numbers by key, and numbers by scenario
and key. -/
structure SegmentResult (K : Type) where
  coordinates : List (K × K)
  values : PyDict Name K
  scenarios : PyDict Name (PyDict Name K)

/-- A calculation as `get_results` reads it: the entry `name`, the displacements of the node and the stiffness in the
dynamic stiffness file of that name. -/
structure SegmentFile (K : Type) where
  name : Name
  displacements : List K
  stiffness : K

/-- python's `min`, `run_rose/batch_post_process.py:265`. -/
def pyMin : List K → Except Err K
  | [] => .error .valueError
  | x :: xs => .ok (xs.foldl min x)

/-- One file, `run_rose/batch_post_process.py:265-285`. -/
def resultsStep (sos : SosFile K) (st : Name × PyDict Name (SegmentResult K)) (f : SegmentFile K) :
    Except Err (Name × PyDict Name (SegmentResult K)) := do
  let d ← pyMin f.displacements
  let ids ← parseName f.name
  let scenarios ← sos.get ids.1
  let scenario ← scenarios.get ids.2
  let res := if st.1 ≠ ids.1 then
      st.2.set ids.1 ⟨scenario.coordinates, [("w_disp".toList, 0), ("w_stiffness".toList, 0)], []⟩ else st.2
  let s ← res.get ids.1
  let entry : PyDict Name K :=
    [("min_disp".toList, d), ("probability".toList, scenario.probability / 100), ("stiffness".toList, f.stiffness)]
  return (ids.1, res.set ids.1 { s with scenarios := s.scenarios.set ids.2 entry })

/-- `get_results`, `run_rose/batch_post_process.py:251-287`. -/
def getResults (sos : SosFile K) (files : List (SegmentFile K)) : Except Err (PyDict Name (SegmentResult K)) := do
  let st ← files.foldlM (resultsStep sos) ([], [])
  return st.2

/-- The inner loop of `calculate_weighted_values`, `run_rose/batch_post_process.py:37-39`. -/
def weightSegment (key resKey : Name) (s : SegmentResult K) : Except Err (SegmentResult K) := do
  let total ← s.scenarios.foldlM (fun (acc : K) e => do
    let x ← e.2.get key
    let p ← e.2.get "probability".toList
    return acc + x * p) 0
  return { s with values := s.values.set resKey total }

/-- `calculate_weighted_values`, `run_rose/batch_post_process.py:26-39`. -/
def weightedValues (key resKey : Name) (res : PyDict Name (SegmentResult K)) : Except Err (PyDict Name (SegmentResult K)) :=
  res.mapM fun e => do
    let s ← weightSegment key resKey e.2
    return (e.1, s)

/-- The rows of `write_gis_csv`, `run_rose/batch_post_process.py:18-21`: coordinates, segment and four values. -/
def gisTable (res : PyDict Name (SegmentResult K)) : Except Err (List (List (K × K × Name × K × K × K × K))) :=
  res.mapM fun e => e.2.coordinates.mapM fun c => do
    let a ← e.2.values.get "w_disp".toList
    let b ← e.2.values.get "w_stiffness".toList
    let d ← e.2.values.get "dyn_stiffness".toList
    let s ← e.2.values.get "cum_settlement".toList
    return (c.1, c.2, e.1, a, b, d, s)

end Rose
