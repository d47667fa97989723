/-
Model of the batch scripts: `run_rose/run_wolf.py` (the layering of every scenario), `run_rose/read_wolf.py`,
`run_rose/batch_calculation.py`, `run_rose/batch_varandas.py`, `run_rose/batch_post_process.py` and `run_rose/post_process.py`.
Names of files, segments and scenarios are lists of characters (ASCII for `lower`). A directory is the list of its files in
the order in which `os.listdir` gives them, which python leaves open. Reading and writing files is taken to succeed.
Plots are left out.
-/
import Verif.Model.Signal

set_option linter.unusedSectionVars false

namespace Rose

/-- A python string. -/
abbrev Name := List Char

/-! ### Dictionaries -/

/-- A python dictionary: the items in the order of insertion (json objects read in
`run_rose/batch_post_process.py:103-104,182-183`). -/
abbrev PyDict (κ α : Type*) := List (κ × α)

namespace PyDict

variable {κ α : Type*} [DecidableEq κ]

/-- `d[key]` where it exists, e.g. `run_rose/batch_post_process.py:124`. -/
def get? (d : PyDict κ α) (k : κ) : Option α := (d.find? fun e => e.1 = k).map Prod.snd

/-- `d[key]`, which raises for a missing key, e.g. `run_rose/batch_post_process.py:124`. -/
def get (d : PyDict κ α) (k : κ) : Except Err α :=
  match d.get? k with
  | none => .error .keyError
  | some v => .ok v

/-- `d[key] = v`: an existing key keeps its place, a new one comes last, e.g. `run_rose/batch_post_process.py:127`. -/
def set (d : PyDict κ α) (k : κ) (v : α) : PyDict κ α :=
  if k ∈ d.map Prod.fst then d.map fun e => if e.1 = k then (k, v) else e else d ++ [(k, v)]

/-- The keys in order. -/
def keys (d : PyDict κ α) : List κ := d.map Prod.fst

end PyDict

/-! ### Names -/

/-- `s.endswith(t)`, `run_rose/batch_post_process.py:114,193`. -/
def endsWith (s t : Name) : Bool := t.isSuffixOf s

/-- `t in s`, `run_rose/batch_post_process.py:153,155`. -/
def contains (s t : Name) : Bool := decide (t <:+: s)

/-- `s.split("_")`, `run_rose/batch_post_process.py:123,149`. -/
def splitName (s : Name) : List Name := s.splitOn '_'

/-- `_, segment_id, scenario_id = name.split("_")`, `run_rose/batch_post_process.py:123,266`: raises unless there are three parts. -/
def parseName (s : Name) : Except Err (Name × Name) :=
  match splitName s with
  | [_, segment, scenario] => .ok (segment, scenario)
  | _ => .error .valueError

/-- `part.lower()`, `run_rose/batch_post_process.py:153,155`. -/
def lower (s : Name) : Name := s.map Char.toLower

/-- `get_segment_and_scenario_from_fn`, `run_rose/batch_post_process.py:143-157`. -/
def segmentAndScenario (file : Name) : Name × Name :=
  (splitName file).foldl (fun st part =>
    (if contains (lower part) "segment".toList then part else st.1,
     if contains (lower part) "scenario".toList then part else st.2)) ([], [])

/-- `s.strip(chars)`, `run_rose/batch_varandas.py:68`: removes characters of the set at both ends. -/
def strip (chars s : Name) : Name :=
  ((s.dropWhile fun c => chars.contains c).reverse.dropWhile fun c => chars.contains c).reverse

/-- The name of a scenario in the layering, `run_rose/run_wolf.py:56`. -/
def wolfName (segment scenario : Name) : Name := segment ++ '_' :: scenario

/-- The name of a result, `run_rose/read_wolf.py:8,16`: the file name of the dynamic stiffness without its extension; the
package that writes the file puts `tag` (`Kdyn`) and an underscore in front of the name of the scenario
(`run_rose/run_optimisation.py:309`). -/
def resultName (tag segment scenario : Name) : Name := tag ++ '_' :: wolfName segment scenario

/-- The file written by `write_results`, `run_rose/batch_calculation.py:262`. -/
def resultFileName (name : Name) : Name := "res_".toList ++ name ++ ".pickle".toList

/-- A result file of one type of train as `batch_varandas` and `get_batch_dynamic_stiffnesses` look for it,
`run_rose/batch_varandas.py:24,28,32`, `run_rose/batch_post_process.py:114`. -/
def trainFileName (name train : Name) : Name := "res_".toList ++ name ++ '_' :: train ++ ".pickle".toList

/-- `out_name`, `run_rose/batch_varandas.py:68`. -/
def outName (intercityFile : Name) : Name := strip "intercity.pickle".toList intercityFile

/-- The file written for a segment, `run_rose/batch_varandas.py:76`. -/
def settlementFileName (intercityFile : Name) : Name := outName intercityFile ++ "_incl_cargo_100d.json".toList

variable {K : Type} [Field K] [LinearOrder K]

/-! ### Collecting results -/

/-- A scenario of the soil data: its probability in percent and the coordinates of the segment. -/
structure Scenario (K : Type) where
  probability : K
  coordinates : List (K × K)

/-- The soil data, by segment and scenario, `run_rose/batch_post_process.py:103-104`. -/
abbrev SosFile (K : Type) := PyDict Name (PyDict Name (Scenario K))

/-- What is taken from a result file: segment, scenario and value. -/
structure ResultFile (K : Type) where
  segment : Name
  scenario : Name
  value : K

/-- `res_dict`, `run_rose/batch_post_process.py:106-109,185-188`: coordinates, data (value and probability by scenario) and
weighted data by segment. The arrays of one entry are numbers here; the entry `time` is left out. -/
structure BatchResult (K : Type) where
  coordinates : PyDict Name (List (K × K))
  data : PyDict Name (PyDict Name (K × K))
  weighted : PyDict Name K

/-- `segment_id` of the previous file and `res_dict`. -/
abbrev BatchState (K : Type) := Name × BatchResult K

/-- The start, `run_rose/batch_post_process.py:106-111,185-190`. -/
def BatchState.init : BatchState K := ([], ⟨[], [], []⟩)

/-- One file, `run_rose/batch_post_process.py:124-135,202-213`. -/
def batchStep (sos : SosFile K) (st : BatchState K) (f : ResultFile K) : Except Err (BatchState K) := do
  let scenarios ← sos.get f.segment
  let scenario ← scenarios.get f.scenario
  let p := scenario.probability / 100
  let data := if st.1 ≠ f.segment then st.2.data.set f.segment [] else st.2.data
  let weighted := if st.1 ≠ f.segment then st.2.weighted.set f.segment 0 else st.2.weighted
  let segmentData ← data.get f.segment
  let w ← weighted.get f.segment
  return (f.segment, { st.2 with data := data.set f.segment (segmentData.set f.scenario (f.value, p))
                                 weighted := weighted.set f.segment (w + f.value * p) })

/-- The coordinates of one segment, `run_rose/batch_post_process.py:138-139,216-217`. -/
def coordinateStep (present : List Name) (c : PyDict Name (List (K × K))) (e : Name × PyDict Name (Scenario K)) :
    Except Err (PyDict Name (List (K × K))) :=
  if e.1 ∈ present then
    match e.2 with
    | [] => .error .indexError
    | s :: _ => .ok (c.set e.1 s.2.coordinates)
  else .ok c

/-- The coordinates, `run_rose/batch_post_process.py:137-139,215-217`. -/
def addCoordinates (sos : SosFile K) (r : BatchResult K) : Except Err (BatchResult K) := do
  let coordinates ← sos.foldlM (coordinateStep r.data.keys) r.coordinates
  return { r with coordinates := coordinates }

/-- The loop over the files of a directory: `read` gives what is taken from a file,
`run_rose/batch_post_process.py:111-141,190-219`. -/
def collectBatch {φ : Type} (sos : SosFile K) (read : φ → Except Err (ResultFile K)) (files : List φ) :
    Except Err (BatchResult K) := do
  let st ← files.foldlM (fun st f => do
    let r ← read f
    batchStep sos st r) BatchState.init
  addCoordinates sos st.2

/-- A file with the settlements of a segment: its name and the settlement over time of the nodes, by node number. -/
structure SettlementFile (K : Type) where
  file : Name
  settlement : PyDict ℕ (List K)

/-- What is taken from a settlement file, `run_rose/batch_post_process.py:198-200`. -/
def readSettlement (node : ℕ) (timeStep : ℤ) (f : SettlementFile K) : Except Err (ResultFile K) := do
  let history ← f.settlement.get node
  let v ← pyIndex history timeStep
  return ⟨(segmentAndScenario f.file).1, (segmentAndScenario f.file).2, v⟩

/-- `get_batch_cumulative_settlement`, `run_rose/batch_post_process.py:172-219`. -/
def batchSettlement (sos : SosFile K) (node : ℕ) (timeStep : ℤ) (dir : List (SettlementFile K)) : Except Err (BatchResult K) :=
  collectBatch sos (readSettlement node timeStep) (dir.filter fun f => endsWith f.file ".json".toList)

/-- A result file of a calculation: its name, the entry `name` and the histories of displacement and force of the soil by node. -/
structure DynamicFile (K : Type) where
  file : Name
  name : Name
  displacements : List (List K)
  forces : List (List K)

/-- `np.max(np.abs(rows[node]))`, `run_rose/batch_post_process.py:120-121`. -/
def largestAbs (rows : List (List K)) (node : ℕ) : Except Err K :=
  match rows[node]? with
  | none => .error .indexError
  | some r => npMax (r.map fun x => |x|)

/-- What is taken from a result file, `run_rose/batch_post_process.py:120-123`; `calculate_dynamic_stiffness`,
`run_rose/batch_post_process.py:58-65`. A zero displacement gives zero here, infinity in the code. -/
def readDynamic (node : ℕ) (f : DynamicFile K) : Except Err (ResultFile K) := do
  let u ← largestAbs f.displacements node
  let F ← largestAbs f.forces node
  let ids ← parseName f.name
  return ⟨ids.1, ids.2, F / u⟩

/-- `get_batch_dynamic_stiffnesses`, `run_rose/batch_post_process.py:95-141`. -/
def batchStiffness (sos : SosFile K) (node : ℕ) (train : Name) (dir : List (DynamicFile K)) : Except Err (BatchResult K) :=
  collectBatch sos (readDynamic node) (dir.filter fun f => endsWith f.file (train ++ ".pickle".toList))

/-! ### Tables -/

/-- A row of a table: coordinates, segment and value. -/
structure GisRow (K : Type) where
  x : K
  y : K
  segment : Name
  value : K
deriving DecidableEq

/-- `write_gis_csv_2`, the rows, `run_rose/batch_post_process.py:163-167`. -/
def gisRows (r : BatchResult K) : List (GisRow K) :=
  (r.coordinates.zip r.weighted).flatMap fun e =>
    if e.1.1 = e.2.1 then e.1.2.map fun c => ⟨c.1, c.2, e.1.1, e.2.2⟩ else []

/-- One segment of the soil data, `run_rose/batch_post_process.py:78-81`. -/
def scenarioStep (d : PyDict Name (List (K × K) × ℕ)) (e : Name × PyDict Name (Scenario K)) :
    Except Err (PyDict Name (List (K × K) × ℕ)) :=
  match e.2 with
  | [] => .error .indexError
  | s :: _ => .ok (d.set e.1 (s.2.coordinates, e.2.length))

/-- `get_and_write_n_scenarios_per_segment`, the rows, `run_rose/batch_post_process.py:78-90`. -/
def scenarioRows (sos : SosFile K) : Except Err (List (GisRow K)) := do
  let segments ← sos.foldlM scenarioStep []
  return segments.flatMap fun e => e.2.1.map fun c => ⟨c.1, c.2, e.1, (e.2.2 : K)⟩

/-! ### `batch_varandas` -/

/-- The files of one type of train, `run_rose/batch_varandas.py:23-32`. -/
def trainFiles (dir : List Name) (train : Name) : List Name := dir.filter fun f => endsWith f (train ++ ".pickle".toList)

/-- The files that are calculated together, `run_rose/batch_varandas.py:22-38`. -/
def trainTriples (dir : List Name) : Except Err (List (Name × Name × Name)) :=
  let intercity := trainFiles dir "intercity".toList
  let sprinter := trainFiles dir "sprinter".toList
  let cargo := trainFiles dir "cargo".toList
  if intercity.length = sprinter.length ∧ sprinter.length = cargo.length then .ok (intercity.zip (sprinter.zip cargo))
  else .error .assertion

end Rose
