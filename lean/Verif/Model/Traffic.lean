/-
Model of reading the traffic: `ReadTrainInfo` and `AccumulationModel.read_traffic`, `rose/model/accumulation_model.py`.
Counts of trains, hours and axles are natural numbers, days are integers; numbers are exact.
-/
import Verif.Model.Accumulation

set_option linter.unusedSectionVars false

namespace Rose

/-- One entry of the dictionary of trains: `nb-per-hour`, `nb-hours`, `nb-axles` and `forces` (one list per node),
`rose/model/accumulation_model.py:43-52`. -/
structure TrainEntry where
  name : String
  perHour : ℕ
  hours : ℕ
  axles : ℕ
  forces : List (List ℝ)

/-- The attributes of `ReadTrainInfo`, `rose/model/accumulation_model.py:23-36`. -/
structure TrainInfo where
  names : List String
  cyclesDay : List ℕ
  cycles : List ℤ
  forces : List (List (List ℝ))
  time : List ℝ
  cumulative : List ℝ
  stepsIndex : List ℕ

/-- `aux`, the axles a day, `rose/model/accumulation_model.py:46`. -/
def TrainEntry.cyclesDay (t : TrainEntry) : ℕ := t.perHour * t.hours * t.axles

/-- `aux * (self.end_time - self.start_time)`, `rose/model/accumulation_model.py:50`. -/
def TrainEntry.cycles (t : TrainEntry) (startDay endDay : ℤ) : ℤ := t.cyclesDay * (endDay - startDay)

/-- `np.max`, which raises for an empty list, `rose/model/accumulation_model.py:57`. -/
def npMaxInt : List ℤ → Except Err ℤ
  | [] => .error .valueError
  | x :: xs => .ok (xs.foldl max x)

/-- `ReadTrainInfo.__train_info`, `rose/model/accumulation_model.py:38-66`. A step 0 raises (`int` of infinity or not a
number). A negative largest number of cycles raises (`np.linspace` with a negative number of points, line 59; line 57
rounds towards zero and may pass). `index_cumulative_distributed` (lines 63-66) is not used anywhere and left out. -/
noncomputable def readTrainInfo (trains : List TrainEntry) (startDay endDay : ℤ) (steps : ℕ) : Except Err TrainInfo :=
  let cycles := trains.map fun t => t.cycles startDay endDay
  match npMaxInt cycles with
  | .error e => .error e
  | .ok top =>
    if steps = 0 ∨ top < 0 then .error .valueError
    else
      let n := top.toNat
      let outputs := n / steps
      .ok { names := trains.map TrainEntry.name
            cyclesDay := trains.map TrainEntry.cyclesDay
            cycles := cycles
            forces := trains.map TrainEntry.forces
            time := linspace startDay endDay outputs
            cumulative := linspace startDay ((n : ℝ) - 1) n
            stepsIndex := (linspace 0 ((n : ℝ) - 1) outputs).map fun x => ⌊x⌋₊ }

/-- `AccumulationModel.read_traffic`, `rose/model/accumulation_model.py:474-495`: number of nodes and traffic. -/
noncomputable def readTrafficFull (trains : List TrainEntry) (startDay endDay : ℤ) (steps : ℕ) : Except Err (ℕ × TrainInfo) :=
  match readTraffic (trains.map fun t => t.forces.length) with
  | .error e => .error e
  | .ok nodes => (readTrainInfo trains startDay endDay steps).map fun i => (nodes, i)

end Rose
