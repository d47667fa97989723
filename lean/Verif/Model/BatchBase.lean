/-
Model of the calculations of `run_rose/batch_calculation.py`: the base model, and the calculation of each scenario (what is
stored of it is in `Model/BatchRun`). Numbers are exact here.
-/
import Verif.Model.Demo
import Verif.Model.BatchRun

set_option linter.unusedSectionVars false

namespace Rose

/-- The attribute `name` of `TrainType`, `rose/pre_process/default_trains.py:7-16`; python raises for other names. -/
def trainByName (name : String) : Option TrainType :=
  [("DOUBLEDEKKER", TrainType.doubleDekker), ("SPRINTER_SLT", .sprinterSLT), ("SPRINTER_SGM", .sprinterSGM), ("ICM", .icm),
   ("CARGO_FALNS5", .cargoFALNS5), ("CARGO_SGNS", .cargoSGNS), ("CARGO_TAPPS", .cargoTAPPS), ("TRAXX", .traxx),
   ("BR189", .br189)].lookup name

/-- The values at the top of `run_rose/batch_calculation.py:13-66`: one segment of `sleepers` sleepers at `distance` on soil of depth
`depth`, `perSleeper` rail elements per sleeper; start, speed, times and numbers of points of initialisation and calculation. -/
structure BatchInput where
  sleepers : ℕ
  distance : ℝ
  depth : ℝ
  perSleeper : ℕ
  start : ℝ
  speed : ℝ
  iniTime : ℝ
  nIni : ℕ
  calcTime : ℝ
  nCalc : ℕ

/-- The values of the track, `run_rose/batch_calculation.py:21-43, 106-132`; the soil is set per scenario. -/
noncomputable def batchValues : TrackValues where
  rail := { E := 210 * 10 ^ 9, nu := 0, rho := 7860, A := 69.6 / 10 ^ 2, I := 2.24 / 10 ^ 5, kappa := 0, l := 0, s1 := .inf, s2 := .inf }
  pad := { stiffness := 750 * 10 ^ 6, mass := some 5, damping := some (750 * 10 ^ 3) }
  soil := { stiffness := 0, mass := none, damping := none }
  sleeperMass := 140
  loads := []
  isRayleigh := false
  ratio := 0
  w1 := 0
  w2 := 0

/-- The velocities with which a scenario is calculated: those of the base model, `run_rose/batch_calculation.py:136-140`, those above
`1e-10` replaced by `v`, `run_rose/batch_calculation.py:194-195`. -/
noncomputable def BatchInput.velocities (i : BatchInput) (v : ℝ) : List ℝ :=
  (prepareCase 0 0 v (⟨0, 0, baseVelocities (demoTime i.iniTime i.nIni i.calcTime i.nCalc).length i.nIni i.speed, ()⟩ :
    BatchModel ℝ Unit)).velocities

/-- The ride of a scenario with the velocity `v`, `run_rose/batch_calculation.py:96-103, 134-178, 190-195`. -/
noncomputable def BatchInput.ride (i : BatchInput) (v : ℝ) (track : HorizontalTrack ℝ) (train : Train ℝ × List ℝ)
    (irr : ℕ → ℕ → ℝ) : TrackRide where
  track := track
  values := batchValues
  held := true
  train := train.1
  starts := train.2
  g := 9.81
  time := demoTime i.iniTime i.nIni i.calcTime i.nCalc
  vel := i.velocities v
  G := 9.1 / 10 ^ 7
  p := 3 / 2
  irr := irr
  isRayleigh := true
  ratio := 0.02
  w1 := 6.283
  w2 := 125.66

/-- The soil of a scenario, `run_rose/batch_calculation.py:190-192, 288-289`: values per metre of track times the sleeper distance. -/
def BatchInput.soil (i : BatchInput) (r : WolfResult ℝ) : RodValues ℝ :=
  ⟨r.stiffness * i.distance, none, some (r.damping * i.distance)⟩

/-- `set_base_model` and the calculation of one scenario, `run_rose/batch_calculation.py:70-198`, with a train of the type `ty`, one cart by
default (line 156). -/
noncomputable def BatchInput.calculate {H : Type*} [DecidableEq H] (hash : (Fin 3 → ℝ) → H) (i : BatchInput) (ty : TrainType)
    (irr : ℕ → ℕ → ℝ)
    (solver : TrimState ℝ → (List (ℕ × List (ℕ → ℝ)) → List (ℕ → ℝ) → ℕ → (ℕ → ℝ) → ℕ → ℝ) → SolverOutput ℝ) (v : ℝ)
    (r : WolfResult ℝ) : Except Err (CoupledResult ℝ) := do
  let c ← combinedTrack hash i.perSleeper i.distance [(i.sleepers, i.depth)]
  let train ← setFullTrain ty i.start 1
  let q := i.ride v (c.numbered i.distance) train irr
  q.mainOnCombined hash c i.distance [i.soil r] q.time.length solver

/-- The script: the type of train is looked up when the module is loaded, `run_rose/batch_calculation.py:47`; then every scenario is calculated
and its results are written before the next one, `run_rose/batch_calculation.py:269-299`. The directory holds what is stored per file; the
files of the dynamic stiffness are given. Writing keeps every tenth step, `content` (`sampled`, C133). -/
noncomputable def BatchInput.script {H ρ : Type*} [DecidableEq H] (hash : (Fin 3 → ℝ) → H) (i : BatchInput) (typeName : String)
    (irr : ℕ → ℕ → ℝ)
    (solver : TrimState ℝ → (List (ℕ × List (ℕ → ℝ)) → List (ℕ → ℝ) → ℕ → (ℕ → ℝ) → ℕ → ℝ) → SolverOutput ℝ)
    (content : CoupledResult ℝ → ρ) (results : List (WolfResult ℝ)) : List (Name × ρ) × Option Err :=
  match trainByName typeName with
  | none => ([], some .exception)
  | some ty => scriptLoop (fun r => (i.calculate hash ty irr solver i.speed r).map fun res => (resultFileName r.name, content res)) results

/-- The values of `run_rose/batch_calculation.py:13-66`. -/
noncomputable def batchInput : BatchInput where
  sleepers := 200
  distance := 3 / 5
  depth := 1
  perSleeper := 1
  start := 40.55
  speed := 38.9
  iniTime := 1 / 2
  nIni := 5000
  calcTime := 1.2
  nCalc := 8000

end Rose
