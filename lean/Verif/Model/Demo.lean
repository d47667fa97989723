/-
Model of the demo scripts `run_rose/demo.py` and `run_rose/demo_rf.py` up to the results of the calculations (the result files are
in `Model/ElementForces`, `Model/Results`). Numbers are exact here, so that e.g. `int(14 / 0.00025)` is 56000.
-/
import Verif.Model.CombinedTrack
import Verif.Model.FullTrains
import Verif.Model.Accumulation

set_option linter.unusedSectionVars false

namespace Rose

/-- `geometry`, `run_rose/demo.py:12-21`, `run_rose/demo_rf.py:14-23`, `run_rose/demo_semi_rigid.py:12-21`,
`run_rose/demo_semi_rigid_rf.py:13-22`: numbers of sleepers and depths of the segments, sleeper distance and
rail elements per sleeper (2 in `demo`, 1 in the others). -/
structure DemoGeometry where
  segments : List (ℕ × ℝ)
  distance : ℝ
  perSleeper : ℕ

/-- `geometry`, `run_rose/demo.py:12-21`, for positive integers `fact` (1 by default). -/
noncomputable def demoGeometry (perSleeper : ℕ) (sleepers : List ℕ) (fact : ℕ := 1) : DemoGeometry where
  segments := (sleepers.map fun n => n / fact).zip (List.replicate sleepers.length 1)
  distance := 3 / 5 * fact
  perSleeper := perSleeper

/-- `materials`, `run_rose/demo.py:24-51, 108-125` (the same in `run_rose/demo_rf.py:26-53`, `run_rose/demo_semi_rigid.py:24-51`,
`run_rose/demo_semi_rigid_rf.py:25-52`): the values of the track; the Rayleigh factors of the track keep their default
(`rose/model/global_system.py:71-74`), soil and element length are set later. -/
noncomputable def demoValues : TrackValues where
  rail := { E := 210 * 10 ^ 9, nu := 0, rho := 7860, A := 69.6 / 10 ^ 4, I := 2.24 / 10 ^ 5, kappa := 0, l := 0, s1 := .inf, s2 := .inf }
  pad := { stiffness := 750 * 10 ^ 6, mass := some 5, damping := some (750 * 10 ^ 3) }
  soil := { stiffness := 0, mass := none, damping := none }
  sleeperMass := 140
  loads := []
  isRayleigh := false
  ratio := 0
  w1 := 0
  w2 := 0

/-- `soil_parameters`, `run_rose/demo.py:66-71, 127-129` (the same in `run_rose/demo_rf.py:68-73`, `run_rose/demo_semi_rigid.py:66-71`,
`run_rose/demo_semi_rigid_rf.py:67-72`): the values of the soil of each segment. -/
def demoSoils (distance : ℝ) (stiffness damping : List ℝ) : List (RodValues ℝ) :=
  List.zipWith (fun k c => ⟨k * distance, none, some (c * distance)⟩) stiffness damping

/-- `time_integration`, `run_rose/demo.py:54-63` (the same in `run_rose/demo_rf.py:56-65`, `run_rose/demo_semi_rigid.py:54-63`,
`run_rose/demo_semi_rigid_rf.py:55-64`): number of steps of the calculation phase. -/
noncomputable def demoSteps (runningTime step : ℝ) : ℕ := ⌊runningTime / step⌋₊

/-- The time steps, `run_rose/demo.py:99-105`: `nIni` points of the initialisation, `nCalc` of the calculation, the first of which is left out.
`nIni` is positive (5 in the scripts). -/
noncomputable def demoTime (iniTime : ℝ) (nIni : ℕ) (runningTime : ℝ) (nCalc : ℕ) : List ℝ :=
  let ini := linspace 0 iniTime nIni
  let last := ini.getLast?.getD 0
  ini ++ (linspace last (last + runningTime) nCalc).drop 1

/-- The velocities, `run_rose/demo.py:131-135`. -/
def demoVelocities (n nIni : ℕ) (v : ℝ) : List ℝ := (List.range n).map fun i => if i < nIni then 0 else v

/-- One train of a script: type, speed (`train_speed`) and `running_time`, `run_rose/demo.py:311-318`. -/
structure DemoJob where
  train : TrainType
  speed : ℝ
  runningTime : ℝ

/-- What the scripts share for all trains, `run_rose/demo.py:296-309`. -/
structure DemoInput where
  perSleeper : ℕ
  sleepers : List ℕ
  stiffness : List ℝ
  damping : List ℝ
  start : ℝ
  step : ℝ

/-- The ride that `create_model` sets up, `run_rose/demo.py:99-105, 131-175`: the initialisation takes 5 points in 0.0001 s; `irr` are the
irregularities of wheels and time steps. -/
noncomputable def DemoInput.ride (i : DemoInput) (j : DemoJob) (track : HorizontalTrack ℝ) (train : Train ℝ × List ℝ) (irr : ℕ → ℕ → ℝ) :
    TrackRide where
  track := track
  values := demoValues
  held := true
  train := train.1
  starts := train.2
  g := 9.81
  time := demoTime (1 / 10 ^ 4) 5 j.runningTime (demoSteps j.runningTime i.step)
  vel := demoVelocities (demoTime (1 / 10 ^ 4) 5 j.runningTime (demoSteps j.runningTime i.step)).length 5 j.speed
  G := 9.1 / 10 ^ 7
  p := 3 / 2
  irr := irr
  isRayleigh := true
  ratio := 0.02
  w1 := 6.283
  w2 := 125.66

/-- `create_model` and `coupled_model.main()` for one train, `run_rose/demo.py:74-177, 323-335`, `run_rose/demo_rf.py:76-181, 334-346`: `set_train` is called with its default of one cart
(line 152). Simplification: `output_interval` is 1, i.e. results are kept for all steps. -/
noncomputable def DemoInput.calculate {H : Type*} [DecidableEq H] (hash : (Fin 3 → ℝ) → H) (i : DemoInput)
    (irr : ℕ → ℕ → ℝ)
    (solver : TrimState ℝ → (List (ℕ × List (ℕ → ℝ)) → List (ℕ → ℝ) → ℕ → (ℕ → ℝ) → ℕ → ℝ) → SolverOutput ℝ) (j : DemoJob) :
    Except Err (CoupledResult ℝ) := do
  let geo := demoGeometry i.perSleeper i.sleepers
  let c ← combinedTrack hash geo.perSleeper geo.distance geo.segments
  let soils := demoSoils geo.distance i.stiffness i.damping
  let _ ← c.system geo.distance demoValues soils true
  let train ← setFullTrain j.train i.start 1
  let q := i.ride j (c.numbered geo.distance) train irr
  q.mainOnCombined hash c geo.distance soils q.time.length solver

/-- A loop that writes a file after each calculation: the results written before the first exception, and the exception,
`run_rose/demo.py:319-335`. -/
def scriptLoop {α β : Type*} (f : α → Except Err β) : List α → List β × Option Err
  | [] => ([], none)
  | a :: as =>
    match f a with
    | .error e => ([], some e)
    | .ok b => (b :: (scriptLoop f as).1, (scriptLoop f as).2)

/-- `main`, `run_rose/demo.py:296-309, 326-327`. -/
noncomputable def demoInput : DemoInput where
  perSleeper := 2
  sleepers := [500, 500]
  stiffness := [132 * 10 ^ 6, 214 * 10 ^ 7]
  damping := [30 * 10 ^ 3, 20 * 10 ^ 3]
  start := 20
  step := 0.00025

/-- The trains of `main`, `run_rose/demo.py:311-318`. -/
noncomputable def demoJobs : List DemoJob :=
  [⟨.doubleDekker, 140 / 3.6, 14⟩, ⟨.sprinterSLT, 140 / 3.6, 14⟩, ⟨.sprinterSGM, 140 / 3.6, 14⟩,
   ⟨.cargoTAPPS, 80 / 3.6, 23⟩, ⟨.traxx, 80 / 3.6, 23⟩, ⟨.br189, 80 / 3.6, 23⟩]

/-- `main`, `run_rose/demo.py:295-335`. -/
noncomputable def demoScript {H : Type*} [DecidableEq H] (hash : (Fin 3 → ℝ) → H) (irr : DemoJob → ℕ → ℕ → ℝ)
    (solver : TrimState ℝ → (List (ℕ × List (ℕ → ℝ)) → List (ℕ → ℝ) → ℕ → (ℕ → ℝ) → ℕ → ℝ) → SolverOutput ℝ) :
    List (CoupledResult ℝ) × Option Err :=
  scriptLoop (fun j => demoInput.calculate hash (irr j) solver j) demoJobs

/-- `main` of `run_rose/demo_rf.py:298-319, 337-338`: 1000 segments of one sleeper; `stiffness` and `damping` are the values of the random
fields (`rose/utils/random_field.py`). -/
noncomputable def rfInput (stiffness damping : List ℝ) : DemoInput where
  perSleeper := 1
  sleepers := List.replicate 1000 1
  stiffness := stiffness
  damping := damping
  start := 20
  step := 0.00025

end Rose
