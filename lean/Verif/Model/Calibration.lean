/-
Model of the calibration script `run_rose/run_optimisation.py`: its base model, and `Optimisation` on it.
-/
import Verif.Model.OutputInterval
import Verif.Model.Optimisation
import Verif.Model.BatchBase

set_option linter.unusedSectionVars false

namespace Rose

/-- `displacements_out`, `rose/model/global_system.py:602`, of a coupled calculation whose solver stores the steps `indices`: one row per
stored step, one column per unknown of track and train. -/
def CoupledRun.displacementsOut {K H : Type*} [Field K] [LinearOrder K] [IsStrictOrderedRing K] [DecidableEq H]
    (hash : (Fin 3 → K) → H) (c : CoupledRun K) (flags : ℕ → Fin 3 → Bool) (indices : List ℕ)
    (solver : TrimState K → (List (ℕ × List (ℕ → K)) → List (ℕ → K) → ℕ → (ℕ → K) → ℕ → K) → SolverOutput K) :
    Except Err (List (List K)) := do
  let st ← c.loadedTrack.input.initialise flags
  let out := (solver (c.system hash st) (c.rhs hash st)).stored indices
  .ok ((List.range indices.length).map fun i => (List.range (c.system hash st).N).map (out.u i))

/-- The cart of the script, `run_rose/run_optimisation.py:45-74, 177-203`. -/
noncomputable def calibrationTrain : Train ℝ :=
  fullTrain [({ cartInertia := 128.8 * 10 ^ 3, cartStiffness := 2708 * 10 ^ 3, cartDamping := 64 * 10 ^ 3, bogieMass := 6 * 10 ^ 3,
                bogieInertia := 310, bogieStiffness := 4800 * 10 ^ 3, bogieDamping := 250, wheelMass := 3.5 * 10 ^ 3 },
    dataCart { length := 28, mass := 75.5 * 10 ^ 3, bogie := 10, wheel := 1.25, bogieLength := 2 } 0)]

/-- `set_base_model`, `run_rose/run_optimisation.py:11-220`: the track values are those of the batch (25-43, 116-140). The soil is
set by the optimisation. -/
noncomputable def calibrationRide (track : HorizontalTrack ℝ) : TrackRide where
  track := track
  values := batchValues
  held := true
  train := calibrationTrain
  starts := [26.55 + 14]
  g := 9.81
  time := demoTime (1 / 2) 5000 1.2 8000
  vel := demoVelocities (demoTime (1 / 2) 5000 1.2 8000).length 5000 38.9
  G := 9.1 / 10 ^ 7
  p := 3 / 2
  irr := fun _ _ => 0
  isRayleigh := true
  ratio := 0.02
  w1 := 6.283
  w2 := 125.66

/-- `displacements_out` of the base model with the soil `w`, `run_rose/run_optimisation.py:11-220`, `rose/model/global_system.py:602`. -/
noncomputable def calibrationRows {H : Type*} [DecidableEq H] (hash : (Fin 3 → ℝ) → H) (indices : List ℕ)
    (solver : TrimState ℝ → (List (ℕ × List (ℕ → ℝ)) → List (ℕ → ℝ) → ℕ → (ℕ → ℝ) → ℕ → ℝ) → SolverOutput ℝ)
    (w : RodValues ℝ) : Except Err (List (List ℝ)) := do
  let c ← combinedTrack hash 1 (3 / 5) [(200, 1)]
  let run ← (calibrationRide (c.numbered (3 / 5))).coupledOnCombined c (3 / 5) [w]
  run.displacementsOut hash (fun _ _ => true) indices solver

/-- `main` of the base model as the optimisation calls it, `rose/optimisation/optimisation.py:72`: the parts are rail, pads, sleepers, side
boundaries, soil and bottom (`run_rose/run_optimisation.py:161-163`), the fifth has the parameters. -/
noncomputable def calibrationMain {H : Type*} [DecidableEq H] (hash : (Fin 3 → ℝ) → H) (indices : List ℕ)
    (solver : TrimState ℝ → (List (ℕ × List (ℕ → ℝ)) → List (ℕ → ℝ) → ℕ → (ℕ → ℝ) → ℕ → ℝ) → SolverOutput ℝ)
    (m : OModel ℝ) : OModel ℝ × Except Err Unit :=
  match m.parts[4]? with
  | none => (m, .error .indexError)
  | some p =>
    match calibrationRows hash indices solver ⟨p.attr "stiffness", none, some (p.attr "damping")⟩ with
    | .error e => (m, .error e)
    | .ok rows => ({ m with results := fun n => if n = "displacements_out" then rows else m.results n }, .ok ())

/-- The optimisation of the script, `run_rose/run_optimisation.py:325-343`: `parts` are the six parts of the track; the flat list of two
observations is one row (see `firstResidual`). The 12999 time steps give `np.arange(800, 1299)`. -/
noncomputable def calibration (parts : List (OPart ℝ)) (results : String → List (List ℝ)) : Optimisation ℝ where
  model := ⟨parts, results⟩
  original := ⟨[], fun _ => []⟩
  partIndices := []
  parts := [⟨((parts[4]?).map OPart.id).getD 0, ["stiffness", "damping"]⟩]
  modelResults := [⟨["displacements_out"], [807, 807],
    (List.range ((demoTime (1 / 2) 5000 1.2 8000).length / 10 - 800)).map (800 + ·)⟩]
  observations := [[0.0008, 0.0008]]

end Rose
