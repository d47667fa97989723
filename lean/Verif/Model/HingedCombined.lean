/-
Model of the scripts `run_rose/demo_semi_rigid.py` and `run_rose/demo_semi_rigid_rf.py` up to the results of the calculations: a track
combined from segments whose rail has a hinge, and a train on it.
-/
import Verif.Model.HingedRide
import Verif.Model.Demo

set_option linter.unusedSectionVars false

namespace Rose

section system
variable {ι : Type*} [DecidableEq ι]

/-- The system of a combined track with a hinge of fixity factor `f` at `xh`, `run_rose/demo_semi_rigid.py:79-161`: as
`CombinedTrack.system`, with the parts of the split rail in place of the rail (lines 158-159; the hinge with its mass is not among the
parts). `create_hinge_model_part` comes before the boundaries and the values of the soils (lines 112, 119-120, 141-143). -/
noncomputable def CombinedTrack.hingedSystem (c : CombinedTrack ι ℝ) (length : ℝ) (v : TrackValues) (soils : List (RodValues ℝ))
    (f xh : ℝ) (held : Bool) : Except Err (SystemInput ℝ) := do
  let t := c.numbered length
  let pieces ← t.hingedRail v.rail.E v.rail.I f t.lengthElement xh
  let bottoms ← c.soils.mapM fun s => bottomBoundary (fun k => (t.store k).pos 1) ((c.placeAll s.1).map fun e => [e.1, e.2])
  if soils.length < c.soils.length then .error .indexError else
  let sides ← match pieces.head?.bind (fun p => p.nodes.head?), pieces.getLast?.bind (fun p => p.nodes.getLast?) with
    | some a, some b => .ok [a, b]
    | _, _ => .error .indexError
  let rails ← pieces.mapM (t.pieceAssembly v.rail)
  .ok {
    n := t.meshNodes.length
    parts := rails ++ [
      rodAssembly v.pad (t.placed t.pads) (t.padNodes.map t.position),
      sleeperAssembly v.sleeperMass (t.sleepers.map t.position)] ++
      (soils.zip c.soils).map fun s =>
        rodAssembly s.1 (t.placed (c.placeAll s.2.1)) ((s.2.2.map c.place).map t.position)
    loads := v.loads
    constraints := (if held then [⟨sides.map t.position, ![false, true, true]⟩] else []) ++
      bottoms.map fun b => ⟨b.map t.position, ![false, false, false]⟩
    isRayleigh := v.isRayleigh, ratio := v.ratio, w1 := v.w1, w2 := v.w2 }

/-- The coupled calculation of a train on a combined track with a hinge, `run_rose/demo_semi_rigid.py:79-189`: the values of the ride `q`
(its track is replaced by the combined one). -/
noncomputable def TrackRide.coupledOnHingedCombined (q : TrackRide) (c : CombinedTrack ι ℝ) (length : ℝ) (soils : List (RodValues ℝ))
    (f xh : ℝ) : Except Err (CoupledRun ℝ) := do
  let system ← c.hingedSystem length q.values soils f xh q.held
  { q with track := c.numbered length }.coupledOnCut f xh system

/-- `main` of the coupled model of such a ride, `rose/model/train_track_interaction.py:588-613`. -/
noncomputable def TrackRide.mainOnHingedCombined {H : Type*} [DecidableEq H] (hash : (Fin 3 → ℝ) → H) (q : TrackRide)
    (c : CombinedTrack ι ℝ) (length : ℝ) (soils : List (RodValues ℝ)) (f xh : ℝ) (times : ℕ)
    (solver : TrimState ℝ → (List (ℕ × List (ℕ → ℝ)) → List (ℕ → ℝ) → ℕ → (ℕ → ℝ) → ℕ → ℝ) → SolverOutput ℝ) :
    Except Err (CoupledResult ℝ) := do
  let run ← q.coupledOnHingedCombined c length soils f xh
  run.main hash (fun _ _ => true) times solver

end system

/-- `create_model` and `coupled_model.main()` for one train, `run_rose/demo_semi_rigid.py:74-189, 355-374`
(`run_rose/demo_semi_rigid_rf.py:75-188, 357-376`): geometry, values, time, velocities
and ride are those of `demo.py` (lines 12-71, 122-156, 163-187 repeat `run_rose/demo.py:12-71, 99-175`), with the hinge at `xh`. Simplification:
`output_interval` is 1, i.e. results are kept for all steps (every seventh in the script). -/
noncomputable def DemoInput.calculateHinged {H : Type*} [DecidableEq H] (hash : (Fin 3 → ℝ) → H) (i : DemoInput) (f xh : ℝ)
    (irr : ℕ → ℕ → ℝ)
    (solver : TrimState ℝ → (List (ℕ × List (ℕ → ℝ)) → List (ℕ → ℝ) → ℕ → (ℕ → ℝ) → ℕ → ℝ) → SolverOutput ℝ) (j : DemoJob) :
    Except Err (CoupledResult ℝ) := do
  let geo := demoGeometry i.perSleeper i.sleepers
  let c ← combinedTrack hash geo.perSleeper geo.distance geo.segments
  let soils := demoSoils geo.distance i.stiffness i.damping
  let _ ← c.hingedSystem geo.distance demoValues soils f xh true
  let train ← setFullTrain j.train i.start 1
  let q := i.ride j (c.numbered geo.distance) train irr
  q.mainOnHingedCombined hash c geo.distance soils f xh q.time.length solver

/-- `main`, `run_rose/demo_semi_rigid.py:323-334, 362`: one segment of 1000 sleepers, one rail element per sleeper (line 19). -/
noncomputable def semiRigidInput : DemoInput where
  perSleeper := 1
  sleepers := [1000]
  stiffness := [132 * 10 ^ 6]
  damping := [30 * 10 ^ 3]
  start := 20
  step := 0.00025

/-- `main`, `run_rose/demo_semi_rigid.py:322-374`: the hinge of fixity factor 0.9 at `500 * .6` (lines 328-329); the trains, speeds and running
times are those of `demo.py` (lines 344-351). -/
noncomputable def semiRigidScript {H : Type*} [DecidableEq H] (hash : (Fin 3 → ℝ) → H) (irr : DemoJob → ℕ → ℕ → ℝ)
    (solver : TrimState ℝ → (List (ℕ × List (ℕ → ℝ)) → List (ℕ → ℝ) → ℕ → (ℕ → ℝ) → ℕ → ℝ) → SolverOutput ℝ) :
    List (CoupledResult ℝ) × Option Err :=
  scriptLoop (fun j => semiRigidInput.calculateHinged hash 0.9 (500 * 0.6) (irr j) solver j) demoJobs

end Rose
