/-
Model of the whole path of a train over a generated track: the wheel loads and the contact of the wheels computed from the
mesh, the velocities and the train (`rose/model/train_track_interaction.py`, `rose/model/boundary_conditions.py`).
-/
import Verif.Model.CoupledRun
import Verif.Model.TrackSystem

set_option linter.unusedSectionVars false

namespace Rose

/-- Coordinates of a node of the track, `rose/model/geometry.py:24-37`. -/
def HorizontalTrack.coords (t : HorizontalTrack ℝ) (k : ℕ) : ℝ × ℝ × ℝ :=
  ((t.store k).pos 0, (t.store k).pos 1, (t.store k).pos 2)

/-- `interpolate_cumulative_distance_on_nodes`, `rose/model/utils.py:48-70`, for one distance `x`. -/
noncomputable def interpCoords (cum : List ℝ) (pts : List (ℝ × ℝ × ℝ)) (x : ℝ) : ℝ × ℝ × ℝ :=
  (interpLinear (cum.zip (pts.map fun p => p.1)) x, interpLinear (cum.zip (pts.map fun p => p.2.1)) x,
    interpLinear (cum.zip (pts.map fun p => p.2.2)) x)

/-- The moving load of a wheel and its contact with the rail, for one wheel with `distances` `dist`, static load `load` and
irregularities `irr` per time index. The load: `rose/model/train_track_interaction.py:457-474`,
`rose/model/boundary_conditions.py:245-281, 359-387, 389-474, 530-639`; the contact: `rose/model/train_track_interaction.py:87-163,
170-205`. `b` is the rail part, the only contact part. Simplification: the position of a node in the node list is searched
in the whole list (`rose/model/boundary_conditions.py:553-562` searches between the first and the last element). -/
noncomputable def wheelOnRail (t : HorizontalTrack ℝ) (b : BeamPart ℝ) (time vel dist : List ℝ) (load G p : ℝ)
    (irr : ℕ → ℝ) : Except Err (RailWheel ℝ) := do
  let pts := t.rail.map t.coords
  let cum := cumDistances pts
  let path ← movingLoadDistances time vel (some (dist.headD 0))
  let act ← activeElements t.railElements.length cum path
  let _ ← contactParts [t.railElements.length] act
  let filtered := filterLoad cum (path.map fun _ => load) path
  let element := fun k => t.railElements.getD (act.getD k 0) (0, 0)
  let loaded := fun k => t.railElements.getD ((loadedElements act).getD k 0) (0, 0)
  let nodal := fun k =>
    let e := loaded k
    let rot := calculatePointRotation (t.coords e.1).1 (t.coords e.1).2.1 (t.coords e.2).1 (t.coords e.2).2.1
    let x := distance3 (t.coords (element k).1) (interpCoords cum pts (filtered.2.getD k 0))
    globalNodalLoads rot (timoshenkoFactor b) b.l x (0, filtered.1.getD k 0, 0) ⟨0, 0⟩
  let first := (List.range time.length).map fun k => t.coords (element k).1
  .ok {
    element := fun k => (t.position (element k).1, t.position (element k).2)
    shape := fun k => yShape (timoshenkoFactor b) b.l ((wheelNodeDistances first dist).getD k 0)
    load := fun i k =>
      let i0 := t.rail.idxOf (loaded k).1
      let i1 := t.rail.idxOf (loaded k).2
      ![scatterNodal i0 i1 (fun j => (nodal k j).1) i, scatterNodal i0 i1 (fun j => (nodal k j).2.1) i,
        scatterNodal i0 i1 (fun j => (nodal k j).2.2) i]
    static := staticDeformation G p load
    law := fun k x => match contactForce G p (irr k) (some x) with | .ok f => f | .error _ => 0 }

/-- A train on a generated track: the values of a script, `run_rose/demo.py:79-240`. `starts` are the `cart_distances`, `irr` the
irregularities at the wheels by wheel and time index (`rose/model/train_model.py:770-782`). -/
structure TrackRide where
  track : HorizontalTrack ℝ
  values : TrackValues
  held : Bool
  train : Train ℝ
  starts : List ℝ
  g : ℝ
  time : List ℝ
  vel : List ℝ
  G : ℝ
  p : ℝ
  irr : ℕ → ℕ → ℝ
  isRayleigh : Bool
  ratio : ℝ
  w1 : ℝ
  w2 : ℝ

/-- `wheel.distances` after `calculate_distances`, `rose/model/train_model.py:816-841` (for a shared bogie the last cart decides). -/
noncomputable def TrackRide.distances (r : TrackRide) (q : ℕ × ℕ) : List ℝ :=
  (travelled r.time r.vel).map (· + r.train.startX (fun i => r.starts.getD i 0) (.wheel q.1 q.2))

/-- `wheel.total_static_load`, `rose/model/train_model.py:747-768`. -/
noncomputable def TrackRide.staticLoad (r : TrackRide) (q : ℕ × ℕ) : ℝ :=
  ((totalStaticLoad r.train r.g StaticLoads.fresh).wheel q.1 q.2).getD 0

/-- `__check_train_position`, `rose/model/train_track_interaction.py:411-432`, for the rail and the wheels of the ride; a rail or
a wheel without entries raises. -/
noncomputable def TrackRide.check (r : TrackRide) : Except Err Unit :=
  match r.track.rail.map fun k => (r.track.store k).pos 0 with
  | [] => .error .valueError
  | x :: xs =>
    if (r.train.wheelList.map r.distances).any List.isEmpty then .error .valueError
    else checkTrainPosition x xs (r.train.wheelList.map fun q => ((r.distances q).headD 0, (r.distances q).tail))

/-- The coupled calculation of the ride on a track with the given system, `rose/model/train_track_interaction.py:434-500,
517-560`: the check of the positions, load and contact of every wheel. The track carries no other loads. -/
noncomputable def TrackRide.coupledOn (r : TrackRide) (system : SystemInput ℝ) : Except Err (CoupledRun ℝ) := do
  let length ← calculateLengthRail r.track.railPositions (some r.track.lengthElement)
  let b : BeamPart ℝ := { r.values.rail with l := length.getD r.track.lengthElement }
  r.check
  let rails ← ((List.range r.train.wheelList.length).zip r.train.wheelList).mapM fun w =>
    wheelOnRail r.track b r.time r.vel (r.distances w.2) (r.staticLoad w.2) r.G r.p (r.irr w.1)
  .ok {
    track := { system := system, timed := [] }
    railNodes := r.track.rail.map r.track.position
    railAct := ![true, true, true]
    train := r.train
    g := r.g
    start := fun i => r.starts.getD i 0
    rail := fun w => rails.getD w ⟨fun _ => (0, 0), fun _ _ => 0, fun _ _ _ => 0, 0, fun _ _ => 0⟩
    isRayleigh := r.isRayleigh, ratio := r.ratio, w1 := r.w1, w2 := r.w2 }

/-- The coupled calculation of the ride, `rose/model/train_track_interaction.py:434-500, 517-560`: the system of the track, then
`coupledOn`. -/
noncomputable def TrackRide.coupled (r : TrackRide) : Except Err (CoupledRun ℝ) := do
  let system ← r.track.system r.values r.held
  r.coupledOn system

/-- `main` of the coupled model of a ride, `rose/model/train_track_interaction.py:588-613`. -/
noncomputable def TrackRide.main {H : Type*} [DecidableEq H] (hash : (Fin 3 → ℝ) → H) (r : TrackRide) (times : ℕ)
    (solver : TrimState ℝ → (List (ℕ × List (ℕ → ℝ)) → List (ℕ → ℝ) → ℕ → (ℕ → ℝ) → ℕ → ℝ) → SolverOutput ℝ) :
    Except Err (CoupledResult ℝ) := do
  let c ← r.coupled
  c.main hash (fun _ _ => true) times solver

/-- The results that the node object of a part of the train has after the calculation of a ride (`CoupledRun.partRow`,
`rose/model/geometry.py:54-85`, `rose/model/train_track_interaction.py:366-369`). -/
noncomputable def TrackRide.partRow {H : Type*} [DecidableEq H] (hash : (Fin 3 → ℝ) → H) (r : TrackRide) (rows : List (NodeRow ℝ))
    (p : TrainPart) : Option (NodeRow ℝ) :=
  let m := r.train.initialMesh hash fun i => r.starts.getD i 0
  rows[m.mesh.idxOf (m.node p)]?

end Rose
