/-
Model of a train on a track with a semi-rigid hinge: the wheel loads and the contact of the wheels on a rail that consists of
several parts (`run_rose/demo_semi_rigid.py`, `rose/model/train_track_interaction.py`, `rose/model/boundary_conditions.py`).
-/
import Verif.Model.HingedSystem

set_option linter.unusedSectionVars false

namespace Rose

/-- The beam of a rail part of a split rail with its length after `initialize`, `rose/model/track.py:43-75`,
`rose/model/model_part.py:904-913`; cases as in `HorizontalTrack.pieceAssembly`. -/
noncomputable def HorizontalTrack.pieceBeam (t : HorizontalTrack ℝ) (rail : BeamPart ℝ) (p : RailPart ℝ) : Except Err (BeamPart ℝ) :=
  match calculateLengthRail (p.nodes.map fun i => (t.store i).pos)
      (if p.spring1.isNone ∧ p.spring2.isNone then some t.lengthElement else none) with
  | .error e => .error e
  | .ok none => .error .typeError
  | .ok (some l) => .ok { p.beam rail with l := l }

/-- The moving load of a wheel and its contact with a rail that consists of `parts` with their beams, for one wheel as in
`wheelOnRail`. The node and element lists of the parts are concatenated, `rose/model/train_track_interaction.py:441-471`. The load
takes the shape functions of the part that `set_contact_model_part_as_function_of_time` gives,
`rose/model/boundary_conditions.py:297-328, 592`, the contact those of the last rail part that holds the contact element,
`rose/model/train_track_interaction.py:155-163`. Simplification: the position of a node in the node list is searched in the whole list
(`rose/model/boundary_conditions.py:553-562` searches between the first and the last element). -/
noncomputable def wheelOnParts (t : HorizontalTrack ℝ) (parts : List (RailPart ℝ × BeamPart ℝ)) (time vel dist : List ℝ)
    (load G p : ℝ) (irr : ℕ → ℝ) : Except Err (RailWheel ℝ) := do
  let nodes := parts.flatMap fun q => q.1.nodes
  let elements := parts.flatMap fun q => q.1.elements
  let pts := nodes.map t.coords
  let cum := cumDistances pts
  let path ← movingLoadDistances time vel (some (dist.headD 0))
  let act ← activeElements elements.length cum path
  let part ← contactParts (parts.map fun q => q.1.elements.length) act
  let filtered := filterLoad cum (path.map fun _ => load) path
  let element := fun k => elements.getD (act.getD k 0) (0, 0)
  let loaded := fun k => elements.getD ((loadedElements act).getD k 0) (0, 0)
  let nodal := fun k => match parts[part.getD k 0]? with
    | none => fun _ => (0, 0, 0)
    | some q =>
      let e := loaded k
      let rot := calculatePointRotation (t.coords e.1).1 (t.coords e.1).2.1 (t.coords e.2).1 (t.coords e.2).2.1
      let x := distance3 (t.coords (element k).1) (interpCoords cum pts (filtered.2.getD k 0))
      globalNodalLoads rot (timoshenkoFactor q.2) q.2.l x (0, filtered.1.getD k 0, 0) ⟨0, 0⟩
  let first := (List.range time.length).map fun k => t.coords (element k).1
  .ok {
    element := fun k => (t.position (element k).1, t.position (element k).2)
    shape := fun k => match (parts.filter fun q => decide (element k ∈ q.1.elements)).getLast? with
      | none => fun _ => 0
      | some q => yShape (timoshenkoFactor q.2) q.2.l ((wheelNodeDistances first dist).getD k 0)
    load := fun i k =>
      let i0 := nodes.idxOf (loaded k).1
      let i1 := nodes.idxOf (loaded k).2
      ![scatterNodal i0 i1 (fun j => (nodal k j).1) i, scatterNodal i0 i1 (fun j => (nodal k j).2.1) i,
        scatterNodal i0 i1 (fun j => (nodal k j).2.2) i]
    static := staticDeformation G p load
    law := fun k x => match contactForce G p (irr k) (some x) with | .ok f => f | .error _ => 0 }

/-- `__check_train_position`, `rose/model/train_track_interaction.py:411-432`, for the concatenated nodes of the rail parts. -/
noncomputable def TrackRide.checkOn (r : TrackRide) (nodes : List ℕ) : Except Err Unit :=
  match nodes.map fun k => (r.track.store k).pos 0 with
  | [] => .error .valueError
  | x :: xs =>
    if (r.train.wheelList.map r.distances).any List.isEmpty then .error .valueError
    else checkTrainPosition x xs (r.train.wheelList.map fun q => ((r.distances q).headD 0, (r.distances q).tail))

/-- The coupled calculation of a ride on a track with the system `system`, whose rail is split by a hinge of fixity factor `f` at `xh`,
`run_rose/demo_semi_rigid.py:165-189`, `rose/model/train_track_interaction.py:434-500, 517-560`. -/
noncomputable def TrackRide.coupledOnCut (r : TrackRide) (f xh : ℝ) (system : SystemInput ℝ) : Except Err (CoupledRun ℝ) := do
  let pieces ← r.track.hingedRail r.values.rail.E r.values.rail.I f r.track.lengthElement xh
  let beams ← pieces.mapM (r.track.pieceBeam r.values.rail)
  r.checkOn (pieces.flatMap RailPart.nodes)
  let rails ← ((List.range r.train.wheelList.length).zip r.train.wheelList).mapM fun w =>
    wheelOnParts r.track (pieces.zip beams) r.time r.vel (r.distances w.2) (r.staticLoad w.2) r.G r.p (r.irr w.1)
  .ok {
    track := { system := system, timed := [] }
    railNodes := (pieces.flatMap RailPart.nodes).map r.track.position
    railAct := ![true, true, true]
    train := r.train
    g := r.g
    start := fun i => r.starts.getD i 0
    rail := fun w => rails.getD w ⟨fun _ => (0, 0), fun _ _ => 0, fun _ _ _ => 0, 0, fun _ _ => 0⟩
    isRayleigh := r.isRayleigh, ratio := r.ratio, w1 := r.w1, w2 := r.w2 }

/-- The coupled calculation of a ride on the track with a hinge of fixity factor `f` at `xh`, `run_rose/demo_semi_rigid.py:74-189`.
Simplification: one segment (several: `TrackRide.coupledOnHingedCombined`). -/
noncomputable def TrackRide.coupledOnHinged (r : TrackRide) (f xh : ℝ) : Except Err (CoupledRun ℝ) := do
  let system ← r.track.hingedSystem r.values f xh r.held
  r.coupledOnCut f xh system

/-- `main` of the coupled model of a ride on a track with a hinge, `rose/model/train_track_interaction.py:588-613`. -/
noncomputable def TrackRide.mainOnHinged {H : Type*} [DecidableEq H] (hash : (Fin 3 → ℝ) → H) (r : TrackRide) (f xh : ℝ) (times : ℕ)
    (solver : TrimState ℝ → (List (ℕ × List (ℕ → ℝ)) → List (ℕ → ℝ) → ℕ → (ℕ → ℝ) → ℕ → ℝ) → SolverOutput ℝ) :
    Except Err (CoupledResult ℝ) := do
  let c ← r.coupledOnHinged f xh
  c.main hash (fun _ _ => true) times solver

end Rose
