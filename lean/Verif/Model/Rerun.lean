/-
Model of a coupled model that is calculated more than once: what the objects of track and train keep between two calls of `main`
(`rose/model/train_track_interaction.py:507-566`, `rose/model/train_model.py:97-111, 310-334, 544-564, 747-782`).
-/
import Verif.Model.TrainOnTrack

set_option linter.unusedSectionVars false

namespace Rose

/-- What the objects of a coupled model keep between two calculations: the dof flags of the nodes of the track (`clean_model`,
`rose/model/train_track_interaction.py:507-524`, resets `index_dof` and `model_parts` but not the flags), the total static loads of bogies and
wheels (`rose/model/train_model.py:97-111, 310-334`) and the irregularities at the wheels (`rose/model/train_model.py:770-782`). Everything else is
computed again: distances and nodes of the train (816-896), lists of bogies and wheels (634-662), dof indices (672-685), matrices and the static force
vector (687-745), the wheel loads on the track (`rose/model/train_track_interaction.py:455-481` replaces them). -/
structure CoupledState where
  flags : ℕ → Fin 3 → Bool
  loads : StaticLoads ℝ
  irr : Option (ℕ → ℕ → ℝ)

/-- New objects: all dofs free (`rose/model/geometry.py:28-30`), no static loads (`rose/model/train_model.py:25-32, 135-153`), no irregularities. -/
def CoupledState.new : CoupledState := ⟨fun _ _ => true, StaticLoads.fresh, none⟩

/-- `wheel.total_static_load`, `rose/model/train_model.py:97-111`, after the loads of the train are computed. -/
def StaticLoads.onWheel (s : StaticLoads ℝ) (w : ℕ × ℕ) : ℝ := (s.wheel w.1 w.2).getD 0

/-- `TrackRide.coupledOn` for wheels with the given static loads, `rose/model/train_track_interaction.py:434-500, 517-560`. -/
noncomputable def TrackRide.coupledOnWith (r : TrackRide) (static : ℕ × ℕ → ℝ) (system : SystemInput ℝ) : Except Err (CoupledRun ℝ) := do
  let length ← calculateLengthRail r.track.railPositions (some r.track.lengthElement)
  let b : BeamPart ℝ := { r.values.rail with l := length.getD r.track.lengthElement }
  r.check
  let rails ← ((List.range r.train.wheelList.length).zip r.train.wheelList).mapM fun w =>
    wheelOnRail r.track b r.time r.vel (r.distances w.2) (static w.2) r.G r.p (r.irr w.1)
  .ok {
    track := { system := system, timed := [] }
    railNodes := r.track.rail.map r.track.position
    railAct := ![true, true, true]
    train := r.train
    g := r.g
    start := fun i => r.starts.getD i 0
    rail := fun w => rails.getD w ⟨fun _ => (0, 0), fun _ _ => 0, fun _ _ _ => 0, 0, fun _ _ => 0⟩
    isRayleigh := r.isRayleigh, ratio := r.ratio, w1 := r.w1, w2 := r.w2 }

/-- `initialise` of a coupled model whose objects are in the given state, up to the equations of the track,
`rose/model/train_track_interaction.py:498-566`: the train adds its static loads and irregularities to what its objects have
(`rose/model/train_model.py:747-782`), then the wheels are put on the track. `generated` are the irregularities generated by this call, by wheel and
time index, if irregularities are used; the field `irr` of the ride is not used. -/
noncomputable def TrackRide.prepare (r : TrackRide) (generated : Option (ℕ → ℕ → ℝ)) (system : SystemInput ℝ) (s : CoupledState) :
    Except Err (CoupledRun ℝ) :=
  TrackRide.coupledOnWith { r with irr := (initIrregularities generated s.irr).getD fun _ _ => 0 }
    (totalStaticLoad r.train r.g s.loads).onWheel system

/-- `main` of a coupled model whose objects are in the given state, `rose/model/train_track_interaction.py:588-613`: the results and the state of
the objects afterwards. A calculation that raises gives no state. -/
noncomputable def TrackRide.calculate {H : Type*} [DecidableEq H] (hash : (Fin 3 → ℝ) → H) (r : TrackRide) (generated : Option (ℕ → ℕ → ℝ))
    (system : SystemInput ℝ) (times : ℕ)
    (solver : TrimState ℝ → (List (ℕ × List (ℕ → ℝ)) → List (ℕ → ℝ) → ℕ → (ℕ → ℝ) → ℕ → ℝ) → SolverOutput ℝ) (s : CoupledState) :
    Except Err (CoupledResult ℝ × CoupledState) := do
  let c ← r.prepare generated system s
  let res ← c.main hash s.flags times solver
  .ok (res, ⟨flagsAfter res.track, totalStaticLoad r.train r.g s.loads, initIrregularities generated s.irr⟩)

/-- `main` called again and again on the same objects: the results of call number `k` (counted from 0) and the state afterwards. -/
noncomputable def TrackRide.calculateAgain {H : Type*} [DecidableEq H] (hash : (Fin 3 → ℝ) → H) (r : TrackRide)
    (generated : Option (ℕ → ℕ → ℝ)) (system : SystemInput ℝ) (times : ℕ)
    (solver : ℕ → TrimState ℝ → (List (ℕ × List (ℕ → ℝ)) → List (ℕ → ℝ) → ℕ → (ℕ → ℝ) → ℕ → ℝ) → SolverOutput ℝ) (s : CoupledState) :
    ℕ → Except Err (CoupledResult ℝ × CoupledState)
  | 0 => r.calculate hash generated system times (solver 0) s
  | k + 1 => do
    let x ← r.calculateAgain hash generated system times solver s k
    r.calculate hash generated system times (solver (k + 1)) x.2

end Rose
