/-
Model of the element forces that a finished coupled calculation reports (`rose/model/train_track_interaction.py`: `finalise`;
`rose/model/global_system.py`: `calculate_force_in_elements`).
-/
import Verif.Model.ElementForces
import Verif.Model.CombinedTrack

set_option linter.unusedSectionVars false

namespace Rose

/-- `finalise` of the coupled model, `rose/model/train_track_interaction.py:579-587`: `self.track.calculate_force_in_elements()` with the results of the
nodes of the track; `element.force` by output index and model part of the track `sys`. Simplification: `super().finalise()` before it computes
the same forces for the elements in the mesh of the coupled model, which is not filled (`rose/model/global_system.py:592-605`). -/
noncomputable def trackForces (sys : SystemInput ℝ) (res : CoupledResult ℝ) : List (List (List (Fin 3 → ℝ))) :=
  res.trackRows.map fun row => sys.parts.map fun p => p.elementForces row

/-- `main` of the coupled model of a ride on a combined track, `rose/model/train_track_interaction.py:588-613`, with the forces of the elements. -/
noncomputable def TrackRide.mainForcesOnCombined {ι H : Type*} [DecidableEq ι] [DecidableEq H] (hash : (Fin 3 → ℝ) → H) (q : TrackRide)
    (c : CombinedTrack ι ℝ) (length : ℝ) (soils : List (RodValues ℝ)) (times : ℕ)
    (solver : TrimState ℝ → (List (ℕ × List (ℕ → ℝ)) → List (ℕ → ℝ) → ℕ → (ℕ → ℝ) → ℕ → ℝ) → SolverOutput ℝ) :
    Except Err (CoupledResult ℝ × List (List (List (Fin 3 → ℝ)))) := do
  let sys ← c.system length q.values soils q.held
  let res ← q.mainOnCombined hash c length soils times solver
  .ok (res, trackForces sys res)

end Rose
