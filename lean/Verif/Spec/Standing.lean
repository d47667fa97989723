/-
Specification: a train that stands on the track (C184).
-/
import Verif.Model.TrainOnTrack
import Verif.Spec.TrainOnTrack

set_option linter.unusedSectionVars false

namespace Rose.Spec

/-- The train has no speed and the irregularities under its wheels do not change. -/
structure Standing (q : TrackRide) : Prop where
  speed : ∀ k, q.vel.getD k 0 = 0
  irregularities : ∀ w, ∀ t < q.time.length, q.irr w t = q.irr w 0

/-- Displacements of the nodes of the track and of the nodes of the train, in the order of the results. -/
structure Position where
  track : List (Fin 3 → ℝ)
  train : List (Fin 3 → ℝ)

/-- Results with the given displacements and without velocities and accelerations. -/
def stillRows (x : List (Fin 3 → ℝ)) : List (NodeRow ℝ) := x.map fun u => ⟨u, 0, 0⟩

/-- At all output indices the results have the displacements of the position and no velocities and accelerations. -/
def StaysIn (res : CoupledResult ℝ) (times : ℕ) (p : Position) : Prop :=
  ∀ t < times, res.trackRows[t]? = some (stillRows p.track) ∧ res.trainRows[t]? = some (stillRows p.train)

/-- At the output index `t`, all velocities and accelerations are reported as zero. -/
def StillAt (res : CoupledResult ℝ) (t : ℕ) : Prop :=
  ∃ track train, res.trackRows[t]? = some track ∧ res.trainRows[t]? = some train ∧
    ∀ row ∈ track ++ train, row.velocity = 0 ∧ row.acceleration = 0

/-- At the output index `t`, the displacements are those of the position. -/
def IsAt (res : CoupledResult ℝ) (t : ℕ) (p : Position) : Prop :=
  (res.trackRows[t]?).map (List.map NodeRow.displacement) = some p.track ∧
    (res.trainRows[t]?).map (List.map NodeRow.displacement) = some p.train

end Rose.Spec
