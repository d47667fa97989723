/-
Specification of causality of the calculation of a train on a track (C180).
-/
import Verif.Model.TrainOnTrack

namespace Rose.Spec

/-- The rides have the same track, train, start and contact, and up to the output index `s` the same times, speeds and irregularities. What
comes after may differ, also the number of output indices. -/
structure SameUntil (q q' : TrackRide) (s : ℕ) : Prop where
  rest : ∃ time vel irr, q' = { q with time := time, vel := vel, irr := irr }
  time : ∀ j ≤ s, q'.time.getD j 0 = q.time.getD j 0
  speed : ∀ j < s, q'.vel.getD j 0 = q.vel.getD j 0
  irregularities : ∀ w, ∀ j ≤ s, q'.irr w j = q.irr w j

/-- Both calculations report the same displacements, velocities and accelerations on all nodes of track and train at all output indices up to
`s`. -/
def SameResults (r r' : CoupledResult ℝ) (s : ℕ) : Prop :=
  ∀ j ≤ s, ∃ track train, r.trackRows[j]? = some track ∧ r'.trackRows[j]? = some track ∧ r.trainRows[j]? = some train ∧ r'.trainRows[j]? = some train

end Rose.Spec
