/-
Data sheets of the default trains: what a user finds when measuring and weighing them. Independent of the way the trains
are composed of carts, bogies and wheels.
-/
import Verif.Model.DefaultTrains

set_option linter.unusedSectionVars false

namespace Rose.Spec

/-- Data sheet of a train of equal carts: distance between the middles of successive carts, offsets of the four axles from the middle
of the cart (from the rear), and the mass (kg) which each wheel carries when the train stands still, itself included. -/
structure TrainSheet (K : Type*) where
  pitch : K
  axles : List K
  carried : K

variable {K : Type*} [Field K] [LinearOrder K] [IsStrictOrderedRing K]

/-- The data sheets of the trains with two bogies per cart. (The SLT, which has shared bogies, is not in this table; the row below
is not used.) -/
def trainSheet : TrainType → TrainSheet K
  | .traxx => ⟨18.95, [-6.475, -3.875, 3.875, 6.475], 12500⟩
  | .br189 => ⟨19.6, [-6.4, -3.5, 3.5, 6.4], 12650⟩
  | .doubleDekker => ⟨24.1, [-11.2, -8.7, 8.7, 11.2], 9250⟩
  | .sprinterSGM => ⟨25.15, [-10.25, -7.75, 7.75, 10.25], 8050⟩
  | .icm => ⟨27.3, [-8.6, -6.8, 6.8, 8.6], 10000⟩
  | .cargoSGNS => ⟨19.74, [-8.01, -6.19, 6.19, 8.01], 6435⟩
  | .cargoFALNS5 => ⟨15.79, [-6.245, -4.425, 4.425, 6.245], 11800⟩
  | .cargoTAPPS => ⟨12.55, [-4.655, -2.835, 2.835, 4.655], 12958.325⟩
  | .sprinterSLT => ⟨0, [], 0⟩

end Rose.Spec
