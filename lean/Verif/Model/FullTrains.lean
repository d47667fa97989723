/-
Model of `rose/pre_process/default_trains.py`, continued: the masses, inertias, stiffnesses and dampings of the default trains, and the
train objects of `rose/model/train_model.py` which `set_train` and `build_cargo_train` return.
-/
import Verif.Model.DefaultTrains
import Verif.Model.TrainSystem

set_option linter.unusedSectionVars false

namespace Rose

variable {K : Type*} [Field K] [LinearOrder K] [IsStrictOrderedRing K]

/-- Inertia, stiffness and damping of a cart, mass, inertia, stiffness and damping of a bogie, mass of a wheel
(the mass of a cart is in `TrainData`), `rose/pre_process/default_trains.py:55-497`. -/
structure BodyData (K : Type*) where
  cartInertia : K
  cartStiffness : K
  cartDamping : K
  bogieMass : K
  bogieInertia : K
  bogieStiffness : K
  bogieDamping : K
  wheelMass : K

/-- The constants of the default trains, `rose/pre_process/default_trains.py:75-97` (Traxx), `122-144` (BR189), `170-192` (double dekker),
`224-258` (SLT), `284-306` (SGM), `332-354` (ICM), `379-401` (SGNS), `427-449` (FALNS5), `475-497` (TAPPS). -/
def bodyData : TrainType → BodyData K
  | .traxx => ⟨1558125 / 2, 24000000, 71000, 7000 / 2, 9333 / 2, 2232000, 36700, 4000⟩
  | .br189 => ⟨1592750 / 2, 24000000, 71000, 7000 / 2, 93333 / 10 / 2, 2232000, 36700, 4000⟩
  | .doubleDekker => ⟨128800 / 2, 2708000, 64000, 6000 / 2, 310 / 2, 4800000, 250, 1500⟩
  | .sprinterSLT => ⟨73400 / 2, 2468000, 50200, 3200 / 2, 170 / 2, 4400000, 590, 1500⟩
  | .sprinterSGM => ⟨73400 / 2, 2468000, 50200, 3200 / 2, 170 / 2, 4400000, 590, 1500⟩
  | .icm => ⟨91500, 10000000, 42500, 1495, 1900, 2612000, 52200, 6775 / 10⟩
  | .cargoSGNS => ⟨784200 / 2, 32700000, 802000, 5000 / 2, 2100 / 2, 3270000, 80200, 1500⟩
  | .cargoFALNS5 => ⟨248278 / 2, 237000000, 802000, 5200 / 2, 2100 / 2, 2370000, 80200, 3000⟩
  | .cargoTAPPS => ⟨1558125 / 2, 24000000, 71000, 93333 / 10 / 2, 9300 / 2, 2232000, 36700, 2500⟩

/-- A cart with its constants, e.g. `rose/pre_process/default_trains.py:74-84`: the bogie objects with their offsets. -/
def fullCart (k : BodyData K) (c : DCart K) : Cart K :=
  ⟨c.mass, k.cartInertia, k.cartStiffness, k.cartDamping, (c.bogies.map DBogie.id).zip c.bogieDistances, c.distribution⟩

/-- A bogie with its constants and wheels, e.g. `rose/pre_process/default_trains.py:86-97`; `distribution_factor` stays empty. -/
def fullBogie (k : BodyData K) (b : DBogie K) : Bogie K :=
  ⟨k.bogieMass, k.bogieInertia, k.bogieStiffness, k.bogieDamping, b.wheelDistances.map fun d => (k.wheelMass, d), []⟩

/-- The bogie object with identity `b` in a list of carts with their constants, `rose/pre_process/default_trains.py:86-97`. -/
def lookupBogie (l : List (BodyData K × DCart K)) (b : ℕ) : Bogie K :=
  match (l.flatMap fun p => p.2.bogies.map fun d => (p.1, d)).find? (fun q => q.2.id = b) with
  | some q => fullBogie q.1 q.2
  | none => ⟨0, 0, 0, 0, [], []⟩

/-- The train made of carts with their constants, e.g. `rose/pre_process/default_trains.py:67-99`. -/
def fullTrain (l : List (BodyData K × DCart K)) : Train K := ⟨l.map fun p => fullCart p.1 p.2, lookupBogie l⟩

/-- `set_train`, `rose/pre_process/default_trains.py:20-53`: the train and its `cart_distances`. -/
def setFullTrain (ty : TrainType) (start : K) (n : ℕ) : Except Err (Train K × List K) :=
  match setTrain ty start n with
  | .error e => .error e
  | .ok t => .ok (fullTrain (t.carts.map fun c => (bodyData ty, c)), t.cartDistances)

/-- `build_cargo_train`, `rose/pre_process/default_trains.py:501-546`: the first `nLoco` carts are locomotives, the others wagons. -/
def buildFullCargo (start : K) (loco wagon : TrainType) (nLoco nWagon : ℕ) : Except Err (Train K × List K) :=
  match buildCargo start loco wagon nLoco nWagon with
  | .error e => .error e
  | .ok t => .ok (fullTrain ((List.replicate nLoco (bodyData loco) ++ List.replicate nWagon (bodyData wagon)).zip t.carts),
      t.cartDistances)

end Rose
