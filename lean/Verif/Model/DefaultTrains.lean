/-
Model of `rose/pre_process/default_trains.py`: geometry and distribution factors of the default trains. Masses, inertias, stiffnesses and
dampings are in `Model/FullTrains`, except that `trainToDict` keeps the cart's mass as their representative.
-/
import Verif.Model.Assembly
import Mathlib.Algebra.Order.Field.Basic

set_option linter.unusedSectionVars false

namespace Rose

variable {K : Type*} [Field K] [LinearOrder K] [IsStrictOrderedRing K]

/-- `TrainType`, `rose/pre_process/default_trains.py:7-16`. -/
inductive TrainType
  | doubleDekker | sprinterSLT | sprinterSGM | icm | cargoFALNS5 | cargoSGNS | cargoTAPPS | traxx | br189
  deriving DecidableEq

/-- A bogie object: identity, wheel offsets, number of wheel objects, length, `rose/model/train_model.py:114-153`. -/
structure DBogie (K : Type*) where
  id : ℕ
  wheelDistances : List K
  wheels : ℕ
  length : K

/-- A cart object, `rose/model/train_model.py:337-376`. -/
structure DCart (K : Type*) where
  length : K
  mass : K
  bogieDistances : List K
  bogies : List (DBogie K)
  distribution : List K

/-- A train, `rose/model/train_model.py:567-602`. -/
structure DTrain (K : Type*) where
  cartDistances : List K
  carts : List (DCart K)

/-- Cart length, cart mass, bogie offset, wheel offset, bogie length of the trains with two bogies per cart,
`rose/pre_process/default_trains.py:55-545`. -/
structure TrainData (K : Type*) where
  length : K
  mass : K
  bogie : K
  wheel : K
  bogieLength : K

/-- `set_traxx_locomotive`, `rose/pre_process/default_trains.py:68-97`. -/
def traxxData : TrainData K := ⟨1895 / 100, 54000 / 2, 5175 / 1000, 13 / 10, 26 / 10⟩
/-- `set_br189_locomotive`, `rose/pre_process/default_trains.py:115-144`. -/
def br189Data : TrainData K := ⟨196 / 10, 55200 / 2, 495 / 100, 145 / 100, 29 / 10⟩
/-- `set_double_dekker_train`, `rose/pre_process/default_trains.py:162-192`. -/
def doubleDekkerData : TrainData K := ⟨241 / 10, 50000 / 2, 995 / 100, 125 / 100, 25 / 10⟩
/-- `set_sprinter_sgm_train`, `rose/pre_process/default_trains.py:276-306`. -/
def sgmData : TrainData K := ⟨2515 / 100, 46000 / 2, 9, 125 / 100, 25 / 10⟩
/-- `set_icm_train`, `rose/pre_process/default_trains.py:324-354`. -/
def icmData : TrainData K := ⟨273 / 10, 34300, 77 / 10, 9 / 10, 18 / 10⟩
/-- `set_cargo_SGNS_train`, `rose/pre_process/default_trains.py:371-401`. -/
def sgnsData : TrainData K := ⟨1974 / 100, 29480 / 2, 71 / 10, 91 / 100, 182 / 100⟩
/-- `set_cargo_FALNS5_train`, `rose/pre_process/default_trains.py:419-449`. -/
def falns5Data : TrainData K := ⟨1579 / 100, 60000 / 2, 5335 / 1000, 91 / 100, 182 / 100⟩
/-- `set_cargo_TAPPS_train`, `rose/pre_process/default_trains.py:467-497`. -/
def tappsData : TrainData K := ⟨1255 / 100, 65000 / 2, 3745 / 1000, 91 / 100, 182 / 100⟩

/-- A cart with two bogies of its own, e.g. `rose/pre_process/default_trains.py:74-97`; `id` numbers the objects; the distribution
factors keep the default of `Cart` (one per bogie). -/
def dataCart (d : TrainData K) (id : ℕ) : DCart K :=
  ⟨d.length, d.mass, [-d.bogie, d.bogie], [⟨2 * id, [-d.wheel, d.wheel], 2, d.bogieLength⟩, ⟨2 * id + 1, [-d.wheel, d.wheel], 2, d.bogieLength⟩],
    [1, 1]⟩

/-- `[start_coord - i * length for i in range(n)]`, `rose/pre_process/default_trains.py:72, 119, 167, 218, 281, 329, 376, 424, 472`. -/
def cartPositions (start length : K) (n : ℕ) : List K := (List.range n).map fun (i : ℕ) => start - (i : K) * length

/-- A train of equal carts, e.g. `rose/pre_process/default_trains.py:67-99`. -/
def dataTrain (d : TrainData K) (start : K) (n : ℕ) : DTrain K :=
  ⟨cartPositions start d.length n, (List.range n).map (dataCart d)⟩

/-- `cart_length`, `rose/pre_process/default_trains.py:211`. -/
def sltLength : K := 2 * (7785 / 1000)

/-- Bogie `i` of the SLT train, `rose/pre_process/default_trains.py:245-258`. -/
def sltBogie (i : ℕ) : DBogie K := ⟨i, [-(14 / 10), 14 / 10], 2, 28 / 10⟩

/-- Cart `i` of `n`, `rose/pre_process/default_trains.py:223-243`. -/
def sltCart (n i : ℕ) : DCart K :=
  ⟨sltLength, 46000 / 2, [sltLength / 2, -sltLength / 2], [sltBogie i, sltBogie (i + 1)],
    if i = 0 then [1, 1 / 2] else if i = n - 1 then [1 / 2, 1] else [1 / 2, 1 / 2]⟩

/-- `set_sprinter_slt_train`, `rose/pre_process/default_trains.py:197-260`. -/
def sltTrain (start : K) (n : ℕ) : Except Err (DTrain K) :=
  if n < 2 then .error .valueError
  else .ok ⟨cartPositions start sltLength n, (List.range n).map (sltCart n)⟩

/-- `set_train`, `rose/pre_process/default_trains.py:20-53`. -/
def setTrain (ty : TrainType) (start : K) (n : ℕ) : Except Err (DTrain K) :=
  match ty with
  | .doubleDekker => .ok (dataTrain doubleDekkerData start n)
  | .sprinterSLT => sltTrain start n
  | .sprinterSGM => .ok (dataTrain sgmData start n)
  | .icm => .ok (dataTrain icmData start n)
  | .cargoFALNS5 => .ok (dataTrain falns5Data start n)
  | .cargoSGNS => .ok (dataTrain sgnsData start n)
  | .cargoTAPPS => .ok (dataTrain tappsData start n)
  | .traxx => .ok (dataTrain traxxData start n)
  | .br189 => .ok (dataTrain br189Data start n)

/-- The locomotive of `build_cargo_train`, `rose/pre_process/default_trains.py:517-523`. -/
def locoData : TrainType → Except Err (TrainData K)
  | .traxx => .ok traxxData
  | .br189 => .ok br189Data
  | _ => .error .valueError

/-- The wagon of `build_cargo_train`, `rose/pre_process/default_trains.py:525-533`. -/
def wagonData : TrainType → Except Err (TrainData K)
  | .cargoTAPPS => .ok tappsData
  | .cargoFALNS5 => .ok falns5Data
  | .cargoSGNS => .ok sgnsData
  | _ => .error .valueError

/-- `build_cargo_train`, `rose/pre_process/default_trains.py:501-546`: without a locomotive `carts[0]` raises. The wagons are deep
copies. -/
def buildCargo (start : K) (loco wagon : TrainType) (nLoco nWagon : ℕ) : Except Err (DTrain K) :=
  match locoData loco, wagonData wagon with
  | .error e, _ => .error e
  | _, .error e => .error e
  | .ok l, .ok w =>
    if nLoco = 0 then .error .indexError
    else .ok ⟨cartPositions start l.length nLoco ++
        (List.range nWagon).map (fun (i : ℕ) => start - l.length / 2 - w.length / 2 - w.length * (i : K)),
      (List.range nLoco).map (dataCart l) ++ (List.range nWagon).map fun i => dataCart w (nLoco + i)⟩

/-- `train_class_to_dict`, `rose/pre_process/default_trains.py:588-621`, geometry and cart mass: wheel offsets, bogie length, bogie offsets,
cart length, cart positions, cart mass. -/
structure TrainDict (K : Type*) where
  wheelDistances : List K
  bogieLength : K
  bogieDistances : List K
  cartLength : K
  cartDistances : List K
  cartMass : K

/-- `train_class_to_dict`, `rose/pre_process/default_trains.py:588-621`: the values of the first cart and its first bogie. -/
def trainToDict (t : DTrain K) : Except Err (TrainDict K) :=
  match t.carts with
  | [] => .error .indexError
  | c :: _ =>
    match c.bogies with
    | [] => .error .indexError
    | b :: _ => .ok ⟨b.wheelDistances, b.length, c.bogieDistances, c.length, t.cartDistances, c.mass⟩

end Rose
