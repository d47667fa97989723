/-
Model of the train-track interaction: `rose/model/train_track_interaction.py`.
-/
import Verif.Model.Train
import Mathlib.Analysis.SpecialFunctions.Pow.Real

set_option linter.unusedSectionVars false

namespace Rose

/-! ### Contact law -/

/-- `np.power(x, p)` for real `x` and `p > 0`; `none` is NaN: a negative number has a power only for integral `p`,
`rose/model/train_track_interaction.py:202`. -/
noncomputable def npPower (x p : ℝ) : Option ℝ :=
  open Classical in
  if 0 ≤ x then some (x ^ p) else if ∃ n : ℤ, p = n then some (x ^ ⌊p⌋) else none

/-- `np.nan_to_num`, `rose/model/train_track_interaction.py:202`. -/
def nanToNum (x : Option ℝ) : ℝ := x.getD 0

/-- `calculate_wheel_rail_contact_force`, `rose/model/train_track_interaction.py:183-205`, for one wheel: `G` and `p` are
the Hertzian coefficient and power, `irr` the irregularity, `du` the differential displacement (`none` = NaN). -/
noncomputable def contactForce (G p irr : ℝ) (du : Option ℝ) : Except Err ℝ :=
  match du with
  | none => .error .valueError
  | some du => .ok (npSign (-irr - du) * nanToNum (npPower (1 / G * (-irr - du)) p))

/-- `calculate_static_contact_deformation`, `rose/model/train_track_interaction.py:170-181`, for a wheel with static
load `load`. -/
noncomputable def staticDeformation (G p load : ℝ) : ℝ := npSign load * G * |load| ^ (1 / p)

section generic
variable {K : Type*} [Field K]

/-! ### Forces on the track -/

/-- The contact of one wheel at one time: the dofs (vertical and rotation of both nodes of the rail element; `none` if
inactive) and the shape factors there, `rose/model/train_track_interaction.py:87-116, 145-163`. -/
structure WheelContact (K : Type*) where
  dofs : Fin 4 → Option ℕ
  shape : Fin 4 → K

/-- The masked assignment at one of the four dofs of a wheel, `rose/model/train_track_interaction.py:79-84`. -/
def wheelDofWrite (w : WheelContact K × K) (k : Fin 4) : List (ℕ × K) :=
  match w.1.dofs k with
  | none => []
  | some i => [(i, w.1.shape k * w.2)]

/-- The element assignments of `set_wheel_load_on_track`, `rose/model/train_track_interaction.py:66-85`, in order; inactive
dofs are masked. -/
def wheelLoadWrites (ws : List (WheelContact K × K)) : List (ℕ × K) :=
  ws.flatMap fun w => [0, 1, 2, (3 : Fin 4)].flatMap (wheelDofWrite w)

/-- `set_wheel_load_on_track`, `rose/model/train_track_interaction.py:66-85`, for the track force vector `F`. -/
def setWheelLoads (F : ℕ → K) (ws : List (WheelContact K × K)) : ℕ → K := writes F (wheelLoadWrites ws)

/-- The masked displacement at one of the four dofs of a wheel, `rose/model/train_track_interaction.py:219-224`. -/
def dofDisp (u : ℕ → K) (d : Option ℕ) : K :=
  match d with
  | none => 0
  | some i => u i

/-- `get_disp_track_at_wheels`, `rose/model/train_track_interaction.py:207-228`, for one wheel. -/
def dispAtWheel (u : ℕ → K) (w : WheelContact K) : K := ∑ k, dofDisp u (w.dofs k) * w.shape k

/-- `F[contact_dofs] += contact_force` (each dof once), `rose/model/train_track_interaction.py:252-253`. -/
def addAtDofs (F : ℕ → K) (l : List (ℕ × K)) : ℕ → K := writes F (l.map fun p => (p.1, F p.1 + p.2))

/-- `update_force_vector_contact`, `rose/model/train_track_interaction.py:230-259`, for given contact forces `f` (one per
wheel): `F` is the coupled force vector, `Ft` the track's, `nt` the number of track dofs. -/
def updateContactForces (nt : ℕ) (F Ft : ℕ → K) (wheels : List (ℕ × WheelContact K × K)) : ℕ → K :=
  let F := addAtDofs F (wheels.map fun w => (w.1, w.2.2))
  let Ft := setWheelLoads Ft (wheels.map fun w => (w.2.1, -w.2.2))
  fun i => if i < nt then Ft i else F i

/-- `get_interaction_forces_history`, `rose/model/train_track_interaction.py:54-63`, for one wheel at one time: mass and
contact dof of the wheel, recorded external force. -/
def interactionForce (g mass : K) (Fout : ℕ → K) (dof : ℕ) : K := -g * mass - Fout dof

/-! ### Direct sum -/

/-- Slice assignment `A[lo:hi, lo:hi] = B`, `rose/model/train_track_interaction.py:307-335`. -/
def assignBlock (A : ℕ → ℕ → K) (lo hi : ℕ) (B : ℕ → ℕ → K) : ℕ → ℕ → K :=
  fun i j => if lo ≤ i ∧ i < hi ∧ lo ≤ j ∧ j < hi then B (i - lo) (j - lo) else A i j

/-- `combine_global_matrices`, `rose/model/train_track_interaction.py:307-335`, for one of the matrices. -/
def combineMatrices (nt nv : ℕ) (track train : ℕ → ℕ → K) : ℕ → ℕ → K :=
  assignBlock (assignBlock (fun _ _ => 0) 0 nt track) nt (nt + nv) train

/-- `combine_rhs`, `rose/model/train_track_interaction.py:299-305`. -/
def combineRhs (nt nv : ℕ) (F track train : ℕ → K) : ℕ → K :=
  let F := fun i => if i < nt then track i else F i
  fun i => if nt ≤ i ∧ i < nt + nv then train (i - nt) else F i

/-- `initialise_ndof`, `rose/model/train_track_interaction.py:337-353`. -/
def shiftDofs (nt : ℕ) (idx : Fin 3 → Option ℕ) : Fin 3 → Option ℕ := fun k => (idx k).map (· + nt)

end generic

section order
variable {K : Type*} [Field K] [LinearOrder K] [IsStrictOrderedRing K]

/-! ### Position check -/

/-- `min` of a non-empty list, `rose/model/train_track_interaction.py:418-421`. -/
def listMin (a : K) (l : List K) : K := l.foldl min a
/-- `max` of a non-empty list, `rose/model/train_track_interaction.py:418-421`. -/
def listMax (a : K) (l : List K) : K := l.foldl max a

/-- `np.finfo(np.float32).eps`, `rose/model/train_track_interaction.py:426`. -/
def float32Eps : K := 1 / 8388608

/-- `__check_train_position`, `rose/model/train_track_interaction.py:411-432`: x-coordinates of the rail nodes and the
distances of each wheel over time (both non-empty, given as head and tail). -/
def checkTrainPosition (x : K) (xs : List K) (wheels : List (K × List K)) : Except Err Unit :=
  let lo := listMin x xs
  let hi := listMax x xs
  if wheels.any fun w => listMin w.1 w.2 < lo - float32Eps ∨ listMax w.1 w.2 < lo - float32Eps then .error .valueError
  else if wheels.any fun w => listMin w.1 w.2 > hi + float32Eps ∨ listMax w.1 w.2 > hi + float32Eps then
    .error .valueError
  else .ok ()

end order

/-! ### Wheel loads -/

/-- A model part of the track: a moving load or something else, with its identity, `rose/model/train_track_interaction.py:87-116`. -/
inductive TrackPart where
  | moving (id : ℕ)
  | other (id : ℕ)
  deriving DecidableEq

/-- `isinstance(model_part, MovingPointLoad)`, `rose/model/train_track_interaction.py:87-116`. -/
def TrackPart.isMoving : TrackPart → Bool
  | .moving _ => true
  | .other _ => false

/-- `initialize_wheel_loads`, `rose/model/train_track_interaction.py:434-481`: the list of model parts of the track;
`newLoads` are the loads created for the wheels. -/
def setWheelLoadParts (newLoads : List ℕ) (parts : List TrackPart) : List TrackPart :=
  (parts.filter fun p => !p.isMoving) ++ newLoads.map .moving

/-! ### Position of a wheel on its element -/

/-- `distance_np`, `rose/model/utils.py:373-382`, of points in space. -/
noncomputable def distance3 (a b : ℝ × ℝ × ℝ) : ℝ :=
  Real.sqrt ((a.1 - b.1) ^ 2 + (a.2.1 - b.2.1) ^ 2 + (a.2.2 - b.2.2) ^ 2)

/-- Distances between consecutive points, `rose/model/boundary_conditions.py:450-460`. -/
noncomputable def segmentLengths : List (ℝ × ℝ × ℝ) → List ℝ
  | a :: b :: l => distance3 a b :: segmentLengths (b :: l)
  | _ => []

/-- `calculate_cum_distances_coordinate_array`, `rose/pre_process/mesh_utils.py:42-53`. -/
noncomputable def cumDistances (pts : List (ℝ × ℝ × ℝ)) : List ℝ := runningSums 0 (segmentLengths pts)

/-- `calculate_distance_wheels_track_nodes`, `rose/model/train_track_interaction.py:118-143`, for one wheel: `first` are
the coordinates of the first node of the contact element per time step, `dist` the wheel distances. -/
noncomputable def wheelNodeDistances (first : List (ℝ × ℝ × ℝ)) (dist : List ℝ) : List ℝ :=
  let p0 := first.headD (0, 0, 0)
  let d0 := distance3 (0, 0, 0) p0 * npSign p0.1
  List.zipWith (fun d c => d - (c + d0)) dist (cumDistances first)

end Rose
