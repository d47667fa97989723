/-
Model of the moving point load: `rose/model/boundary_conditions.py:175-639` and its helpers in `rose/model/utils.py`.
Positions along the track are exact numbers; lists are indexed by time step or node.
-/
import Verif.Model.System

set_option linter.unusedSectionVars false

namespace Rose

section generic
variable {K : Type*} [Field K] [LinearOrder K] [IsStrictOrderedRing K]

/-! ### Position -/

/-- `np.append(a, a + np.cumsum(d))`: running sums starting at `a`, `rose/model/utils.py:82-84`. -/
def runningSums (a : K) : List K → List K
  | [] => [a]
  | d :: ds => a :: runningSums (a + d) ds

/-- `calculate_cum_distance_from_velocity`, `rose/model/utils.py:73-85`. Differing lengths of the two arrays raise
(numpy would broadcast if one of the difference arrays had length one; this is not modelled). -/
def cumDistanceFromVelocity (time velocities : List K) : Except Err (List K) :=
  if time.length = velocities.length then
    .ok (runningSums 0 (List.zipWith (· * ·) (npDiff time) velocities.dropLast))
  else .error .valueError

/-- `calculate_cumulative_distance_moving_load`, `rose/model/boundary_conditions.py:462-474`; `start = none` is the
default of an unset start distance. -/
def movingLoadDistances (time velocities : List K) (start : Option K) : Except Err (List K) :=
  (cumDistanceFromVelocity time velocities).map fun l => l.map (· + start.getD 0)

/-! ### Off the track -/

/-- `filter_data_outside_range`, `rose/model/utils.py:30-45`, elementwise. -/
def filterData (lo hi loc v : K) : K :=
  let v := if loc > hi then 0 else v
  if loc < lo then 0 else v

/-- `filer_location`, `rose/model/utils.py:12-27`, elementwise: the second mask reads the updated array. -/
def filterLocation (lo hi loc : K) : K :=
  let loc := if loc > hi then hi else loc
  if loc < lo then lo else loc

/-- `filter_load_outside_range`, `rose/model/boundary_conditions.py:389-421`, for one force component: forces and
positions after filtering; the limits are the first and the last entry of the nodes' cumulative distances. -/
def filterLoad (nodes forces dists : List K) : List K × List K :=
  let lo := nodes.headD 0
  let hi := nodes.getLastD 0
  (List.zipWith (filterData lo hi) dists forces, dists.map (filterLocation lo hi))

/-! ### Contact element -/

/-- `argmin` of a list of values where `none` is `inf`: the index of the first smallest value, `rose/model/boundary_conditions.py:446`. -/
def argminFrom (best : Option K) (bestIdx : ℕ) (i : ℕ) : List (Option K) → ℕ
  | [] => bestIdx
  | v :: vs =>
    match best, v with
    | some b, some x => if x < b then argminFrom (some x) i (i + 1) vs else argminFrom (some b) bestIdx (i + 1) vs
    | none, some x => argminFrom (some x) i (i + 1) vs
    | b, none => argminFrom b bestIdx (i + 1) vs

/-- `np.where(d > 0, d, np.inf).argmin() - 1`, `get_first_element_idx`, `rose/model/boundary_conditions.py:434-448`
(all elements have two nodes). -/
def firstElementIdx (nodes : List K) (x0 : K) : ℤ :=
  (argminFrom none 0 0 (nodes.map fun s => if s - x0 > 0 then some (s - x0) else none) : ℤ) - 1

/-- The loop of `set_active_elements`, `rose/model/boundary_conditions.py:373-381`, from pointer `i`.
`cum_distances_nodes[i + 1]` is read with `i + 1 ≥ 0`. -/
def activePointers (nodes : List K) (i : ℤ) : List K → List ℤ
  | [] => []
  | x :: xs =>
    let i := if i < (nodes.length : ℤ) - 2 ∧ x > nodes.getD (i + 1).toNat 0 then i + 1 else i
    i :: activePointers nodes i xs

/-- `set_active_elements`, `rose/model/boundary_conditions.py:359-387`: the element index per time step.
`coo_matrix` raises for a negative row index or one not below the number of elements. -/
def activeElements (nElements : ℕ) (nodes dists : List K) : Except Err (List ℕ) :=
  match dists with
  | [] => .error .indexError
  | x0 :: _ =>
    let is := activePointers nodes (firstElementIdx nodes x0) dists
    if is.all fun i => 0 ≤ i ∧ i < nElements then .ok (is.map Int.toNat) else .error .valueError

/-! ### Contact part -/

/-- The loop of `set_contact_model_part_as_function_of_time`, `rose/model/boundary_conditions.py:307-328`, from part
index `p` and `current_max_idx = mx`; `sizes` are the numbers of elements of the contact parts. -/
def contactPartsFrom (sizes : List ℕ) (p mx : ℕ) : List ℕ → Except Err (List ℕ)
  | [] => .ok []
  | e :: es =>
    if e ≥ mx then
      match sizes[p + 1]? with
      | some s => (contactPartsFrom sizes (p + 1) (mx + s) es).map ((p + 1) :: ·)
      | none => .error .indexError
    else (contactPartsFrom sizes p mx es).map (p :: ·)

/-- `set_contact_model_part_as_function_of_time`, `rose/model/boundary_conditions.py:297-328`. -/
def contactParts (sizes active : List ℕ) : Except Err (List ℕ) :=
  match sizes with
  | [] => .error .indexError
  | s :: _ => contactPartsFrom sizes 0 s active

/-! ### Nodes of the contact element -/

/-- The loop `new_node_indices`, `rose/model/boundary_conditions.py:565-571`: pointer into the list of distinct contact
elements, per time step. Elements are identified by their index (distinct elements compare unequal). -/
def uniquePointers (unique : List ℕ) (i : ℕ) : List ℕ → List ℕ
  | [] => []
  | e :: es =>
    let i := if unique[i]? = some e then i + 1 else i
    (i - 1) :: uniquePointers unique i es

/-- `list(dict.fromkeys(element_idxs))`, `rose/model/boundary_conditions.py:542`. -/
def distinctInOrder (l : List ℕ) : List ℕ := l.foldl (fun acc e => if e ∈ acc then acc else acc ++ [e]) []

/-- The element whose nodes are loaded at each time step, `rose/model/boundary_conditions.py:540-573`. -/
def loadedElements (active : List ℕ) : List ℕ :=
  (uniquePointers (distinctInOrder active) 0 active).map fun k => (distinctInOrder active).getD k 0

/-! ### Interpolation of the position -/

/-- `scipy.interpolate.interp1d(s, r)(x)` (linear) for `x` between the first and the last `s`, `rose/model/utils.py:61-63`. -/
def interpLinear : List (K × K) → K → K
  | (s0, r0) :: (s1, r1) :: rest, x =>
    if x ≤ s1 ∨ rest = [] then r0 + (x - s0) / (s1 - s0) * (r1 - r0) else interpLinear ((s1, r1) :: rest) x
  | _, _ => 0

/-! ### Nodal forces -/

/-- Result reference of the distribution functions: a fresh array of zeros, or the shared buffer of the object
(`self.__shear_force_vector`, `self.__z_moment_vector`), `rose/model/boundary_conditions.py:476-529, 579-639`. -/
inductive Ref where
  | zeros
  | shared

/-- The buffers: two shear forces and two moments, `rose/model/boundary_conditions.py:278-295, 476-529`. -/
structure Buffers (K : Type*) where
  shear : Fin 2 → K
  moment : Fin 2 → K

/-- Reading a returned array, `rose/model/boundary_conditions.py:579-639`. -/
def Ref.read (b : Fin 2 → K) : Ref → Fin 2 → K
  | .zeros => 0
  | .shared => b

/-- `__distribute_shear_force`, `rose/model/boundary_conditions.py:493-512`: writes the buffers and returns them. -/
def distributeShear (phi l x f : K) (_ : Buffers K) : Buffers K :=
  ⟨![f * yShape phi l x 0, f * yShape phi l x 2], ![f * yShape phi l x 1, f * yShape phi l x 3]⟩

/-- `__distribute_z_moment`, `rose/model/boundary_conditions.py:514-529`: writes the same buffers. -/
def distributeMoment (phi l x m : K) (_ : Buffers K) : Buffers K :=
  ⟨![m * zRotShape phi l x 0, m * zRotShape phi l x 2], ![m * zRotShape phi l x 1, m * zRotShape phi l x 3]⟩

/-- `__distribute_normal_force`, `rose/model/boundary_conditions.py:476-491`. -/
def distributeNormal (l x f : K) : Fin 2 → K := ![f * normalShape l x 0, f * normalShape l x 1]

/-- The local nodal loads of `update_force`, `rose/model/boundary_conditions.py:608-630`: `math.isclose(f, 0)` holds
for `f = 0` only (relative tolerance). Result: forces along the element, across it, and moments, at both nodes. -/
def localNodalLoads (phi l x : K) (f : K × K × K) (b : Buffers K) : (Fin 2 → K) × (Fin 2 → K) × (Fin 2 → K) :=
  let normal := if f.1 = 0 then 0 else distributeNormal l x f.1
  let rv := if f.2.1 = 0 then (b, Ref.zeros) else (distributeShear phi l x f.2.1 b, Ref.shared)
  let rz := if f.2.2 = 0 then (rv.1, Ref.zeros) else (distributeMoment phi l x f.2.2 rv.1, Ref.shared)
  let b := rz.1
  (normal, rv.2.read b.shear + rz.2.read b.shear, rv.2.read b.moment + rz.2.read b.moment)

end generic

/-- `update_force`, `rose/model/boundary_conditions.py:579-639`, for an element at angle `rot`: the global force
`f = (Fx, Fy, Mz)` at distance `x` from the first node is turned to element axes, distributed, and turned back;
the result is the triple `(Fx, Fy, Mz)` at each of the two nodes. -/
noncomputable def globalNodalLoads (rot phi l x : ℝ) (f : ℝ × ℝ × ℝ) (b : Buffers ℝ) : Fin 2 → ℝ × ℝ × ℝ :=
  let loc := localNodalLoads phi l x (rotatePoint rot f) b
  fun i => rotatePoint (-rot) (loc.1 i, loc.2.1 i, loc.2.2 i)

/-- The loop writing the nodal force vectors, `rose/model/boundary_conditions.py:635-639`: entry of one force vector at
node position `k` when the element nodes are at positions `i0`, `i1`. -/
def scatterNodal {K : Type*} [Field K] (i0 i1 : ℕ) (g : Fin 2 → K) (k : ℕ) : K :=
  (if k = i0 then g 0 else 0) + if k = i1 then g 1 else 0

end Rose
