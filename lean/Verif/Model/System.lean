/-
Model of supports, Rayleigh damping, time stages, load ramps, the right hand side and input validation
(`rose/model/global_system.py`, `rose/model/boundary_conditions.py`, `rose/model/model_part.py`).
-/
import Verif.Model.Assembly

set_option linter.unusedSectionVars false

namespace Rose

/-! ### Supports -/

/-- A `ConstraintModelPart`: its nodes and the flags given to the constructor; `true` means free
(`rose/model/model_part.py:930-955`). -/
structure ConstraintPart where
  nodes : List ℕ
  free : Fin 3 → Bool

/-- `set_constraint_condition`, `rose/model/model_part.py:957-965`. The store maps a node to its dof flags. -/
def setConstraint (flags : ℕ → Fin 3 → Bool) (p : ConstraintPart) : ℕ → Fin 3 → Bool :=
  p.nodes.foldl (fun f n => Function.update f n p.free) flags

/-- The loop over the constraint parts in `add_model_parts_to_global_matrices`,
`rose/model/global_system.py:330-332`. -/
def setConstraints (flags : ℕ → Fin 3 → Bool) (ps : List ConstraintPart) : ℕ → Fin 3 → Bool :=
  ps.foldl setConstraint flags

/-! ### Rayleigh damping -/

section rayleigh
variable {K : Type*} [Field K]

/-- `__calculate_rayleigh_damping_factors`, `rose/model/global_system.py:376-388`. -/
def rayleighFactors (ratio w1 w2 : K) : K × K :=
  let constant := 2 * ratio / (w1 + w2)
  (w1 * w2 * constant, constant)

/-- `calculate_rayleigh_damping`, `rose/model/global_system.py:390-415`: the new global damping matrix. -/
def rayleighDamping {n : ℕ} (on : Bool) (ratio w1 w2 : K) (M C Kg : Matrix (Fin n) (Fin n) K) :
    Matrix (Fin n) (Fin n) K :=
  if on then
    let a := rayleighFactors ratio w1 w2
    C + (a.1 • M + a.2 • Kg)
  else C

end rayleigh

/-! ### Stages -/

section stages
variable {K : Type*} [Field K] [DecidableEq K]

/-- `np.diff`, `rose/model/global_system.py:447`. -/
def npDiff : List K → List K
  | a :: b :: l => (b - a) :: npDiff (b :: l)
  | _ => []

/-- `sorted(np.unique(a, return_index=True)[1])`: the indices of the first occurrences, ascending, `rose/model/global_system.py:448`. -/
def firstOccurrences (d : List K) : List ℕ :=
  (List.range d.length).filter fun i => decide (d.getD i 0 ∉ d.take i)

/-- `set_stage_time_ids`, `rose/model/global_system.py:441-449`. `rnd` is rounding to 15 decimals. For an empty time
array python appends `-1`; the theorems need at least two times. -/
def stageTimeIds (rnd : K → K) (time : List K) : List ℕ :=
  firstOccurrences ((npDiff time).map rnd) ++ [time.length - 1]

end stages

/-! ### Load ramp -/

section ramp
variable {K : Type*} [Field K]

/-- `np.linspace(0, load, m)`: `m` values; for `m = 1` the single value `0`, `rose/model/boundary_conditions.py:123`. -/
def linspaceFromZero (load : K) (m : ℕ) : List K :=
  (List.range m).map fun i : ℕ => if m = 1 then 0 else load * (i : K) / ((m : K) - 1)

/-- `set_load_vector_as_function_of_time`, `rose/model/boundary_conditions.py:111-126`, for `n = len(time)`,
`m = len(initialisation_time)` and `build_up_idxs = b`. The slice assignment needs as many values as the slice has
elements, or exactly one value, otherwise numpy raises `ValueError`. -/
def loadRamp (n m b : ℕ) (load : K) : Except Err (List K) :=
  let base := List.replicate n load
  let vals := linspaceFromZero load m
  let slice := min b n
  if vals.length = slice then .ok (vals ++ base.drop slice)
  else match vals with
    | [v] => .ok (List.replicate slice v ++ base.drop slice)
    | _ => .error .valueError

end ramp

/-! ### Right hand side -/

section rhs
variable {K : Type*} [Field K]

/-- A load condition at one time step: the equation numbers of its nodes, its active dofs and its nodal force vectors
`x_force_vector`, `y_force_vector`, `z_moment_vector` (`rose/model/boundary_conditions.py:39-65, 128-137`). -/
structure LoadPart (K : Type*) where
  nodes : List (Fin 3 → Option ℕ)
  act : Fin 3 → Bool
  force : List (Fin 3 → K)

/-- `[node_dof for node in nodes for dof in node]`: positions (node, dof) in flattened order, `rose/model/model_part.py:190-212`. -/
def flatPositions (n : ℕ) : List (ℕ × Fin 3) :=
  (List.range n).flatMap fun i => [0, 1, 2].map fun d : Fin 3 => (i, d)

/-- The masked positions with their equation numbers: `dof_indices[mask_dof]` of `update_dof_indices`
(`rose/model/model_part.py:190-212`) together with `cond_force_vector[mask_dof]` of `__add_condition_to_global`
(`rose/model/global_system.py:186-194`). -/
def LoadPart.masked (c : LoadPart K) : List (ℕ × K) :=
  (flatPositions c.nodes.length).filterMap fun p =>
    if c.act p.2 then (c.nodes.getD p.1 fun _ => none) p.2 |>.map fun e => (e, (c.force.getD p.1 fun _ => 0) p.2)
    else none

/-- `F[idx] += vals` with an index array: gather, add, scatter. A repeated index keeps the last value only,
`rose/model/global_system.py:179-194`. -/
def fancyAdd (F : ℕ → K) (ivs : List (ℕ × K)) : ℕ → K :=
  writes F (ivs.map fun p => (p.1, F p.1 + p.2))

/-- `__add_condition_to_global`, `rose/model/global_system.py:179-194`. -/
def addCondition (F : ℕ → K) (c : LoadPart K) : ℕ → K := fancyAdd F c.masked

/-- `update_time_step_rhs`, `rose/model/global_system.py:495-515`: a zero vector, then every load condition. -/
def timeStepRhs (cs : List (LoadPart K)) : ℕ → K := cs.foldl addCondition fun _ => 0

end rhs

/-! ### Validation -/

/-- What input validation reads from a `Material` (`rose/model/model_part.py:19-34`): which attributes are set. -/
structure MaterialInput where
  youngs : Bool
  poisson : Bool
  density : Bool

/-- What input validation reads from a `Section` (`rose/model/model_part.py:58-79`). -/
structure SectionInput where
  area : Bool
  inertia : Bool
  shear : Bool
  height : Option ℚ
  neutral : Option ℚ

/-- What input validation reads from a model part, `rose/model/model_part.py:24-80, 151-160, 394-406, 555-575`. -/
inductive PartInput where
  /-- rod: stiffness set, numbers of elements and nodes -/
  | rod (stiffness : Bool) (nElements nNodes : ℕ)
  /-- beam: material, section (if of the right class), numbers of elements and nodes -/
  | beam (material : Option MaterialInput) (section_ : Option SectionInput) (nElements nNodes : ℕ)
  /-- any other part: are `nodes` and `elements` lists or arrays -/
  | other (nodesList elementsList : Bool)

/-- One `logging.error`/`logging.warning` call at the given level if the condition holds,
`rose/model/model_part.py:24-80, 394-406, 555-575`. -/
def logIf (c : Bool) (level : ℕ) : List ℕ := if c then [level] else []

/-- `Material.validate_input`, `rose/model/model_part.py:24-34`: the levels logged. -/
def MaterialInput.log (m : MaterialInput) : List ℕ := logIf (!m.youngs) 40 ++ logIf (!m.poisson) 40 ++ logIf (!m.density) 40

/-- `Section.validate_input`, `rose/model/model_part.py:66-79`. -/
def SectionInput.log (s : SectionInput) : List ℕ :=
  logIf (!s.area) 40 ++ logIf (!s.inertia) 40 ++ logIf (!s.shear) 40 ++ logIf s.height.isNone 30 ++
    logIf s.neutral.isNone 30 ++
    (match s.height, s.neutral with
      | some h, some n => logIf (decide (h < n)) 40
      | _, _ => [])

/-- The material branch of the beam validation, `rose/model/model_part.py:561-564`. -/
def materialLog : Option MaterialInput → List ℕ
  | none => [40]
  | some m => m.log

/-- The section branch of the beam validation, `rose/model/model_part.py:566-569`. -/
def sectionLog : Option SectionInput → List ℕ
  | none => [40]
  | some s => s.log

/-- `validate_input` of a part: `rose/model/model_part.py:151-160` (base), `394-406` (rod), `555-575` (beam). -/
def PartInput.log : PartInput → List ℕ
  | .rod k e n => logIf (!k) 40 ++ logIf (e == 0) 40 ++ logIf (n == 0) 40
  | .beam m s e n =>
    materialLog m ++ sectionLog s ++ logIf (e == 0) 40 ++ logIf (n == 0) 40
  | .other nl el => logIf (!nl) 40 ++ logIf (!el) 40

/-- `GlobalSystem.validate_input`, `rose/model/global_system.py:76-85`. `cache` lists the levels for which the root
logger was ever asked (`logging.getLogger()._cache`): every `logging.error` call in the process adds 40, every
`logging.warning` 30, and nothing in the code empties it. Returns the new cache and whether
`ParameterNotDefinedException` is raised. -/
def validateInput (cache : List ℕ) (parts : List PartInput) : List ℕ × Bool :=
  let cache := cache ++ parts.flatMap PartInput.log
  (cache, cache.contains 40 || cache.contains 50)

end Rose
