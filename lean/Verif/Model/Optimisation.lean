/-
Model of `rose/optimisation/optimisation.py`. Attributes of model parts are numbers by name; running the model is a parameter
(`main`), which may fail. Value semantics of the model stand for `copy.deepcopy`.
-/
import Verif.Model.Assembly
import Mathlib.Algebra.Order.Field.Basic

set_option linter.unusedSectionVars false

namespace Rose

variable {K : Type*} [Field K] [LinearOrder K] [IsStrictOrderedRing K]

/-- A model part: identity and attributes, `rose/optimisation/optimisation.py:17-22`. -/
structure OPart (K : Type*) where
  id : ℕ
  attr : String → K

/-- The global system as far as the optimisation sees it: the parts of its track and the results (by name: a row per time step),
`rose/optimisation/optimisation.py:24-51`. -/
structure OModel (K : Type*) where
  parts : List (OPart K)
  results : String → List (List K)

/-- `OptimisationModelPart`, `rose/optimisation/optimisation.py:16-20`. -/
structure OptPart where
  part : ℕ
  names : List String

/-- `ModelResults` without post process function, `rose/optimisation/optimisation.py:7-13`. -/
structure OResult where
  names : List String
  indices : List ℕ
  timeSteps : List ℕ

/-- `Optimisation`, `rose/optimisation/optimisation.py:23-35`. -/
structure Optimisation (K : Type*) where
  model : OModel K
  original : OModel K
  partIndices : List ℕ
  parts : List OptPart
  modelResults : List OResult
  observations : List (List K)

/-- `Optimisation.initialise`, `rose/optimisation/optimisation.py:36-43`. `list.index` finds the first equal element or raises. -/
def Optimisation.initialise (o : Optimisation K) : Except Err (Optimisation K) :=
  match o.parts.mapM (m := Except Err) fun p =>
      if p.part ∈ o.model.parts.map OPart.id then .ok ((o.model.parts.map OPart.id).idxOf p.part) else .error .valueError with
  | .error e => .error e
  | .ok idx => .ok { o with original := o.model, partIndices := idx }

/-- `setattr(self.model.track.model_parts[idx], name, value)`, `rose/optimisation/optimisation.py:66-70`. -/
def setParam (ps : List (OPart K)) (idx : ℕ) (name : String) (v : K) : List (OPart K) :=
  ps.mapIdx fun i p => if i = idx then { p with attr := fun n => if n = name then v else p.attr n } else p

/-- The pairs (index, name) in the order of the loops `rose/optimisation/optimisation.py:66-68`. -/
def paramSlots : List ℕ → List OptPart → List (ℕ × String)
  | i :: is, p :: ps => p.names.map (fun n => (i, n)) ++ paramSlots is ps
  | _, _ => []

/-- The loops, `rose/optimisation/optimisation.py:65-69`: too few parameters raise an index error. -/
def setParams (ps : List (OPart K)) : List (ℕ × String) → List K → Except Err (List (OPart K))
  | [], _ => .ok ps
  | _ :: _, [] => .error .indexError
  | s :: ss, v :: vs => setParams (setParam ps s.1 s.2 v) ss vs

/-- `np.max(np.abs(column))`; of no time steps it raises, `rose/optimisation/optimisation.py:85`. -/
def maxAbs : List K → Except Err K
  | [] => .error .valueError
  | x :: xs => .ok (xs.foldl (fun m y => max m |y|) |x|)

/-- One result, `rose/optimisation/optimisation.py:81-84`: select time steps and indices, maximum over time. -/
def resultRow (res : List (List K)) (r : OResult) : Except Err (List K) :=
  r.indices.mapM (m := Except Err) fun c =>
    match r.timeSteps.mapM (m := Except Err) (fun t =>
        match res[t]? with
        | none => .error .indexError
        | some row =>
          match row[c]? with
          | none => .error .indexError
          | some v => .ok v) with
    | .error e => .error e
    | .ok col => maxAbs col

/-- The results, `rose/optimisation/optimisation.py:74-90`: after the first `ModelResults` the list has become an array, so that appending
to it for a second one raises. -/
def collectResults (m : OModel K) : List OResult → Except Err (List (List K))
  | [] => .ok []
  | [r] => r.names.mapM (m := Except Err) fun n => resultRow (m.results n) r
  | r :: r' :: _ =>
    match r.names.mapM (m := Except Err) fun n => resultRow (m.results n) r with
    | .error e => .error e
    | .ok rows => if r'.names = [] then .ok rows else .error .exception

/-- Whether numpy broadcasts two arrays along an axis of the lengths `a` and `b`, `rose/optimisation/optimisation.py:102`. -/
def broadcasts (a b : ℕ) : Bool := a = b || a = 1 || b = 1

/-- `residual[0]` and the line written to the file, `rose/optimisation/optimisation.py:102-110`: `results - self.observations` with the
rules of broadcasting (a flat list of observations is broadcast as one row and is given here as one row; the rows of an array
have the same length); `results[0][1]` and `parameters[0]` are read for the file, then the first row of the difference. -/
def firstResidual (params : List K) (results observations : List (List K)) : Except Err (List K) :=
  match results.head?, observations.head? with
  | some row, some obs =>
    if !broadcasts results.length observations.length || !broadcasts row.length obs.length then .error .valueError
    else if params.length < 1 || row.length < 2 then .error .indexError
    else .ok (List.zipWith (· - ·) row (if obs.length = 1 then List.replicate row.length (obs.getD 0 0) else obs))
  | some _, none => if results.length = 1 then .error .indexError else .error .valueError
  | none, _ => .error .indexError

/-- `Optimisation.residual_function`, `rose/optimisation/optimisation.py:53-112`: the object afterwards and the residual. `main` runs the
model and gives its state afterwards. -/
def Optimisation.residual (main : OModel K → OModel K × Except Err Unit) (o : Optimisation K) (params : List K) :
    Optimisation K × Except Err (List K) :=
  let m0 := o.original
  match setParams m0.parts (paramSlots o.partIndices o.parts) params with
  | .error e => ({ o with model := m0 }, .error e)
  | .ok ps =>
    let run := main { m0 with parts := ps }
    match run.2 with
    | .error e => ({ o with model := run.1 }, .error e)
    | .ok _ =>
      match collectResults run.1 o.modelResults with
      | .error e => ({ o with model := run.1 }, .error e)
      | .ok results => ({ o with model := run.1 }, firstResidual params results o.observations)

/-- A sequence of evaluations, `rose/optimisation/optimisation.py:53-113`. -/
def Optimisation.evaluations (main : OModel K → OModel K × Except Err Unit) (o : Optimisation K) : List (List K) → Optimisation K
  | [] => o
  | p :: ps => Optimisation.evaluations main (o.residual main p).1 ps

end Rose
