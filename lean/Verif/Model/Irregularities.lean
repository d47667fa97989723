/-
Model of `rose/model/irregularities.py`: rail defects, wheel flats, random rail irregularities.
-/
import Verif.Model.Assembly
import Mathlib.Analysis.SpecialFunctions.Trigonometric.Inverse

set_option linter.unusedSectionVars false

namespace Rose

/-! ### Rail defect -/

/-- The defect in track coordinates between the first and last point of the track,
`rose/model/irregularities.py:31-36`. -/
def defectPoints (x0 xl start : ℝ) (loc : List (ℝ × ℝ)) : List (ℝ × ℝ) :=
  (x0, 0) :: loc.map (fun p => (p.1 + start, p.2)) ++ [(xl, 0)]

/-- Candidate height of a vertex, `rose/model/irregularities.py:43-55`; `none` is `-inf`. -/
noncomputable def vertexCandidate (R x : ℝ) (v : ℝ × ℝ) : Option ℝ :=
  open Classical in
  if |x - v.1| ≤ R then some (v.2 + Real.sqrt (max 0 (R ^ 2 - (x - v.1) ^ 2)) - R) else none

/-- Candidate height of a segment, `rose/model/irregularities.py:57-98`; `none` is `-inf`. A segment of length zero has
a normal of NaN, for which no comparison holds. -/
noncomputable def segmentCandidate (R x : ℝ) (a b : ℝ × ℝ) : Option ℝ :=
  let dx := b.1 - a.1
  let dy := b.2 - a.2
  let len := Real.sqrt (dx ^ 2 + dy ^ 2)
  let nx := -dy / len
  let ny := dx / len
  let slope := open Classical in if dx ≠ 0 then dy / dx else 0
  open Classical in
  if len ≠ 0 ∧ a.1 + nx * R ≤ x ∧ x ≤ b.1 + nx * R then
    some (a.2 + ny * R + slope * (x - (a.1 + nx * R)) - R)
  else none

/-- Candidates of all segments, `rose/model/irregularities.py:58-99`. -/
noncomputable def segmentCandidates (R x : ℝ) : List (ℝ × ℝ) → List ℝ
  | a :: b :: rest => (segmentCandidate R x a b).toList ++ segmentCandidates R x (b :: rest)
  | _ => []

/-- The irregularity at `x`, `rose/model/irregularities.py:100-104`: minus the maximum of the candidates; `none` if there is
none (`+inf`). -/
noncomputable def railDefectAt (pts : List (ℝ × ℝ)) (R x : ℝ) : Option ℝ :=
  ((pts.filterMap (vertexCandidate R x) ++ segmentCandidates R x pts).max?).map fun m => -m

/-- `RailDefect`, `rose/model/irregularities.py:14-104`: the irregularities at all track points. Reading `x_track[0]` of an empty
array raises. -/
noncomputable def railDefect (xs : List ℝ) (diameter : ℝ) (loc : List (ℝ × ℝ)) (start : ℝ) : Except Err (List (Option ℝ)) :=
  match xs.head?, xs.getLast? with
  | some x0, some xl => .ok (xs.map (railDefectAt (defectPoints x0 xl start loc) (diameter / 2)))
  | _, _ => .error .indexError

/-! ### Wheel flat -/

/-- Depth of the flat, `rose/model/irregularities.py:131-138`. -/
noncomputable def flatDepth (diameter length : ℝ) : ℝ :=
  diameter / 2 - diameter / 2 * Real.cos (Real.arcsin (length / diameter))

/-- `tmp_array[i]`, `rose/model/irregularities.py:148-152`; `shift` is the random start distance or minus the start
position. -/
noncomputable def revolution (xs : List ℝ) (shift circ : ℝ) (i : ℕ) : ℤ := ⌈(xs.getD i 0 + shift) / circ⌉

/-- `wheel_flat_indices`, `rose/model/irregularities.py:154-159`: the loop over `range(1, len - 1)`. -/
noncomputable def flatIndices (xs : List ℝ) (shift circ : ℝ) : List ℕ :=
  (List.range' 1 (xs.length - 2)).filter fun i => decide (revolution xs shift circ (i - 1) < revolution xs shift circ i)

/-- `WheelFlat`, `rose/model/irregularities.py:113-163`: an empty index list becomes a float array, which cannot be used as
an index. -/
noncomputable def wheelFlat (xs : List ℝ) (diameter length shift : ℝ) : Except Err (List ℝ) :=
  let idx := flatIndices xs shift (Real.pi * diameter)
  if idx = [] then .error .indexError
  else .ok ((List.range xs.length).map fun i => if i ∈ idx then -flatDepth diameter length else 0)

/-! ### Random irregularities -/

/-- Parameters of `RailIrregularities`, `rose/model/irregularities.py:176-196`. -/
structure IrregPar where
  fMin : ℝ
  fMax : ℝ
  N : ℕ
  Av : ℝ
  omegaC : ℝ

/-- `spectral`, `rose/model/irregularities.py:223-231`. -/
noncomputable def IrregPar.spectral (p : IrregPar) (omega : ℝ) : ℝ :=
  2 * Real.pi * p.Av * p.omegaC ^ 2 / ((omega ^ 2 + p.omegaC ^ 2) * omega ^ 2)

/-- `delta_omega`, `rose/model/irregularities.py:201-203`. -/
noncomputable def IrregPar.deltaOmega (p : IrregPar) : ℝ := (2 * Real.pi * p.fMax - 2 * Real.pi * p.fMin) / p.N

/-- `omega_n`, `rose/model/irregularities.py:211`. -/
noncomputable def IrregPar.omega (p : IrregPar) (n : ℕ) : ℝ := 2 * Real.pi * p.fMin + p.deltaOmega * n

/-- The attribute `omega`, `rose/model/irregularities.py:204`: `np.linspace(omega_min, omega_max, N)`. -/
noncomputable def IrregPar.reportedOmega (p : IrregPar) : List ℝ :=
  (List.range p.N).map fun (n : ℕ) =>
    if p.N = 1 then 2 * Real.pi * p.fMin
    else 2 * Real.pi * p.fMin + (n : ℝ) * ((2 * Real.pi * p.fMax - 2 * Real.pi * p.fMin) / ((p.N : ℝ) - 1))

/-- Amplitude of frequency `n`, `rose/model/irregularities.py:213`. -/
noncomputable def IrregPar.amplitude (p : IrregPar) (n : ℕ) : ℝ := Real.sqrt (4 * p.spectral (p.omega n) * p.deltaOmega)

/-- `RailIrregularities(x, ..., seed)`, `rose/model/irregularities.py:197-213`: the loop adds one frequency at a time to the whole
array. `phase seed n` is the `n`-th number drawn from the generator of that seed (trusted: the generator is
deterministic). -/
noncomputable def railIrregularities (phase : ℕ → ℕ → ℝ) (p : IrregPar) (seed : ℕ) (xs : List ℝ) : List ℝ :=
  (List.range p.N).foldl (fun acc n => List.zipWith (fun a x => a + p.amplitude n * Real.cos (p.omega n * x - phase seed n)) acc xs)
    (List.replicate xs.length 0)

/-- `generate_rail_irregularities`, `rose/model/utils.py:385-404`: one row per wheel; the row must have one entry per time step. -/
noncomputable def generateIrregularities (phase : ℕ → ℕ → ℝ) (p : IrregPar) (seed : ℕ) (wheels : List (List ℝ)) (nTime : ℕ) :
    Except Err (List (List ℝ)) :=
  wheels.mapM fun xs => if xs.length = nTime then .ok (railIrregularities phase p seed xs) else .error .valueError

/-- `TrainModel.initialise_irregularities_at_wheels`, `rose/model/train_model.py:770-782`: `current` is
`self.irregularities_at_wheels` (`none` before the first initialisation if the user gave none) and `gen` the generated
irregularities; the result is the new value of the attribute, which `+=` updates in place. -/
noncomputable def addIrregularities (nWheels nTime : ℕ) (use : Bool) (gen : List (List ℝ)) (current : Option (List (List ℝ))) :
    List (List ℝ) :=
  let base := current.getD (List.replicate nWheels (List.replicate nTime 0))
  if use then List.zipWith (List.zipWith (· + ·)) base gen else base

end Rose
