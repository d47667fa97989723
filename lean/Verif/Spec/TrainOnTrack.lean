/-
Specification of a train on a rail: where the wheels are, the deflection of the rail between its nodes, the contact force of
Hertz.
-/
import Verif.Spec.CoupledMotion
import Verif.Spec.Mechanics
import Mathlib.Analysis.SpecialFunctions.Pow.Real

set_option linter.unusedSectionVars false

namespace Rose.Spec
open Finset

/-- Position at time index `k` of a wheel that starts at `start` and has velocity `vel i` from `time i` to `time (i + 1)`. -/
def wheelX (time vel : List ℝ) (start : ℝ) (k : ℕ) : ℝ :=
  start + ∑ i ∈ range k, vel.getD i 0 * (time.getD (i + 1) 0 - time.getD i 0)

/-- The element of a rail of `count` nodes at distance `l` that contains the coordinate `X`. -/
noncomputable def railElementAt (l : ℝ) (count : ℕ) (X : ℝ) : ℕ := min ⌊X / l⌋₊ (count - 2)

/-- Deflection at the coordinate `X` of a rail of `count` nodes at distance `l` that bends without shear; `node k` is the number
of its `k`-th node: the cubic with the deflections and rotations of both ends of the element. -/
noncomputable def railDeflection (l : ℝ) (count : ℕ) (node : ℕ → ℕ) (u : NodalField ℝ) (X : ℝ) : ℝ :=
  let e := railElementAt l count X
  timoDeflection 0 l (u (node e) 1) (u (node e) 2) (u (node (e + 1)) 1) (u (node (e + 1)) 2) (X - e * l)

/-- Hertzian contact: the compressive force for an approach `c` of wheel and rail, nothing for a gap. -/
noncomputable def hertz (G p c : ℝ) : ℝ := if 0 < c then (c / G) ^ p else 0

end Rose.Spec
