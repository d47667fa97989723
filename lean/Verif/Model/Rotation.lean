/-
Model of the rotation helpers of `rose/model/utils.py` and of the element forces of `rose/model/global_system.py`.
-/
import Verif.Model.Beam
import Mathlib.Analysis.SpecialFunctions.Trigonometric.Arctan
import Mathlib.LinearAlgebra.Matrix.NonsingularInverse

set_option linter.unusedSectionVars false

namespace Rose

/-- `np.isclose(x, 0)` with the default tolerances (`rtol * |0| + atol = 1e-8`), as used in `rose/model/utils.py:207`
and `rose/model/global_system.py:297, 300`. -/
def npIsCloseZero {K : Type*} [Field K] [LinearOrder K] (x : K) : Prop := |x| ≤ 1 / 100000000

/-- `math.isclose(a, b)` with the default relative tolerance `1e-9`, as used in `rose/model/utils.py:177`. -/
def mathIsClose {K : Type*} [Field K] [LinearOrder K] (a b : K) : Prop := |a - b| ≤ 1 / 1000000000 * max |a| |b|

/-- `np.sign`, `rose/model/utils.py:181, 210`. -/
noncomputable def npSign (x : ℝ) : ℝ := SignType.sign x

open Classical in
/-- `calculate_rotation`, `rose/model/utils.py:193-219`, for one pair of points `(x1, y1)`, `(x2, y2)` (the function is
vectorised over independent rows): first the vertical case is assigned, then `pi` is added to all rows with
`x2 < x1`, then the arctangent is added to the rows that are not vertical. -/
noncomputable def calculateRotation (x1 y1 x2 y2 : ℝ) : ℝ :=
  let rot : ℝ := 0
  let rot := if npIsCloseZero (x2 - x1) then Real.pi / 2 * npSign (y2 - y1) else rot
  let rot := if x2 < x1 then rot + Real.pi else rot
  if ¬ npIsCloseZero (x2 - x1) then rot + Real.arctan ((y2 - y1) / (x2 - x1)) else rot

open Classical in
/-- `calculate_point_rotation`, `rose/model/utils.py:164-190`. -/
noncomputable def calculatePointRotation (x1 y1 x2 y2 : ℝ) : ℝ :=
  if mathIsClose x2 x1 then Real.pi / 2 * npSign (y2 - y1)
  else
    let rot : ℝ := if x2 < x1 then 0 + Real.pi else 0
    rot + Real.arctan ((y2 - y1) / (x2 - x1))

/-- `rotate_point_around_z_axis`, `rose/model/utils.py:222-252` (both branches compute this for each point). -/
noncomputable def rotatePoint (rotation : ℝ) (p : ℝ × ℝ × ℝ) : ℝ × ℝ × ℝ :=
  let c := Real.cos rotation
  let s := Real.sin rotation
  (c * p.1 + s * p.2.1, -s * p.1 + c * p.2.1, p.2.2)

variable {K : Type*} [Field K] [LinearOrder K] [IsStrictOrderedRing K]

/-- The part of an element model part that `calculate_force_in_elements` reads: its (reshaped) stiffness matrix, its
active dofs, and the rotation matrix left in it by the last element processed during assembly, which is the last
element of the part (`rose/model/utils.py:287-289, 326-329`; the direction cosines are recomputed per element but
stored in the part). `dirs` lists the direction cosines `(cos, sin)` of the part's elements in order. -/
structure ElementPartForces (K : Type*) where
  stiffness : Matrix (Fin 6) (Fin 6) K
  mask : Fin 3 → Bool
  dirs : List (K × K)

/-- `model_part.rotation_matrix` after assembly (`none` for a part without elements), `rose/model/global_system.py:546-590`. -/
def ElementPartForces.rotation (p : ElementPartForces K) : Option (Matrix (Fin 6) (Fin 6) K) :=
  p.dirs.getLast?.map fun d => rotationMatrix d.1 d.2

/-- `calculate_force_in_elements` for one two-noded element of the part with nodal displacements `u` at one time,
`rose/model/global_system.py:571-590`, followed by `Element.assign_force`, `rose/model/geometry.py:196-207`:
the nodal forces, half of their difference, restricted to the active dofs, zero elsewhere. -/
noncomputable def elementForce (p : ElementPartForces K) (u : Fin 6 → K) : Fin 3 → K :=
  let force := match p.rotation with
    | some R => p.stiffness.mulVec (R⁻¹.mulVec u)
    | none => p.stiffness.mulVec u
  fun d => if p.mask d then (force ⟨d, by omega⟩ - force ⟨d + 3, by omega⟩) / 2 else 0

end Rose
