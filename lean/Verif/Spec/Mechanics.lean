/-
Independent specification vocabulary for element mechanics (no reference to the model of the code).
The six local dofs of a two-noded 2D element are (x displacement, y displacement, z rotation) of node 1, then node 2;
the element lies on the local x axis from `0` to `l`.
-/
import Mathlib.Data.Matrix.Mul
import Mathlib.Algebra.Order.Field.Basic
import Mathlib.LinearAlgebra.Matrix.Symmetric

namespace Rose.Spec

variable {K : Type*} [Field K] [LinearOrder K] [IsStrictOrderedRing K]

/-- Nodal values of a rigid translation by `(tx, ty)`. -/
def translation (tx ty : K) : Fin 6 → K := ![tx, ty, 0, tx, ty, 0]

/-- Nodal values of an infinitesimal rigid rotation by `w` about the point `(px, py)`, for a straight element whose
nodes are at `(x1, y1)` and `(x2, y2)`: displacement `(-w (y - py), w (x - px))`, rotation `w`. -/
def rotationAbout (w px py x1 y1 x2 y2 : K) : Fin 6 → K :=
  ![-w * (y1 - py), w * (x1 - px), w, -w * (y2 - py), w * (x2 - px), w]

/-- Twice the energy (or inertia) of a displacement `u` for a matrix `m`: `uᵀ m u`. -/
def energy {n : ℕ} (m : Matrix (Fin n) (Fin n) K) (u : Fin n → K) : K :=
  ∑ i, ∑ j, u i * m i j * u j

/-- Positive semi-definite: no displacement has negative energy. -/
def PosSemidef {n : ℕ} (m : Matrix (Fin n) (Fin n) K) : Prop := ∀ u, 0 ≤ energy m u

/-- Force-free displacement: every nodal force vanishes. -/
def ForceFree {n : ℕ} (m : Matrix (Fin n) (Fin n) K) (u : Fin n → K) : Prop := ∀ i, ∑ j, m i j * u j = 0

/-- A displacement of a straight element on the local x axis of length `l` is a rigid body motion: translation plus
rotation about the origin. -/
def RigidMotion (l : K) (u : Fin 6 → K) : Prop :=
  ∃ tx ty w : K, u = ![tx, ty, w, tx, ty + w * l, w]

/-- Global components of a local displacement for an element at angle `θ` to the global x axis
(`c = cos θ`, `s = sin θ`): both nodes are turned counterclockwise by `θ`, nodal rotations are unchanged. -/
def toGlobal (c s : K) (u : Fin 6 → K) : Fin 6 → K :=
  ![c * u 0 - s * u 1, s * u 0 + c * u 1, u 2, c * u 3 - s * u 4, s * u 3 + c * u 4, u 5]

/-- Local components of a global displacement for an element at angle `θ`: inverse of `toGlobal`. -/
def toLocal (c s : K) (u : Fin 6 → K) : Fin 6 → K :=
  ![c * u 0 + s * u 1, -s * u 0 + c * u 1, u 2, c * u 3 + s * u 4, -s * u 3 + c * u 4, u 5]

/-- Interpolated transverse displacement for nodal values `(w1, θ1, w2, θ2)`. -/
def interp4 (N : Fin 4 → K) (w1 t1 w2 t2 : K) : K := N 0 * w1 + N 1 * t1 + N 2 * w2 + N 3 * t2

end Rose.Spec

namespace Rose.Spec

variable {K : Type*} [Field K]

/-- Textbook deflection of a Timoshenko beam element of length `l` and shear ratio `phi` (`12 E I / (kappa G A l²)`)
at distance `x` from its first node, for nodal deflections `w1, w2` and nodal rotations `t1, t2`
(interdependent cubic interpolation). -/
def timoDeflection (phi l w1 t1 w2 t2 x : K) : K :=
  let xi := x / l
  (w1 * (1 - 3 * xi ^ 2 + 2 * xi ^ 3 + phi * (1 - xi))
    + l * t1 * (xi - 2 * xi ^ 2 + xi ^ 3 + phi / 2 * (xi - xi ^ 2))
    + w2 * (3 * xi ^ 2 - 2 * xi ^ 3 + phi * xi)
    + l * t2 * (-xi ^ 2 + xi ^ 3 + phi / 2 * (xi ^ 2 - xi))) / (1 + phi)

/-- Textbook cross-section rotation of the same element. -/
def timoRotation (phi l w1 t1 w2 t2 x : K) : K :=
  let xi := x / l
  (w1 / l * (6 * (xi ^ 2 - xi)) + t1 * (1 - 4 * xi + 3 * xi ^ 2 + phi * (1 - xi))
    + w2 / l * (6 * (xi - xi ^ 2)) + t2 * (-2 * xi + 3 * xi ^ 2 + phi * xi)) / (1 + phi)

/-- Axial displacement of a straight element, linear between its ends. -/
def axialDisplacement (l u1 u2 x : K) : K := u1 * (1 - x / l) + u2 * (x / l)

end Rose.Spec
