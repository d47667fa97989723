/-
Specification of waves in a column of length `L` that is fixed at `x = 0` and loaded by a stress `p0` at `x = L`.
-/
import Mathlib.Analysis.Calculus.Deriv.Basic

namespace Rose.Spec

/-- `u` with velocity `v` and stress `p` satisfies the laws of motion of an elastic column with density `rho` and stiffness `K`: `v`
is the time derivative of `u`, the stress is `K` times the strain, density times acceleration is the derivative of the stress,
the column does not move at its fixed end, and the stress at the other end is `p0`. -/
structure ColumnMotion (rho K L p0 : ℝ) (u v p : ℝ → ℝ → ℝ) : Prop where
  velocity : ∀ x t, HasDerivAt (fun t => u x t) (v x t) t
  stress : ∀ x t, ∃ strain, HasDerivAt (fun x => u x t) strain x ∧ p x t = K * strain
  momentum : ∀ x t, ∃ acceleration, HasDerivAt (fun t => v x t) acceleration t ∧
    HasDerivAt (fun x => p x t) (rho * acceleration) x
  fixed : ∀ t, u 0 t = 0
  loaded : ∀ t, p L t = p0

/-- The displacement of a column that is at rest without deformation when the load is applied: a front with the strain `p0 / K`
runs with the speed of waves from the loaded to the fixed end and, with twice the strain behind it, back. `d` is the way
of the front, up to `2 L`. -/
noncomputable def frontDisplacement (K L p0 x d : ℝ) : ℝ := p0 / K * min (max 0 (x + d - L)) (2 * x)

end Rose.Spec
