/-
Specification of the time steps of a train on a track (C174).
-/
import Verif.Spec.CoupledMotion

namespace Rose.Spec
open Finset

/-- The time steps of a coupled calculation with the parameters `β`, `γ` of the Newmark method, at the times `time`: at every output index
inertia, damping and stiffness forces balance the forces for the displacements of that index, the contact forces included, so the iterations
of the step have converged; displacement and velocity follow from the accelerations at both ends of the step. The calculation starts from the
displacements `u₀` and the velocities `v₀`. -/
structure CoupledSteps (sys : TrimState ℝ) (rhs : List (ℕ × List (ℕ → ℝ)) → List (ℕ → ℝ) → ℕ → (ℕ → ℝ) → ℕ → ℝ) (β γ : ℝ) (time : ℕ → ℝ)
    (times : ℕ) (u₀ v₀ : ℕ → ℝ) (out : SolverOutput ℝ) : Prop where
  balance : SolvesCoupled sys rhs times out
  displacement : ∀ n, n + 1 < times → ∀ k < sys.N, out.u (n + 1) k = out.u n k + (time (n + 1) - time n) * out.v n k +
    (time (n + 1) - time n) ^ 2 * ((1 / 2 - β) * out.a n k + β * out.a (n + 1) k)
  velocity : ∀ n, n + 1 < times → ∀ k < sys.N, out.v (n + 1) k = out.v n k +
    (time (n + 1) - time n) * ((1 - γ) * out.a n k + γ * out.a (n + 1) k)
  start : ∀ k < sys.N, out.u 0 k = u₀ k ∧ out.v 0 k = v₀ k

end Rose.Spec
