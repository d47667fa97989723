/-
Specification of the motion of a structure in time (C172).
-/
import Verif.Spec.Solvable
import Mathlib.Analysis.Calculus.Deriv.Basic
import Mathlib.Analysis.Complex.Basic

namespace Rose.Spec
open Finset

/-- A motion of `N` unknowns from time zero on: the velocity `v` is the rate of the displacement `u`, the acceleration `a` the rate of the
velocity, and at all times inertia, damping and stiffness forces balance the load: `M a + C v + K u = F`. -/
structure Motion (N : ℕ) (M C K : ℕ → ℕ → ℝ) (F u v a : ℝ → ℕ → ℝ) : Prop where
  velocity : ∀ t ≥ 0, ∀ k < N, HasDerivWithinAt (fun s => u s k) (v t k) (Set.Ici 0) t
  acceleration : ∀ t ≥ 0, ∀ k < N, HasDerivWithinAt (fun s => v s k) (a t k) (Set.Ici 0) t
  balance : ∀ t ≥ 0, ∀ k < N, ∑ j ∈ range N, (M k j * a t j + C k j * v t j + K k j * u t j) = F t k

/-- For every load that is continuous in time and every initial displacement and velocity there is exactly one motion. -/
def WellPosed (N : ℕ) (M C K : ℕ → ℕ → ℝ) : Prop :=
  ∀ F : ℝ → ℕ → ℝ, (∀ k < N, ContinuousOn (fun t => F t k) (Set.Ici 0)) → ∀ u₀ v₀ : ℕ → ℝ,
    ∃ u v a, Motion N M C K F u v a ∧ (∀ k < N, u 0 k = u₀ k ∧ v 0 k = v₀ k) ∧
      ∀ u' v' a', Motion N M C K F u' v' a' → (∀ k < N, u' 0 k = u₀ k ∧ v' 0 k = v₀ k) →
        ∀ t ≥ 0, ∀ k < N, u' t k = u t k ∧ v' t k = v t k ∧ a' t k = a t k

/-- Kinetic and elastic energy. -/
noncomputable def vibrationEnergy (N : ℕ) (M K : ℕ → ℕ → ℝ) (u v : ℕ → ℝ) : ℝ :=
  (∑ i ∈ range N, ∑ j ∈ range N, v i * M i j * v j) / 2 + (∑ i ∈ range N, ∑ j ∈ range N, u i * K i j * u j) / 2

/-- The law of energy: in every motion the energy grows by the power of the load minus what the damping takes away, which is never negative;
the energy is never negative, and zero only at rest in the undeformed state. -/
structure EnergyLaw (N : ℕ) (M C K : ℕ → ℕ → ℝ) : Prop where
  rate : ∀ F u v a, Motion N M C K F u v a → ∀ t ≥ 0,
    HasDerivWithinAt (fun s => vibrationEnergy N M K (u s) (v s))
      (∑ k ∈ range N, F t k * v t k - ∑ i ∈ range N, ∑ j ∈ range N, v t i * C i j * v t j) (Set.Ici 0) t
  dissipation : ∀ v : ℕ → ℝ, 0 ≤ ∑ i ∈ range N, ∑ j ∈ range N, v i * C i j * v j
  nonneg : ∀ u v, 0 ≤ vibrationEnergy N M K u v
  rest : ∀ u v, vibrationEnergy N M K u v = 0 → ∀ k < N, u k = 0 ∧ v k = 0

/-- A free vibration `φ e^(s t)` with the complex exponent `s` (decay rate and angular frequency) and a shape `φ` that is not zero. -/
def FreeVibration (N : ℕ) (M C K : ℕ → ℕ → ℝ) (s : ℂ) (φ : ℕ → ℂ) : Prop :=
  (∃ k < N, φ k ≠ 0) ∧ ∀ k < N, ∑ j ∈ range N, (s ^ 2 * M k j + s * C k j + K k j) * φ j = 0

end Rose.Spec
