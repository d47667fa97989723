/-
Specification of a calculation in time steps (C173).
-/
import Verif.Spec.Vibration

namespace Rose.Spec
open Finset

/-- The steps of the Newmark method with the parameters `β`, `γ` and the step size `dt`: at every step inertia, damping and stiffness forces
balance the load of that step, and displacement and velocity follow from the accelerations at both ends of the step; `m` is the last step. -/
structure NewmarkSteps (N : ℕ) (M C K : ℕ → ℕ → ℝ) (β γ dt : ℝ) (m : ℕ) (F u v a : ℕ → ℕ → ℝ) : Prop where
  balance : ∀ n ≤ m, ∀ k < N, ∑ j ∈ range N, (M k j * a n j + C k j * v n j + K k j * u n j) = F n k
  displacement : ∀ n < m, ∀ k < N, u (n + 1) k = u n k + dt * v n k + dt ^ 2 * ((1 / 2 - β) * a n k + β * a (n + 1) k)
  velocity : ∀ n < m, ∀ k < N, v (n + 1) k = v n k + dt * ((1 - γ) * a n k + γ * a (n + 1) k)

/-- For every load and every initial displacement and velocity the steps can be calculated, with one result. -/
def StepsDefined (N : ℕ) (M C K : ℕ → ℕ → ℝ) (β γ dt : ℝ) : Prop :=
  ∀ (F : ℕ → ℕ → ℝ) (u₀ v₀ : ℕ → ℝ), ∃ u v a, (∀ m, NewmarkSteps N M C K β γ dt m F u v a) ∧ (∀ k < N, u 0 k = u₀ k ∧ v 0 k = v₀ k) ∧
    ∀ m u' v' a', NewmarkSteps N M C K β γ dt m F u' v' a' → (∀ k < N, u' 0 k = u₀ k ∧ v' 0 k = v₀ k) →
      ∀ n ≤ m, ∀ k < N, u' n k = u n k ∧ v' n k = v n k ∧ a' n k = a n k

/-- The results of the steps stay bounded for all times if the load is constant. -/
def StepsBounded (N : ℕ) (M C K : ℕ → ℕ → ℝ) (β γ dt : ℝ) : Prop :=
  ∀ F₀ u v a, (∀ m, NewmarkSteps N M C K β γ dt m (fun _ => F₀) u v a) → ∃ B, ∀ n, ∀ k < N, |u n k| ≤ B ∧ |v n k| ≤ B ∧ |a n k| ≤ B

/-- With the average of the accelerations at both ends (`β = 1/4`, `γ = 1/2`) the energy changes in a step by the work of the mean load on
the displacement in the step minus what the damping takes at the mean velocity. -/
def StepsEnergy (N : ℕ) (M C K : ℕ → ℕ → ℝ) : Prop :=
  ∀ dt m F u v a, NewmarkSteps N M C K (1 / 4) (1 / 2) dt m F u v a → ∀ n < m,
    vibrationEnergy N M K (u (n + 1)) (v (n + 1)) - vibrationEnergy N M K (u n) (v n) =
      ∑ k ∈ range N, (F n k + F (n + 1) k) / 2 * (u (n + 1) k - u n k) -
        dt * ∑ i ∈ range N, ∑ j ∈ range N, ((v n i + v (n + 1) i) / 2) * C i j * ((v n j + v (n + 1) j) / 2)

/-- The results of the steps approach the motion: over every period and for every tolerance they differ by no more than the tolerance, if the
step size is small enough. -/
def StepsConverge (N : ℕ) (M C K : ℕ → ℕ → ℝ) : Prop :=
  ∀ F u v a, (∀ k < N, ContinuousOn (fun t => F t k) (Set.Ici 0)) → Motion N M C K F u v a → ∀ T > (0 : ℝ), ∀ ε > (0 : ℝ), ∃ δ > (0 : ℝ),
    ∀ dt : ℝ, 0 < dt → dt < δ → ∀ (n : ℕ) U V A, n * dt ≤ T →
      NewmarkSteps N M C K (1 / 4) (1 / 2) dt n (fun n => F (n * dt)) U V A → (∀ k < N, U 0 k = u 0 k ∧ V 0 k = v 0 k) →
        ∀ k < N, |U n k - u (n * dt) k| ≤ ε ∧ |V n k - v (n * dt) k| ≤ ε ∧ |A n k - a (n * dt) k| ≤ ε

/-- If the load is smooth, halving the step size reduces the difference to a quarter: it is at most `c dt²`. -/
def StepsSecondOrder (N : ℕ) (M C K : ℕ → ℕ → ℝ) : Prop :=
  ∀ F F' F'' u v a : ℝ → ℕ → ℝ, (∀ k < N, ∀ t ≥ 0, HasDerivWithinAt (fun s => F s k) (F' t k) (Set.Ici 0) t) →
    (∀ k < N, ∀ t ≥ 0, HasDerivWithinAt (fun s => F' s k) (F'' t k) (Set.Ici 0) t) →
    (∀ k < N, ContinuousOn (fun t => F'' t k) (Set.Ici 0)) → Motion N M C K F u v a → ∀ T > (0 : ℝ), ∃ c : ℝ,
    ∀ dt : ℝ, 0 < dt → ∀ (n : ℕ) U V A, n * dt ≤ T →
      NewmarkSteps N M C K (1 / 4) (1 / 2) dt n (fun n => F (n * dt)) U V A → (∀ k < N, U 0 k = u 0 k ∧ V 0 k = v 0 k) →
        ∀ k < N, |U n k - u (n * dt) k| ≤ c * dt ^ 2 ∧ |V n k - v (n * dt) k| ≤ c * dt ^ 2 ∧ |A n k - a (n * dt) k| ≤ c * dt ^ 2

end Rose.Spec
