/-
Specification of free fall (C189).
-/
import Verif.Spec.TimeSteps

namespace Rose.Spec

/-- From rest, after each of the first `m` steps of size `dt`, the values `u`, `v`, `a` are displacement, velocity and acceleration of a body
in free fall under the gravity `g` (upwards is positive). -/
def Falls (g dt : ℝ) (m : ℕ) (u v a : ℕ → ℝ) : Prop :=
  ∀ n ≤ m, u n = -g * (n * dt) ^ 2 / 2 ∧ v n = -g * (n * dt) ∧ a n = -g

/-- It does not move in the first `m` steps. -/
def StandsStill (m : ℕ) (u v a : ℕ → ℝ) : Prop := ∀ n ≤ m, u n = 0 ∧ v n = 0 ∧ a n = 0

end Rose.Spec
