/-
Specification: a square system of equations has one solution for every right-hand side.
-/
import Mathlib.Algebra.BigOperators.Group.Finset.Basic
import Mathlib.Algebra.Order.Field.Basic

namespace Rose.Spec
open Finset

variable {K : Type*} [Field K] [LinearOrder K] [IsStrictOrderedRing K]

/-- The first `N` values of `U` solve the first `N` equations `g U = F`. -/
def Solves (N : ℕ) (g : ℕ → ℕ → K) (F U : ℕ → K) : Prop := ∀ i < N, ∑ j ∈ range N, g i j * U j = F i

/-- For every right-hand side there is one solution. -/
def UniquelySolvable (N : ℕ) (g : ℕ → ℕ → K) : Prop :=
  ∀ F, ∃ U, Solves N g F U ∧ ∀ U', Solves N g F U' → ∀ i < N, U' i = U i

end Rose.Spec
