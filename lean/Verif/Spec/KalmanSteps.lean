/-
Specification for the filter with steps of varying size (C168).
-/
import Verif.Model.Kalman

set_option linter.unusedSectionVars false

namespace Rose.Spec

variable {K : Type*} [Field K]

/-- Displacement and velocity after the time `t` of a motion with constant acceleration `a`. -/
def uniformMotion (x0 v0 a t : K) : Fin 2 → K := ![x0 + v0 * t + a / 2 * t ^ 2, v0 + a * t]

/-- The mean of a first value `x` and the values `ys`, each weighted with the inverse of its squared error. -/
def weightedMean (x s : K) (ys : List (K × K)) : K :=
  (x / s ^ 2 + (ys.map fun p => p.1 / p.2 ^ 2).sum) / (1 / s ^ 2 + (ys.map fun p => 1 / p.2 ^ 2).sum)

/-- The variance of that mean. -/
def meanVariance (s : K) (ys : List (K × K)) : K := 1 / (1 / s ^ 2 + (ys.map fun p => 1 / p.2 ^ 2).sum)

end Rose.Spec
