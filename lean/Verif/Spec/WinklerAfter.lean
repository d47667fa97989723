/-
Specification of a function of time that is recovered from its Laplace transform by a finite sum of cosines.
-/
import Mathlib.MeasureTheory.Integral.IntervalIntegral.Basic
import Mathlib.Analysis.SpecialFunctions.Trigonometric.Basic

namespace Rose.Spec

/-- `u` is the function that has, on the time window from `0` to `T`, the first `N` cosine coefficients that the Laplace transform `U` asks for, and no others:
for a function that has died out after the window, the integral of `exp (-a * t) * u t * cos (j * π * t / T)` over the window is the real part of the
transform at `a + j * π * i / T`. -/
structure CosineInversion (N : ℕ) (a T : ℝ) (U : ℂ → ℂ) (u : ℝ → ℝ) : Prop where
  kept : ∀ j < N, ∫ t in (0 : ℝ)..T, Real.exp (-a * t) * u t * Real.cos (j * Real.pi * t / T) = (U (a + j * Real.pi * Complex.I / T)).re
  dropped : ∀ j, N ≤ j → ∫ t in (0 : ℝ)..T, Real.exp (-a * t) * u t * Real.cos (j * Real.pi * t / T) = 0
  smooth : ∃ c : ℕ → ℝ, ∀ t, u t = Real.exp (a * t) * ∑ j ∈ Finset.range N, c j * Real.cos (j * Real.pi * t / T)

end Rose.Spec
