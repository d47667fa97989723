/- Integrals of polynomials given by coefficients (helper). -/
import Mathlib.Analysis.SpecialFunctions.Integrals.Basic

namespace Rose

theorem integral_poly (n : ℕ) (c : ℕ → ℝ) (l : ℝ) :
    ∫ x in (0:ℝ)..l, ∑ i ∈ Finset.range n, c i * x ^ i =
      ∑ i ∈ Finset.range n, c i * l ^ (i + 1) / (i + 1) := by
  rw [intervalIntegral.integral_finsetSum]
  · refine Finset.sum_congr rfl fun i _ => ?_
    rw [intervalIntegral.integral_const_mul, integral_pow]
    simp
    ring
  · intro i _
    exact (Continuous.intervalIntegrable (by fun_prop) _ _)

end Rose
