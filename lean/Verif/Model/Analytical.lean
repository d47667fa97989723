/-
Model of the analytical solutions that the benchmarks compare the calculations with
(`analytical_solutions/simple_supported.py`).
-/
import Verif.Model.Accumulation

set_option linter.unusedSectionVars false

namespace Rose

section
variable {K : Type*} [Field K] [LinearOrder K] [IsStrictOrderedRing K]

/-- The body of the loop of `SimpleSupportEulerStatic.compute` for one coordinate,
`analytical_solutions/simple_supported.py:49-57`; `u` starts as zeros (line 41). -/
def simpleSupportStaticAt (EI L F xF coord : K) : K :=
  let a := xF
  let b := L - a
  if 0 ≤ coord ∧ coord ≤ xF then F * b * coord / (6 * L * EI) * (L ^ 2 - b ^ 2 - coord ^ 2)
  else if coord ≤ L then F * a * (L - coord) / (6 * L * EI) * (L ^ 2 - a ^ 2 - (L - coord) ^ 2)
  else 0

end

/-- The attribute `x` of `SimpleSupportEulerStatic.properties`, `analytical_solutions/simple_supported.py:40`. -/
noncomputable def simpleSupportMesh (L eleSize : ℝ) : List ℝ := linspace 0 L (⌈L / eleSize⌉₊ + 1)

/-- `SimpleSupportEulerStatic(ele_size).properties(E, I, L, F, x_F)` followed by `compute()`: the attributes `x` and `u`,
`analytical_solutions/simple_supported.py:7-59`. -/
noncomputable def simpleSupportStatic (eleSize E I L F xF : ℝ) : List ℝ × List ℝ :=
  let x := simpleSupportMesh L eleSize
  (x, x.map (simpleSupportStaticAt (E * I) L F xF))

end Rose
