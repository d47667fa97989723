/-
Specification: a force of limited size that shakes a structure without bound (C192).
-/
import Verif.Spec.Reciprocity

set_option linter.unusedSectionVars false

namespace Rose.Spec

/-- At every dof that takes part in the calculation, however small a force may be and however large a bound is: a force that never exceeds this
size, put on this dof of the structure at rest, makes some displacement or velocity exceed the bound. -/
def Resonates (inp : SystemInput ℝ) (dt : ℝ) : Prop :=
  ∀ m < inp.n, ∀ d, ¬ Removed inp m d → ∀ f > (0 : ℝ), ∀ B : ℝ, ∃ σ : ℕ → ℝ, (∀ s, |σ s| ≤ f) ∧ ∃ T : ℕ, ∀ times r, T < times →
    DynamicResults inp [forceAt m d σ] dt times 0 0 r → ∃ i < inp.n, ∃ e, B < |shape r T i e| ∨ B < |shapeRate r T i e|

end Rose.Spec
