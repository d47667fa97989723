/-
Specification: reciprocity of results in time steps (C188).
-/
import Verif.Spec.LinearDynamics

set_option linter.unusedSectionVars false

namespace Rose.Spec

/-- A force on one dof of one node with the given value at each output index. -/
noncomputable def forceAt (m : ℕ) (d : Fin 3) (f : ℕ → ℝ) : TimedLoad ℝ := ⟨[m], fun e => decide (e = d), .table fun _ t e => if e = d then f t else 0⟩

/-- The motion at one place due to a force at another equals the motion at the other place due to the same force at the first, at all times and for every
course of the force, from rest. -/
def ReciprocalMotion (inp : SystemInput ℝ) (dt : ℝ) : Prop :=
  ∀ m < inp.n, ∀ m' < inp.n, ∀ (d d' : Fin 3) (f : ℕ → ℝ) times r r',
    DynamicResults inp [forceAt m d f] dt times 0 0 r → DynamicResults inp [forceAt m' d' f] dt times 0 0 r' → ∀ t < times,
      shape r t m' d' = shape r' t m d ∧ shapeRate r t m' d' = shapeRate r' t m d ∧ shapeAcceleration r t m' d' = shapeAcceleration r' t m d

end Rose.Spec
