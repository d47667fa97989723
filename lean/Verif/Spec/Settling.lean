/-
Specification: dynamic results under loads that stay constant, compared with static results (C183).
-/
import Verif.Spec.LinearDynamics

set_option linter.unusedSectionVars false

namespace Rose.Spec

/-- Under loads that stay constant from index `s` on, the results come as near as wanted to the static results and stay there, however large the
steps and whatever the start. -/
def SettlesDown (inp : SystemInput ℝ) (dt : ℝ) : Prop :=
  ∀ (loads : List (TimedLoad ℝ)) (s : ℕ) (u₀ v₀ : NodalField ℝ) timesS rs, (∀ l ∈ loads, LoadFits inp.n l) →
    (∀ t ≥ s, loadsAt loads t = loadsAt loads s) → StaticResults inp loads timesS rs → s < timesS → ∀ ε > (0 : ℝ), ∃ T : ℕ,
      ∀ times r, DynamicResults inp loads dt times u₀ v₀ r → ∀ t < times, T ≤ t → ∀ i < inp.n, ∀ d,
        |shape r t i d - shape rs s i d| ≤ ε ∧ |shapeRate r t i d| ≤ ε ∧ |shapeAcceleration r t i d| ≤ ε

/-- Loads that act suddenly on the structure at rest and stay constant. -/
structure AtMostTwice (inp : SystemInput ℝ) (dt : ℝ) : Prop where
  /-- They never do more than twice the work that they do on the static displacements, and never negative work. -/
  work : ∀ (loads : List (TimedLoad ℝ)) timesS rs times r, (∀ l ∈ loads, LoadFits inp.n l) → (∀ t, loadsAt loads t = loadsAt loads 0) →
    StaticResults inp loads timesS rs → 0 < timesS → DynamicResults inp loads dt times 0 0 r → ∀ t < times,
      0 ≤ loadWork (loadsAt loads 0) (shape r t) ∧ loadWork (loadsAt loads 0) (shape r t) ≤ 2 * loadWork (loadsAt loads 0) (shape rs 0)
  /-- A single force never moves its dof further than twice the static displacement, and never to the other side. -/
  point : ∀ m < inp.n, ∀ (d : Fin 3) (f : ℝ) timesS rs times r,
    StaticResults inp [⟨[m], fun e => decide (e = d), .table fun _ _ e => if e = d then f else 0⟩] timesS rs → 0 < timesS →
    DynamicResults inp [⟨[m], fun e => decide (e = d), .table fun _ _ e => if e = d then f else 0⟩] dt times 0 0 r → ∀ t < times,
      |shape r t m d| ≤ 2 * |shape rs 0 m d| ∧ 0 ≤ shape r t m d * shape rs 0 m d

end Rose.Spec
