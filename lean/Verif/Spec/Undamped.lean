/-
Specification: vibration about the static displacements under loads that stay constant (C187).
-/
import Verif.Spec.LinearDynamics

set_option linter.unusedSectionVars false

namespace Rose.Spec

/-- By how much the displacements at index `t` differ from the static displacements under the loads of index `s`. -/
noncomputable def deviation (r rs : List (List (NodeRow ℝ))) (s t : ℕ) : NodalField ℝ := fun i d => shape r t i d - shape rs s i d

/-- The energy of the vibration about the static displacements. -/
noncomputable def vibration (inp : SystemInput ℝ) (r rs : List (List (NodeRow ℝ))) (s t : ℕ) : ℝ :=
  mechanicalEnergy inp (deviation r rs s t) (shapeRate r t)

/-- The loads stay constant from index `s` on, `rs` are static results and `r` are results in time steps under these loads. -/
structure ConstantFrom (inp : SystemInput ℝ) (dt : ℝ) (s : ℕ) (loads : List (TimedLoad ℝ)) (timesS : ℕ) (rs : List (List (NodeRow ℝ)))
    (times : ℕ) (u₀ v₀ : NodalField ℝ) (r : List (List (NodeRow ℝ))) : Prop where
  fits : ∀ l ∈ loads, LoadFits inp.n l
  constant : ∀ t ≥ s, loadsAt loads t = loadsAt loads s
  static : StaticResults inp loads timesS rs
  covered : s < timesS
  dynamic : DynamicResults inp loads dt times u₀ v₀ r

/-- While the loads stay constant, the energy of the vibration about the static displacements never grows, however large the steps. -/
def VibrationDecays (inp : SystemInput ℝ) (dt : ℝ) : Prop :=
  ∀ s loads timesS rs times u₀ v₀ r, ConstantFrom inp dt s loads timesS rs times u₀ v₀ r → ∀ t t', s ≤ t → t ≤ t' → t' < times →
    0 ≤ vibration inp r rs s t' ∧ vibration inp r rs s t' ≤ vibration inp r rs s t

/-- A structure that never comes to rest by itself. -/
structure NeverSettles (inp : SystemInput ℝ) (dt : ℝ) : Prop where
  /-- While the loads stay constant, the energy of the vibration about the static displacements stays the same. -/
  keeps : ∀ s loads timesS rs times u₀ v₀ r, ConstantFrom inp dt s loads timesS rs times u₀ v₀ r → ∀ t, s ≤ t → t < times →
    vibration inp r rs s t = vibration inp r rs s s
  /-- Unless it is at rest in the static displacements at the first index of the constant loads, there is a distance from this state that no
  later index falls below. -/
  away : ∀ s loads timesS rs times₁ u₀ v₀ r₁, ConstantFrom inp dt s loads timesS rs times₁ u₀ v₀ r₁ → s < times₁ →
    (∃ i < inp.n, ∃ d, shape r₁ s i d ≠ shape rs s i d ∨ shapeRate r₁ s i d ≠ 0) →
    ∃ ε > (0 : ℝ), ∀ times r, DynamicResults inp loads dt times u₀ v₀ r → ∀ t, s ≤ t → t < times →
      ∃ i < inp.n, ∃ d, ε < |shape r t i d - shape rs s i d| ∨ ε < |shapeRate r t i d|

end Rose.Spec
