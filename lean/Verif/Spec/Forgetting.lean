/-
Specification: how long a calculation in time steps remembers its start, and how far its results can grow (C191).
-/
import Verif.Spec.LinearDynamics

set_option linter.unusedSectionVars false

namespace Rose.Spec

/-- The total force (or moment) that the loads put on any one dof of the structure is never larger than `F`. -/
def LoadsBelow (n : ℕ) (loads : List (TimedLoad ℝ)) (F : ℝ) : Prop :=
  ∀ t, ∀ i < n, ∀ d, |loadWork (loadsAt loads t) (unitField i d)| ≤ F

/-- All displacements, velocities and accelerations that are reported at index `s` in `r` and at index `s'` in `r'` differ by at most `ε`. -/
def ReportsWithin (n : ℕ) (r : List (List (NodeRow ℝ))) (s : ℕ) (r' : List (List (NodeRow ℝ))) (s' : ℕ) (ε : ℝ) : Prop :=
  ∀ i < n, ∀ d, |shape r s i d - shape r' s' i d| ≤ ε ∧ |shapeRate r s i d - shapeRate r' s' i d| ≤ ε ∧
    |shapeAcceleration r s i d - shapeAcceleration r' s' i d| ≤ ε

/-- Calculations with the same loads from different starts do not get further apart: the energy of the difference never grows. -/
def StaysTogether (inp : SystemInput ℝ) (dt : ℝ) : Prop :=
  ∀ (loads : List (TimedLoad ℝ)) (u₀ v₀ u₁ v₁ : NodalField ℝ) times r times' r', (∀ l ∈ loads, LoadFits inp.n l) →
    DynamicResults inp loads dt times u₀ v₀ r → DynamicResults inp loads dt times' u₁ v₁ r' → ∀ s t, s ≤ t → t < times → t < times' →
      mechanicalEnergy inp (fun i d => shape r t i d - shape r' t i d) (fun i d => shapeRate r t i d - shapeRate r' t i d) ≤
        mechanicalEnergy inp (fun i d => shape r s i d - shape r' s i d) (fun i d => shapeRate r s i d - shapeRate r' s i d)

/-- For one factor `c` and one ratio `q` below 1, which belong to the structure and the step: -/
structure ForgetsWith (inp : SystemInput ℝ) (dt c q : ℝ) : Prop where
  /-- With the same loads, whatever they are, all that is left of the difference of two starts after `t` steps is its `c * q ^ t`. -/
  start : ∀ (loads : List (TimedLoad ℝ)) (D : ℝ) (u₀ v₀ u₁ v₁ : NodalField ℝ) times r times' r', 0 ≤ D → (∀ l ∈ loads, LoadFits inp.n l) →
    (∀ i < inp.n, ∀ d, |u₀ i d - u₁ i d| ≤ D ∧ |v₀ i d - v₁ i d| ≤ D) →
    DynamicResults inp loads dt times u₀ v₀ r → DynamicResults inp loads dt times' u₁ v₁ r' → ∀ t, t < times → t < times' →
      ReportsWithin inp.n r t r' t (c * q ^ t * D)
  /-- No result ever exceeds `c` times the largest load and what is left of the start: there is no resonance without bound. -/
  bounded : ∀ (loads : List (TimedLoad ℝ)) (F D : ℝ) (u₀ v₀ : NodalField ℝ) times r, 0 ≤ F → 0 ≤ D → (∀ l ∈ loads, LoadFits inp.n l) →
    LoadsBelow inp.n loads F → (∀ i < inp.n, ∀ d, |u₀ i d| ≤ D ∧ |v₀ i d| ≤ D) → DynamicResults inp loads dt times u₀ v₀ r →
      ∀ t < times, ∀ i < inp.n, ∀ d, |shape r t i d| ≤ c * (q ^ t * D + F) ∧ |shapeRate r t i d| ≤ c * (q ^ t * D + F) ∧
        |shapeAcceleration r t i d| ≤ c * (q ^ t * D + F)
  /-- Loads that repeat every `P` steps give results that repeat every `P` steps, but for `c * q ^ t` of the largest load and the start. -/
  periodic : ∀ (loads : List (TimedLoad ℝ)) (P : ℕ) (F D : ℝ) (u₀ v₀ : NodalField ℝ) times r, 0 ≤ F → 0 ≤ D → (∀ l ∈ loads, LoadFits inp.n l) →
    (∀ t, loadsAt loads (t + P) = loadsAt loads t) → LoadsBelow inp.n loads F → (∀ i < inp.n, ∀ d, |u₀ i d| ≤ D ∧ |v₀ i d| ≤ D) →
    DynamicResults inp loads dt times u₀ v₀ r → ∀ t, t + P < times → ReportsWithin inp.n r (t + P) r t (c * q ^ t * (D + F))

/-- The calculation forgets its start exponentially. -/
def Forgets (inp : SystemInput ℝ) (dt : ℝ) : Prop := ∃ c q : ℝ, 0 ≤ c ∧ 0 < q ∧ q < 1 ∧ ForgetsWith inp dt c q

end Rose.Spec
