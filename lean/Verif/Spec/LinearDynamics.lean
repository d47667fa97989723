/-
Specification of linear dynamics: what the results of a calculation in time steps have to do with its loads and its start (C179).
-/
import Verif.Spec.TrackMotion
import Verif.Spec.Statics

set_option linter.unusedSectionVars false

namespace Rose.Spec

/-- A solver that takes average acceleration steps from `u₀`, `v₀` whenever there are such steps. -/
def StepsWhenever (dt : ℝ) (times : ℕ) (u₀ v₀ : NodalField ℝ) (solver : TrimState ℝ → (List ℕ → ℕ → ℕ → ℝ) → SolverOutput ℝ) : Prop :=
  ∀ st rhs, (∃ out, AverageSteps st rhs dt times u₀ v₀ out) → AverageSteps st rhs dt times u₀ v₀ (solver st rhs)

/-- `rows` are the results of a calculation of the structure under the loads in steps of `dt` from `u₀`, `v₀`, with some such solver. -/
def DynamicResults (inp : SystemInput ℝ) (loads : List (TimedLoad ℝ)) (dt : ℝ) (times : ℕ) (u₀ v₀ : NodalField ℝ)
    (rows : List (List (NodeRow ℝ))) : Prop :=
  ∃ solver st, StepsWhenever dt times u₀ v₀ solver ∧ SystemRun.main ⟨inp, loads⟩ freshFlags times solver = .ok (st, rows)

/-- The velocities reported at output index `s`. -/
noncomputable def shapeRate (rows : List (List (NodeRow ℝ))) (s : ℕ) : NodalField ℝ := fieldOfRows (rows.getD s []) NodeRow.velocity

/-- The accelerations reported at output index `s`. -/
noncomputable def shapeAcceleration (rows : List (List (NodeRow ℝ))) (s : ℕ) : NodalField ℝ :=
  fieldOfRows (rows.getD s []) NodeRow.acceleration

/-- Kinetic and elastic energy of the structure. -/
noncomputable def mechanicalEnergy (inp : SystemInput ℝ) (u v : NodalField ℝ) : ℝ :=
  1 / 2 * systemWork AssemblyPart.mass inp.parts v v + 1 / 2 * systemWork AssemblyPart.stiffness inp.parts u u

/-- Two calculations report the same displacements, velocities and accelerations at an index. -/
def SameReport (n : ℕ) (r₁ : List (List (NodeRow ℝ))) (r₂ : List (List (NodeRow ℝ))) (s : ℕ) : Prop :=
  ∀ i < n, shape r₁ s i = shape r₂ s i ∧ shapeRate r₁ s i = shapeRate r₂ s i ∧ shapeAcceleration r₁ s i = shapeAcceleration r₂ s i

/-- The results in time steps of `dt` follow from the loads and the start causally and linearly, and their energy balances. -/
structure LinearDynamics (inp : SystemInput ℝ) (dt : ℝ) : Prop where
  /-- The calculation ends, with one list of rows per output index. -/
  ends : ∀ (loads : List (TimedLoad ℝ)) times u₀ v₀ solver, (∀ l ∈ loads, LoadFits inp.n l) → StepsWhenever dt times u₀ v₀ solver →
    ∃ st rows, SystemRun.main ⟨inp, loads⟩ freshFlags times solver = .ok (st, rows) ∧ rows.length = times
  /-- It starts where it is told to. -/
  start : ∀ (loads : List (TimedLoad ℝ)) times u₀ v₀ r, (∀ l ∈ loads, LoadFits inp.n l) → Admissible inp u₀ → Admissible inp v₀ →
    DynamicResults inp loads dt times u₀ v₀ r → 0 < times → ∀ i < inp.n, shape r 0 i = u₀ i ∧ shapeRate r 0 i = v₀ i
  /-- The results at an index depend only on the loads up to this index: not on later loads nor on the number of steps. -/
  causal : ∀ (l₁ l₂ : List (TimedLoad ℝ)) t₁ t₂ u₀ v₀ r₁ r₂, (∀ l ∈ l₁, LoadFits inp.n l) → (∀ l ∈ l₂, LoadFits inp.n l) →
    DynamicResults inp l₁ dt t₁ u₀ v₀ r₁ → DynamicResults inp l₂ dt t₂ u₀ v₀ r₂ → ∀ s, s < t₁ → s < t₂ →
      (∀ j ≤ s, loadsAt l₁ j = loadsAt l₂ j) → SameReport inp.n r₁ r₂ s
  /-- Loads and starts of two calculations together: the results are the sum. -/
  superpose : ∀ (l₁ l₂ : List (TimedLoad ℝ)) times u₁ v₁ u₂ v₂ r₁ r₂ r, (∀ l ∈ l₁, LoadFits inp.n l) → (∀ l ∈ l₂, LoadFits inp.n l) →
    DynamicResults inp l₁ dt times u₁ v₁ r₁ → DynamicResults inp l₂ dt times u₂ v₂ r₂ →
      DynamicResults inp (l₁ ++ l₂) dt times (fun i d => u₁ i d + u₂ i d) (fun i d => v₁ i d + v₂ i d) r →
      ∀ s < times, ∀ i < inp.n, ∀ d, shape r s i d = shape r₁ s i d + shape r₂ s i d ∧
        shapeRate r s i d = shapeRate r₁ s i d + shapeRate r₂ s i d ∧
        shapeAcceleration r s i d = shapeAcceleration r₁ s i d + shapeAcceleration r₂ s i d
  /-- A multiple of loads and start has the same multiple of the results. -/
  scale : ∀ (k : ℝ) (loads : List (TimedLoad ℝ)) times u₀ v₀ r r', (∀ l ∈ loads, LoadFits inp.n l) →
    DynamicResults inp loads dt times u₀ v₀ r →
      DynamicResults inp (loads.map (scaledLoad k)) dt times (fun i d => k * u₀ i d) (fun i d => k * v₀ i d) r' →
      ∀ s < times, ∀ i < inp.n, ∀ d, shape r' s i d = k * shape r s i d ∧ shapeRate r' s i d = k * shapeRate r s i d ∧
        shapeAcceleration r' s i d = k * shapeAcceleration r s i d
  /-- In a step the energy changes by the work of the mean load on the displacement in this step, less what the damping takes. -/
  energy : ∀ (loads : List (TimedLoad ℝ)) times u₀ v₀ r, (∀ l ∈ loads, LoadFits inp.n l) → DynamicResults inp loads dt times u₀ v₀ r →
    ∀ s, s + 1 < times → ∃ lost : ℝ, 0 ≤ lost ∧
      lost = dt * (systemWork AssemblyPart.damping inp.parts (fun i d => (shapeRate r s i d + shapeRate r (s + 1) i d) / 2)
          (fun i d => (shapeRate r s i d + shapeRate r (s + 1) i d) / 2) +
        rayleighWork inp (fun i d => (shapeRate r s i d + shapeRate r (s + 1) i d) / 2)
          (fun i d => (shapeRate r s i d + shapeRate r (s + 1) i d) / 2)) ∧
      mechanicalEnergy inp (shape r (s + 1)) (shapeRate r (s + 1)) - mechanicalEnergy inp (shape r s) (shapeRate r s) =
        1 / 2 * (loadWork (loadsAt loads s) (fun i d => shape r (s + 1) i d - shape r s i d) +
          loadWork (loadsAt loads (s + 1)) (fun i d => shape r (s + 1) i d - shape r s i d)) - lost

end Rose.Spec
