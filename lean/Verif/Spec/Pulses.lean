/-
Specification: calculations that are continued (C196), and results as the sum of the responses to pulses (C197).
-/
import Verif.Spec.Reciprocity

set_option linter.unusedSectionVars false

namespace Rose.Spec
open Finset

/-- A calculation that starts with the displacements and velocities of index `T` of another one, under the loads from there on, reports the same
as the other one from there on. -/
def Continues (inp : SystemInput ℝ) (dt : ℝ) : Prop :=
  ∀ (loads rest : List (TimedLoad ℝ)) (T times times' : ℕ) (u₀ v₀ : NodalField ℝ) r r', T < times → (∀ l ∈ loads, LoadFits inp.n l) →
    (∀ l ∈ rest, LoadFits inp.n l) → (∀ t w, loadWork (loadsAt rest t) w = loadWork (loadsAt loads (t + T)) w) →
    DynamicResults inp loads dt times u₀ v₀ r → DynamicResults inp rest dt times' (shape r T) (shapeRate r T) r' →
    ∀ t < times', t + T < times → ∀ i < inp.n, shape r' t i = shape r (t + T) i ∧ shapeRate r' t i = shapeRate r (t + T) i ∧
      shapeAcceleration r' t i = shapeAcceleration r (t + T) i

/-- A force of one at index `j` and none at all other indices. -/
def pulse (j : ℕ) : ℕ → ℝ := fun s => if s = j then 1 else 0

/-- The results `x` at index `t`, if `free` are those without force and `h₀`, `h₁` the responses to pulses at index 0 and 1. -/
noncomputable def pulseSum (σ : ℕ → ℝ) (free h₀ h₁ : ℕ → ℝ) (t : ℕ) : ℝ := free t + σ 0 * h₀ t + ∑ s ∈ range t, σ (s + 1) * h₁ (t - s)

/-- Whatever the course of a force at a dof, the results are those without the force and the sum of the responses to its values, each as long after
the value as the response to one pulse. The pulse at index 0 is special. -/
def FromPulses (inp : SystemInput ℝ) (dt : ℝ) : Prop :=
  ∀ m < inp.n, ∀ (d : Fin 3) (σ : ℕ → ℝ) (times : ℕ) (u₀ v₀ : NodalField ℝ) r f p₀ p₁, DynamicResults inp [forceAt m d σ] dt times u₀ v₀ r →
    DynamicResults inp [] dt times u₀ v₀ f → DynamicResults inp [forceAt m d (pulse 0)] dt times 0 0 p₀ →
    DynamicResults inp [forceAt m d (pulse 1)] dt times 0 0 p₁ → ∀ t < times, ∀ i < inp.n, ∀ e,
      shape r t i e = pulseSum σ (fun s => shape f s i e) (fun s => shape p₀ s i e) (fun s => shape p₁ s i e) t ∧
      shapeRate r t i e = pulseSum σ (fun s => shapeRate f s i e) (fun s => shapeRate p₀ s i e) (fun s => shapeRate p₁ s i e) t ∧
      shapeAcceleration r t i e =
        pulseSum σ (fun s => shapeAcceleration f s i e) (fun s => shapeAcceleration p₀ s i e) (fun s => shapeAcceleration p₁ s i e) t

end Rose.Spec
