/-
Specification: calculations that start later (C193) or run backwards (C194).
-/
import Verif.Spec.LinearDynamics

set_option linter.unusedSectionVars false

namespace Rose.Spec

/-- `later` are the same loads, `P` steps later: nothing before. -/
def Delayed (P : ℕ) (loads later : List (TimedLoad ℝ)) : Prop :=
  (∀ t < P, ∀ w, loadWork (loadsAt later t) w = 0) ∧ ∀ t w, loadWork (loadsAt later (t + P)) w = loadWork (loadsAt loads t) w

/-- `r'` reports at index `t + P` what `r` reports at index `t`. -/
def ReportsLater (n P times times' : ℕ) (r r' : List (List (NodeRow ℝ))) : Prop :=
  ∀ t, t < times → t + P < times' → ∀ i < n, shape r' (t + P) i = shape r t i ∧ shapeRate r' (t + P) i = shapeRate r t i ∧
    shapeAcceleration r' (t + P) i = shapeAcceleration r t i

/-- From rest, a delay of all loads delays the results exactly if there is no load at the first index. -/
def DelaysResults (inp : SystemInput ℝ) (dt : ℝ) : Prop :=
  ∀ (loads later : List (TimedLoad ℝ)) (P times times' : ℕ) r r', 0 < P → 0 < times → P < times' → (∀ l ∈ loads, LoadFits inp.n l) →
    (∀ l ∈ later, LoadFits inp.n l) → Delayed P loads later → DynamicResults inp loads dt times 0 0 r →
    DynamicResults inp later dt times' 0 0 r' →
      (ReportsLater inp.n P times times' r r' ↔ ∀ w, Admissible inp w → loadWork (loadsAt loads 0) w = 0)

/-- `back` are the loads in reverse order, from index `T` on. -/
def Reversed (T : ℕ) (loads back : List (TimedLoad ℝ)) : Prop :=
  ∀ t ≤ T, ∀ w, loadWork (loadsAt back t) w = loadWork (loadsAt loads (T - t)) w

/-- A calculation that starts from the results at index `T` of another one with reversed velocities, and with the loads in reverse order, goes
through the same displacements and accelerations and the reversed velocities back to its start. -/
def RunsBackwards (inp : SystemInput ℝ) (dt : ℝ) : Prop :=
  ∀ (loads back : List (TimedLoad ℝ)) (T times times' : ℕ) (u₀ v₀ : NodalField ℝ) r r', T < times → (∀ l ∈ loads, LoadFits inp.n l) →
    (∀ l ∈ back, LoadFits inp.n l) → Reversed T loads back → DynamicResults inp loads dt times u₀ v₀ r →
    DynamicResults inp back dt times' (shape r T) (fun i d => - shapeRate r T i d) r' → ∀ t ≤ T, t < times' → ∀ i < inp.n, ∀ d,
      shape r' t i d = shape r (T - t) i d ∧ shapeRate r' t i d = - shapeRate r (T - t) i d ∧
        shapeAcceleration r' t i d = shapeAcceleration r (T - t) i d

/-- No motion of the nodes of the structure within its supports loses power in dampers or Rayleigh damping. -/
def NothingDamps (inp : SystemInput ℝ) : Prop :=
  ∀ w : NodalField ℝ, Admissible inp w → (∀ i, inp.n ≤ i → w i = 0) → systemWork AssemblyPart.damping inp.parts w w + rayleighWork inp w w = 0

/-- Something takes part in the calculation. -/
def SomethingMoves (inp : SystemInput ℝ) : Prop := ∃ i < inp.n, ∃ d, ¬ Removed inp i d

end Rose.Spec
