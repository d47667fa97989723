/-
Specification of the motion of a structure as fields of its nodes in continuous time, and of a solver that takes steps with the average
acceleration (C173).
-/
import Verif.Spec.Motion
import Verif.Spec.TimeSteps

namespace Rose.Spec
open Finset

/-- A load condition in continuous time: nodes, active dofs, and the force on the `i`-th node at time `t`. -/
structure ContinuousLoad where
  nodes : List ℕ
  act : Fin 3 → Bool
  force : ℕ → ℝ → Fin 3 → ℝ

/-- The nodal forces at time `t`. -/
def ContinuousLoad.at (l : ContinuousLoad) (t : ℝ) : NodalLoad ℝ :=
  { nodes := l.nodes, act := l.act, force := (List.range l.nodes.length).map fun i => l.force i t }

/-- The load condition that a user enters for the times `0, dt, 2 dt, …`: the table of its values at these times. -/
def ContinuousLoad.sampled (l : ContinuousLoad) (dt : ℝ) : TimedLoad ℝ :=
  { nodes := l.nodes, act := l.act, source := .table fun i n => l.force i (n * dt) }

/-- The motion of a structure from time zero on: `V` is the rate of the displacements `U`, `A` the rate of `V`; all respect the supports; and at
all times, in every admissible virtual displacement, the inertia, damping and stiffness forces of all parts do the work of the loads. -/
structure FieldMotion (inp : SystemInput ℝ) (loads : List ContinuousLoad) (U V A : ℝ → NodalField ℝ) : Prop where
  velocity : ∀ t ≥ 0, ∀ i < inp.n, ∀ d, HasDerivWithinAt (fun s => U s i d) (V t i d) (Set.Ici 0) t
  acceleration : ∀ t ≥ 0, ∀ i < inp.n, ∀ d, HasDerivWithinAt (fun s => V s i d) (A t i d) (Set.Ici 0) t
  admissible : ∀ t ≥ 0, Admissible inp (U t) ∧ Admissible inp (V t) ∧ Admissible inp (A t)
  balance : ∀ t ≥ 0, ∀ w, Admissible inp w →
    systemWork AssemblyPart.mass inp.parts w (A t) + (systemWork AssemblyPart.damping inp.parts w (V t) + rayleighWork inp w (V t)) +
      systemWork AssemblyPart.stiffness inp.parts w (U t) = loadWork (loads.map fun l => l.at t) w

/-- The solver starts from the displacements `u₀` and velocities `v₀` of the nodes and takes `times - 1` steps of the Newmark method with the
average acceleration (`β = 1/4`, `γ = 1/2`) and the step size `dt`. -/
structure AverageSteps (st : TrimState ℝ) (rhs : List ℕ → ℕ → ℕ → ℝ) (dt : ℝ) (times : ℕ) (u₀ v₀ : NodalField ℝ) (out : SolverOutput ℝ) :
    Prop where
  start : ∀ i d k, nodeEquations st.nodes i d = some k → out.u 0 k = u₀ i d ∧ out.v 0 k = v₀ i d
  motion : SolvesMotion st rhs times out
  displacement : ∀ n, n + 1 < times → ∀ k < st.N, out.u (n + 1) k = out.u n k + dt * out.v n k + dt ^ 2 * (out.a n k + out.a (n + 1) k) / 4
  velocity : ∀ n, n + 1 < times → ∀ k < st.N, out.v (n + 1) k = out.v n k + dt * (out.a n k + out.a (n + 1) k) / 2

/-- A load condition that fits a mesh of `n` nodes: different nodes of the mesh, and forces that are continuous in time. -/
structure ContinuousLoad.Fits (l : ContinuousLoad) (n : ℕ) : Prop where
  nodup : l.nodes.Nodup
  mesh : ∀ m ∈ l.nodes, m < n
  continuous : ∀ i < l.nodes.length, ∀ d, ContinuousOn (fun t => l.force i t d) (Set.Ici 0)

/-- From all displacements `u₀` and velocities `v₀` that respect the supports there is one motion of the structure. A calculation with the loads at
the times `0, dt, 2 dt, …` and a solver that takes average acceleration steps (if there are such steps) ends without error with one row of results
for each time; and if `dt` is small enough then the displacements, velocities and accelerations reported at all nodes and times up to `T` differ
from the motion by no more than `ε`. -/
def ReportsMotion (inp : SystemInput ℝ) (loads : List ContinuousLoad) : Prop :=
  ∀ u₀ v₀ : NodalField ℝ, Admissible inp u₀ → Admissible inp v₀ →
    ∃ U V A, FieldMotion inp loads U V A ∧ (∀ i < inp.n, U 0 i = u₀ i ∧ V 0 i = v₀ i) ∧
      (∀ U' V' A', FieldMotion inp loads U' V' A' → (∀ i < inp.n, U' 0 i = u₀ i ∧ V' 0 i = v₀ i) →
        ∀ t ≥ (0 : ℝ), ∀ i < inp.n, U' t i = U t i ∧ V' t i = V t i ∧ A' t i = A t i) ∧
      ∀ T > (0 : ℝ), ∀ ε > (0 : ℝ), ∃ δ > (0 : ℝ), ∀ dt : ℝ, 0 < dt → dt < δ → ∀ (times : ℕ)
        (solver : TrimState ℝ → (List ℕ → ℕ → ℕ → ℝ) → SolverOutput ℝ),
        (∀ st rhs, (∃ out, AverageSteps st rhs dt times u₀ v₀ out) → AverageSteps st rhs dt times u₀ v₀ (solver st rhs)) →
        ∃ st rows, SystemRun.main ⟨inp, loads.map fun l => l.sampled dt⟩ freshFlags times solver = .ok (st, rows) ∧ rows.length = times ∧
          ∀ n (hn : n < rows.length), n * dt ≤ T → ∀ i < inp.n, ∀ d,
            |fieldOfRows rows[n] NodeRow.displacement i d - U (n * dt) i d| ≤ ε ∧
            |fieldOfRows rows[n] NodeRow.velocity i d - V (n * dt) i d| ≤ ε ∧
            |fieldOfRows rows[n] NodeRow.acceleration i d - A (n * dt) i d| ≤ ε

end Rose.Spec
