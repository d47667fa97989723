/-
Specification of a calculation: what a solver has to deliver, and what the nodal results have to satisfy (d'Alembert's
principle: in every admissible virtual displacement the inertia, damping and stiffness forces of all parts do the work of
the loads).
-/
import Verif.Model.Results
import Verif.Spec.Work

set_option linter.unusedSectionVars false

namespace Rose.Spec
open Finset

variable {K : Type*} [Field K] [LinearOrder K] [IsStrictOrderedRing K]

/-- The solver delivers, at each output index, values that satisfy the equations of motion with a right hand side that it
was given for this index. -/
def SolvesMotion (st : TrimState K) (rhs : List ℕ → ℕ → ℕ → K) (times : ℕ) (out : SolverOutput K) : Prop :=
  ∀ t < times, ∃ asked, ∀ i < st.N, ∑ j ∈ range st.N, (st.M i j * out.a t j + st.C i j * out.v t j + st.Kg i j * out.u t j) =
    rhs asked t i

/-- The solver delivers, at each output index, displacements in equilibrium with a right hand side that it was given for
this index. -/
def SolvesStatics (st : TrimState K) (rhs : List ℕ → ℕ → ℕ → K) (times : ℕ) (out : SolverOutput K) : Prop :=
  ∀ t < times, ∃ asked, ∀ i < st.N, ∑ j ∈ range st.N, st.Kg i j * out.u t j = rhs asked t i

/-- The nodal forces that the input prescribes at time index `t`. -/
def loadsAt (loads : List (TimedLoad K)) (t : ℕ) : List (NodalLoad K) :=
  loads.map fun l =>
    { nodes := l.nodes, act := l.act
      force := (List.range l.nodes.length).map fun i => match l.source with | .table f => f i t | .moving f => f i t }

/-- The field of one of the results of the nodes. -/
def fieldOfRows (rows : List (NodeRow K)) (result : NodeRow K → Fin 3 → K) : NodalField K := fun i =>
  ((rows[i]?).map result).getD 0

/-- Rayleigh damping work: coefficients `a₀` of the mass and `a₁` of the stiffness with `a₀ = 2 ξ ω₁ ω₂ / (ω₁ + ω₂)` and
`a₁ = 2 ξ / (ω₁ + ω₂)`. -/
def rayleighWork (inp : SystemInput K) (v u : NodalField K) : K :=
  if inp.isRayleigh then
    2 * inp.ratio * inp.w1 * inp.w2 / (inp.w1 + inp.w2) * systemWork AssemblyPart.mass inp.parts v u +
      2 * inp.ratio / (inp.w1 + inp.w2) * systemWork AssemblyPart.stiffness inp.parts v u
  else 0

/-- The dof is removed from the equations: its last support holds it, or moving it alone by one does a mass or stiffness work
below the tolerance. -/
def Removed (inp : SystemInput K) (i : ℕ) (d : Fin 3) : Prop :=
  Supported inp.constraints i d ∨
    |systemWork AssemblyPart.mass inp.parts (unitField i d) (unitField i d)| ≤ 1 / 10 ^ 8 ∨
    |systemWork AssemblyPart.stiffness inp.parts (unitField i d) (unitField i d)| ≤ 1 / 10 ^ 8

/-- A displacement field that respects the supports and does not move removed dofs. -/
def Admissible (inp : SystemInput K) (v : NodalField K) : Prop := ∀ i < inp.n, ∀ d, Removed inp i d → v i d = 0

end Rose.Spec
