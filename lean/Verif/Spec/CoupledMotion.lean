/-
Specification of a coupled calculation: what a solver has to deliver, the displacement of the rail under a wheel, the contact
force between wheel and rail, and what of a virtual displacement remains away from the wheels.
-/
import Verif.Model.CoupledRun
import Verif.Spec.Motion

set_option linter.unusedSectionVars false

namespace Rose.Spec
open Finset

variable {K : Type*} [Field K] [LinearOrder K] [IsStrictOrderedRing K]

/-- The solver delivers, at each output index, values that satisfy the equations of motion with a right hand side that it was
given for this index and these displacements: the non-linear iterations have converged. -/
def SolvesCoupled (sys : TrimState K) (rhs : List (ℕ × List (ℕ → K)) → List (ℕ → K) → ℕ → (ℕ → K) → ℕ → K) (times : ℕ)
    (out : SolverOutput K) : Prop :=
  ∀ t < times, ∃ sched us, ∀ i < sys.N,
    ∑ j ∈ range sys.N, (sys.M i j * out.a t j + sys.C i j * out.v t j + sys.Kg i j * out.u t j) =
      rhs sched us t (out.u t) i

/-- The vertical displacement of the rail under a wheel: the nodal values (vertical displacement and rotation of both nodes of
the element) weighted with the shape functions. -/
def railAt (w : RailWheel K) (t : ℕ) (u : NodalField K) : K :=
  w.shape t 0 * u (w.element t).1 1 + w.shape t 1 * u (w.element t).1 2 +
    (w.shape t 2 * u (w.element t).2 1 + w.shape t 3 * u (w.element t).2 2)

/-- The node belongs to an element that carries one of `n` wheels at time index `t`. -/
def UnderWheel (rail : ℕ → RailWheel K) (n t i : ℕ) : Prop :=
  ∃ w < n, i = ((rail w).element t).1 ∨ i = ((rail w).element t).2

open Classical in
/-- The field, but zero for the vertical displacement and the rotation of the nodes under the wheels. -/
noncomputable def awayFromWheels (rail : ℕ → RailWheel K) (n t : ℕ) (v : NodalField K) : NodalField K := fun i d =>
  if UnderWheel rail n t i ∧ d ≠ 0 then 0 else v i d

/-- The part of the train that has the dof. -/
def partOf : TrainDof → TrainPart
  | .cartY i => .cart i
  | .cartRot i => .cart i
  | .bogieY b => .bogie b
  | .bogieRot b => .bogie b
  | .wheelY b j => .wheel b j

/-- The direction of the dof at the node of its part: 1 vertical, 2 rotation. -/
def directionOf : TrainDof → Fin 3
  | .cartY _ => 1
  | .cartRot _ => 2
  | .bogieY _ => 1
  | .bogieRot _ => 2
  | .wheelY _ _ => 1

/-- What the node of a body reports for a dof of the train. -/
def reportedDof (row : TrainPart → Option (NodeRow K)) (result : NodeRow K → Fin 3 → K) (d : TrainDof) : K :=
  (((row (partOf d)).map result).getD 0) (directionOf d)

/-- The contact force on wheel `w` (bogie and number `p`) for the reported displacements of track and train: the contact law
for the displacement of the wheel plus its static deformation minus the displacement of the rail under it. -/
def wheelForce (rail : ℕ → RailWheel K) (t : ℕ) (u : NodalField K) (ut : TrainDof → K) (w : ℕ) (p : ℕ × ℕ) : K :=
  (rail w).law t (ut (.wheelY p.1 p.2) + (rail w).static - railAt (rail w) t u)

/-- Coefficient of the mass in Rayleigh damping. -/
def rayleighMass (on : Bool) (ratio w1 w2 : K) : K := if on then 2 * ratio * w1 * w2 / (w1 + w2) else 0

/-- Coefficient of the stiffness in Rayleigh damping. -/
def rayleighStiffness (on : Bool) (ratio w1 w2 : K) : K := if on then 2 * ratio / (w1 + w2) else 0

/-- The row of dof `d` of a matrix of the train, applied to values of the dofs. -/
def trainRow (t : Train K) (A : ℕ → ℕ → K) (x : TrainDof → K) (dofs : List TrainDof) (d : TrainDof) : K :=
  (dofs.map fun e => A (t.dof d) (t.dof e) * x e).sum

end Rose.Spec
