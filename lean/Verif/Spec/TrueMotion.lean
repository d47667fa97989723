/-
Specification: the motion in continuous time that the results of a calculation in time steps stand for (C195).
-/
import Verif.Spec.LinearDynamics
import Verif.Spec.Vibration

set_option linter.unusedSectionVars false

namespace Rose.Spec
open Finset

/-- Work of the forces `P` at the nodes in the field `w`. -/
noncomputable def nodeForceWork (n : ℕ) (P w : NodalField ℝ) : ℝ := ∑ i ∈ range n, ∑ d : Fin 3, w i d * P i d

/-- A motion of the structure from time zero on under forces `P t` at its nodes: `v` are the rates of the displacements `u` and `a` those of the
velocities, the supports are respected, and at all times inertia, damping and stiffness forces do the work of the forces in every admissible
field. -/
structure TrueMotion (inp : SystemInput ℝ) (P u v a : ℝ → NodalField ℝ) : Prop where
  admissible : ∀ t ≥ 0, Admissible inp (u t) ∧ Admissible inp (v t) ∧ Admissible inp (a t)
  outside : ∀ t ≥ 0, ∀ i, inp.n ≤ i → u t i = 0 ∧ v t i = 0 ∧ a t i = 0
  velocity : ∀ t ≥ 0, ∀ i < inp.n, ∀ d, HasDerivWithinAt (fun s => u s i d) (v t i d) (Set.Ici 0) t
  acceleration : ∀ t ≥ 0, ∀ i < inp.n, ∀ d, HasDerivWithinAt (fun s => v s i d) (a t i d) (Set.Ici 0) t
  balance : ∀ t ≥ 0, ∀ w, Admissible inp w → systemWork AssemblyPart.mass inp.parts w (a t) +
    (systemWork AssemblyPart.damping inp.parts w (v t) + rayleighWork inp w (v t)) +
    systemWork AssemblyPart.stiffness inp.parts w (u t) = nodeForceWork inp.n (P t) w

/-- The loads at index `k` are the forces at time `k * dt`, for all indices of a calculation that ends at `T` or before. -/
def Sampled (inp : SystemInput ℝ) (P : ℝ → NodalField ℝ) (T dt : ℝ) (times : ℕ) (loads : List (TimedLoad ℝ)) : Prop :=
  (∀ l ∈ loads, LoadFits inp.n l) ∧ ∀ k : ℕ, k < times → k * dt ≤ T ∧
    ∀ w, Admissible inp w → loadWork (loadsAt loads k) w = nodeForceWork inp.n (P (k * dt)) w

/-- All reported displacements, velocities and accelerations are within `ε` of the motion at their times. -/
def CloseToMotion (n : ℕ) (u v a : ℝ → NodalField ℝ) (dt : ℝ) (times : ℕ) (r : List (List (NodeRow ℝ))) (ε : ℝ) : Prop :=
  ∀ k : ℕ, k < times → ∀ i < n, ∀ d, |shape r k i d - u (k * dt) i d| ≤ ε ∧ |shapeRate r k i d - v (k * dt) i d| ≤ ε ∧
    |shapeAcceleration r k i d - a (k * dt) i d| ≤ ε

/-- The calculation in time steps stands for the motion of the structure. -/
structure ApproachesMotion (inp : SystemInput ℝ) : Prop where
  /-- Under forces that are continuous in time there is a motion from every admissible start. -/
  exist : ∀ (P : ℝ → NodalField ℝ) (u₀ v₀ : NodalField ℝ), (∀ i < inp.n, ∀ d, ContinuousOn (fun t => P t i d) (Set.Ici 0)) →
    Admissible inp u₀ → Admissible inp v₀ → ∃ u v a, TrueMotion inp P u v a ∧ ∀ i < inp.n, u 0 i = u₀ i ∧ v 0 i = v₀ i
  /-- There is only one. -/
  unique : ∀ (P : ℝ → NodalField ℝ) u v a u' v' a', (∀ i < inp.n, ∀ d, ContinuousOn (fun t => P t i d) (Set.Ici 0)) →
    TrueMotion inp P u v a → TrueMotion inp P u' v' a' → (∀ i < inp.n, u' 0 i = u 0 i ∧ v' 0 i = v 0 i) →
    ∀ t ≥ 0, u' t = u t ∧ v' t = v t ∧ a' t = a t
  /-- Over every period and for every tolerance the results agree with the motion within the tolerance, if the steps are small enough. -/
  converge : ∀ (P : ℝ → NodalField ℝ) u v a, (∀ i < inp.n, ∀ d, ContinuousOn (fun t => P t i d) (Set.Ici 0)) → TrueMotion inp P u v a →
    ∀ T > (0 : ℝ), ∀ ε > (0 : ℝ), ∃ δ > (0 : ℝ), ∀ dt : ℝ, 0 < dt → dt < δ → ∀ times loads r, Sampled inp P T dt times loads →
      DynamicResults inp loads dt times (u 0) (v 0) r → CloseToMotion inp.n u v a dt times r ε
  /-- If the forces are twice continuously differentiable, the difference is at most a constant times the square of the step size. -/
  secondOrder : ∀ (P P' P'' : ℝ → NodalField ℝ) u v a,
    (∀ i < inp.n, ∀ d, ∀ t ≥ 0, HasDerivWithinAt (fun s => P s i d) (P' t i d) (Set.Ici 0) t) →
    (∀ i < inp.n, ∀ d, ∀ t ≥ 0, HasDerivWithinAt (fun s => P' s i d) (P'' t i d) (Set.Ici 0) t) →
    (∀ i < inp.n, ∀ d, ContinuousOn (fun t => P'' t i d) (Set.Ici 0)) → TrueMotion inp P u v a →
    ∀ T > (0 : ℝ), ∃ c : ℝ, ∀ dt : ℝ, 0 < dt → ∀ times loads r, Sampled inp P T dt times loads →
      DynamicResults inp loads dt times (u 0) (v 0) r → CloseToMotion inp.n u v a dt times r (c * dt ^ 2)

end Rose.Spec
