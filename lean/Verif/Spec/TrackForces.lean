/-
Specification of the forces in a loaded track (C126), independent of the way the program computes them.
-/
import Verif.Spec.Motion

set_option linter.unusedSectionVars false

namespace Rose.Spec
open Finset

variable {K : Type*} [Field K] [LinearOrder K] [IsStrictOrderedRing K]

/-- The sum of the forces that the loads exert on a node in a direction (x, y or rotation). -/
def loadOn (loads : List (NodalLoad K)) (m : ℕ) (d : Fin 3) : K :=
  (loads.map fun l => ∑ j ∈ range l.nodes.length,
    if l.nodes.getD j 0 = m ∧ l.act d = true then (l.force.getD j fun _ => 0) d else 0).sum

/-- The force that the masses and dampers put up against the motion of a node in a direction: the work of the inertia and
damping forces of the whole system, with accelerations `a` and velocities `v`, when only this dof is moved by one. -/
def motionOn (inp : SystemInput K) (v a : NodalField K) (m : ℕ) (d : Fin 3) : K :=
  systemWork AssemblyPart.mass inp.parts (unitField m d) a +
    (systemWork AssemblyPart.damping inp.parts (unitField m d) v + rayleighWork inp (unitField m d) v)

/-- Forces in a track with `n` sleepers, `r` rail elements of length `l` per sleeper: axial force, shear force and bending
moment of the rail element from rail node `k` to rail node `k + 1`, the tension of the pad between rail node `i * r` and
sleeper `i`, and of the soil spring under sleeper `i`. -/
structure InternalForces (K : Type*) where
  axial : ℕ → K
  shear : ℕ → K
  moment : ℕ → K
  pad : ℕ → K
  soil : ℕ → K

/-- What rail element `k` of a rail with `nodes` nodes exerts: its value, zero outside the rail. -/
def onRail (nodes : ℕ) (f : ℕ → K) (k : ℕ) : K := if k + 1 < nodes then f k else 0

/-- What the element to the left of rail node `k` exerts. -/
def leftOf (nodes : ℕ) (f : ℕ → K) (k : ℕ) : K := if k = 0 then 0 else onRail nodes f (k - 1)

/-- The pad below rail node `k`, if there is one. -/
def padBelow (r : ℕ) (f : ℕ → K) (k : ℕ) : K := if r ∣ k then f (k / r) else 0

/-- The forces balance the loads `P` on the rail nodes and `Q` (vertical) on the sleepers at every node: shear forces, pad
tension and vertical load; axial forces and horizontal load (not at the two rail ends, which are held); moments (those at
the ends of an element differ from its mean moment by half of the shear force times the length) and moment load; and pad,
soil and load on the sleeper. -/
structure Balanced (n r : ℕ) (l : K) (F : InternalForces K) (P : ℕ → Fin 3 → K) (Q : ℕ → K) : Prop where
  vertical : ∀ k < n * r,
    onRail (n * r) F.shear k - leftOf (n * r) F.shear k + padBelow r F.pad k = P k 1
  horizontal : ∀ k, 0 < k → k + 1 < n * r → onRail (n * r) F.axial k - leftOf (n * r) F.axial k = P k 0
  rotation : ∀ k < n * r,
    onRail (n * r) F.moment k - leftOf (n * r) F.moment k +
      l / 2 * (onRail (n * r) F.shear k + leftOf (n * r) F.shear k) = P k 2
  sleeper : ∀ i < n, F.soil i - F.pad i = Q i
  total : ∑ i ∈ range n, F.soil i = ∑ k ∈ range (n * r), P k 1 + ∑ i ∈ range n, Q i
  totalMoment : ∑ i ∈ range n, (i * r : ℕ) * l * F.soil i =
    ∑ k ∈ range (n * r), (k * l * P k 1 + P k 2) + ∑ i ∈ range n, (i * r : ℕ) * l * Q i

end Rose.Spec
