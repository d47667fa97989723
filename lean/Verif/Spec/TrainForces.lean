/-
Specification of the balance of forces in a track under a train (C167).
-/
import Verif.Spec.TrackForces
import Verif.Spec.TrainOnTrack

set_option linter.unusedSectionVars false

namespace Rose.Spec
open Finset

/-- The work of the inertia and damping forces of a track in the virtual displacement `δ`, with velocities `v` and accelerations `a`: masses, dampers,
Rayleigh damping of the track and Rayleigh damping of the coupled model with the coefficients `a₀` and `a₁`. -/
noncomputable def motionWork (inp : SystemInput ℝ) (a₀ a₁ : ℝ) (v a δ : NodalField ℝ) : ℝ :=
  systemWork AssemblyPart.mass inp.parts δ a +
    (systemWork AssemblyPart.damping inp.parts δ v + rayleighWork inp δ v +
      (a₀ * systemWork AssemblyPart.mass inp.parts δ v + a₁ * systemWork AssemblyPart.stiffness inp.parts δ v))

/-- The sum of the tensions (first column of the reported forces) of the vertical springs `es`, each times `f` of its two nodes. -/
noncomputable def springSum (es : List (ℕ × ℕ)) (forces : List (Fin 3 → ℝ)) (f : ℕ × ℕ → ℝ) : ℝ :=
  ((es.zip forces).map fun x => f x.1 * x.2 0).sum

/-- The sum of the tensions of the vertical springs whose upper end is node `i`. -/
noncomputable def springsBelow (es : List (ℕ × ℕ)) (forces : List (Fin 3 → ℝ)) (i : ℕ) : ℝ := springSum es forces fun e => if e.1 = i then 1 else 0

/-- The sum of the tensions of the vertical springs whose lower end is node `i`. -/
noncomputable def springsAbove (es : List (ℕ × ℕ)) (forces : List (Fin 3 → ℝ)) (i : ℕ) : ℝ := springSum es forces fun e => if e.2 = i then 1 else 0

/-- Rail and sleepers raised by `h`, the rail turned by `slope`, everything else at rest. -/
noncomputable def raised (rail sleepers : List ℕ) (h : ℕ → ℝ) (slope : ℝ) : NodalField ℝ := fun i d =>
  if i ∈ rail then ![0, h i, slope] d else if i ∈ sleepers then ![0, h i, 0] d else 0

/-- A rail of `m` nodes with elements of length `l` is in balance at every node: `beams` are axial force, shear force and mean moment of the elements,
`below k` the pull of what hangs on rail node `k`, `P` the outer forces. Horizontally not at the ends, which are held. -/
structure RailBalanced (m : ℕ) (l : ℝ) (beams : List (Fin 3 → ℝ)) (below : ℕ → ℝ) (P : ℕ → Fin 3 → ℝ) : Prop where
  horizontal : ∀ k, 0 < k → k + 1 < m → onRail m (fun j => beams.getD j 0 0) k - leftOf m (fun j => beams.getD j 0 0) k = P k 0
  vertical : ∀ k < m, onRail m (fun j => beams.getD j 0 1) k - leftOf m (fun j => beams.getD j 0 1) k + below k = P k 1
  rotation : ∀ k < m, onRail m (fun j => beams.getD j 0 2) k - leftOf m (fun j => beams.getD j 0 2) k +
    l / 2 * (onRail m (fun j => beams.getD j 0 1) k + leftOf m (fun j => beams.getD j 0 1) k) = P k 2

end Rose.Spec
