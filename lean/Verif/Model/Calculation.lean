/-
Model of the calculation after initialisation: load objects and their mutable force vectors, the right hand side per time
step, non-linear iterations of the coupled system, the initial forces and the loop over the stages
(`rose/model/global_system.py`, `rose/model/boundary_conditions.py`, `rose/model/train_track_interaction.py`).
-/
import Verif.Model.System
import Verif.Model.Coupled

set_option linter.unusedSectionVars false

namespace Rose

section
variable {K : Type*} [Field K]

/-! ### Load objects -/

/-- Where a load condition takes its nodal forces from: a `LoadCondition` from its force matrices `[node, time]`
(`rose/model/boundary_conditions.py:128-137`), a `MovingPointLoad` from the position of the load at the time
(`rose/model/boundary_conditions.py:579-641`; the values are the subject of C32, C33). -/
inductive LoadSource (K : Type*) where
  | table (values : ℕ → ℕ → Fin 3 → K)
  | moving (values : ℕ → ℕ → Fin 3 → K)

/-- A load condition object: equation numbers of its nodes, active dofs, source and the current force vectors
(`rose/model/boundary_conditions.py:39-65`). -/
structure LoadObject (K : Type*) where
  nodes : List (Fin 3 → Option ℕ)
  act : Fin 3 → Bool
  source : LoadSource K
  vector : List (Fin 3 → K)

/-- `initialize`: zero vectors (`rose/model/boundary_conditions.py:88-109`); a moving load then calls `update_force(0)`
(`rose/model/boundary_conditions.py:239-281, 575-577`). -/
def LoadObject.initialize (o : LoadObject K) : LoadObject K :=
  { o with
    vector := match o.source with
      | .table _ => List.replicate o.nodes.length fun _ => 0
      | .moving f => (List.range o.nodes.length).map fun i => f i 0 }

/-- `update_force(t)`: the loop over the nodes of `LoadCondition` (`rose/model/boundary_conditions.py:128-137`); a moving load
fills its vectors with zeros first and adds the forces of the loaded element (`rose/model/boundary_conditions.py:579-641`),
which is the same as setting the values of all nodes. -/
def LoadObject.updateForce (t : ℕ) (o : LoadObject K) : LoadObject K :=
  { o with
    vector := match o.source with
      | .table f => (List.range o.nodes.length).foldl (fun v i => v.set i (f i t)) o.vector
      | .moving f => (List.range o.nodes.length).map fun i => f i t }

/-- The load as `__add_condition_to_global` reads it, `rose/model/global_system.py:179-194`. -/
def LoadObject.part (o : LoadObject K) : LoadPart K := { nodes := o.nodes, act := o.act, force := o.vector }

/-- The loads and the force vector of a `GlobalSystem`, `rose/model/global_system.py:47-74`. -/
structure LoadedSystem (K : Type*) where
  loads : List (LoadObject K)
  F : ℕ → K

/-- The force vector after `initialise`: the loop over the loads of `add_model_parts_to_global_matrices`
(`rose/model/global_system.py:325-328`), after `initialise_model_parts`. Numbering changes are the subject of C09. -/
def LoadedSystem.initialise (s : LoadedSystem K) : LoadedSystem K :=
  let loads := s.loads.map LoadObject.initialize
  { loads := loads, F := timeStepRhs (loads.map LoadObject.part) }

/-- `update_time_step_rhs`, `rose/model/global_system.py:495-515`. -/
def LoadedSystem.step (t : ℕ) (s : LoadedSystem K) : LoadedSystem K :=
  let loads := s.loads.map (LoadObject.updateForce t)
  { loads := loads, F := timeStepRhs (loads.map LoadObject.part) }

/-! ### The coupled system -/

/-- A wheel at one time: its contact dof, its contact with the rail, its static contact deformation and the contact law at
this time as function of the differential displacement, `rose/model/train_track_interaction.py:183-205, 241-250`. -/
structure WheelAt (K : Type*) where
  dof : ℕ
  contact : WheelContact K
  static : K
  law : K → K

/-- The mutable forces of the coupled system: the track with its force vector and the coupled force vector,
`rose/model/train_track_interaction.py:230-305`. -/
structure CoupledForces (K : Type*) where
  track : LoadedSystem K
  F : ℕ → K

/-- What does not change during a calculation: numbers of track and train dofs, the train's force vector, the wheels at every
time, `rose/model/train_track_interaction.py:230-305`. -/
structure CoupledData (K : Type*) where
  nt : ℕ
  nv : ℕ
  trainF : ℕ → K
  wheels : ℕ → List (WheelAt K)

/-- The contact force on a wheel, `rose/model/train_track_interaction.py:240-250`. -/
def WheelAt.force (u : ℕ → K) (w : WheelAt K) : K := w.law (u w.dof + w.static - dispAtWheel u w.contact)

/-- `update_time_step_rhs` of the coupled system, `rose/model/train_track_interaction.py:271-285`. -/
def CoupledData.step (d : CoupledData K) (t : ℕ) (s : CoupledForces K) : CoupledForces K :=
  let track := s.track.step t
  { track := track, F := combineRhs d.nt d.nv s.F track.F d.trainF }

/-- `update_force_vector_contact`, `rose/model/train_track_interaction.py:230-259`, on a force vector `F`: the new vector and the
track's force vector, which `set_wheel_load_on_track` changes in place (66-85). -/
def CoupledData.contact (d : CoupledData K) (t : ℕ) (u F Ft : ℕ → K) : (ℕ → K) × (ℕ → K) :=
  (updateContactForces d.nt F Ft ((d.wheels t).map fun w => (w.dof, w.contact, w.force u)),
    setWheelLoads Ft ((d.wheels t).map fun w => (w.contact, -w.force u)))

/-- `update_non_linear_iteration`, `rose/model/train_track_interaction.py:261-269`: works on a copy of the coupled force vector.
Returns the force vector for the solver and the new state. -/
def CoupledData.iterate (d : CoupledData K) (t : ℕ) (u : ℕ → K) (s : CoupledForces K) : (ℕ → K) × CoupledForces K :=
  let r := d.contact t u s.F s.track.F
  (r.1, { s with track := { s.track with F := r.2 } })

/-- `update_force_vector`, `rose/model/train_track_interaction.py:287-297`: works on the coupled force vector itself. -/
def CoupledData.updateForceVector (d : CoupledData K) (t : ℕ) (u : ℕ → K) (s : CoupledForces K) :
    (ℕ → K) × CoupledForces K :=
  let r := d.contact t u s.F s.track.F
  (r.1, { track := { s.track with F := r.2 }, F := r.1 })

/-- A run of the solver: for each entry a time step and then the displacements of its non-linear iterations, in order. The
solver itself is external. `rose/model/train_track_interaction.py:536-565`. -/
def CoupledData.run (d : CoupledData K) (s : CoupledForces K) (schedule : List (ℕ × List (ℕ → K))) : CoupledForces K :=
  schedule.foldl (fun s e => e.2.foldl (fun s u => (d.iterate e.1 u s).2) (d.step e.1 s)) s

end

/-! ### Stages -/

/-- The calls of the stage loop of `main`: `update(start, ..)` and `calculate_stage(start, end)`,
`rose/model/global_system.py:657-673`, `rose/model/train_track_interaction.py:588-611`. -/
def stageCalls : List ℕ → List (ℕ × ℕ)
  | a :: b :: l => (a, b) :: stageCalls (b :: l)
  | _ => []

/-- The stage loop with an abstract solver that computes from a start to an end index,
`rose/model/global_system.py:657-673`. -/
def runStages {S : Type*} (calculate : S → ℕ → ℕ → S) (ids : List ℕ) (s : S) : S :=
  (stageCalls ids).foldl (fun s c => calculate s c.1 c.2) s

end Rose
