/-
Model of the initial state of the coupled calculation: `calculate_initial_state` of
`rose/model/train_track_interaction.py`. The static solver is external and assumed exact: the model is a relation between
the matrices and the displacements it delivers.
-/
import Verif.Model.Calculation

set_option linter.unusedSectionVars false

namespace Rose

section
variable {K : Type*} [Field K]

/-- The wheel dofs of the train at the first time, without the shift by the track dofs,
`rose/model/train_model.py:975-976`. -/
def CoupledData.IsWheel (d : CoupledData K) (i : Fin d.nv) : Prop := d.nt + i.1 ∈ (d.wheels 0).map WheelAt.dof

instance (d : CoupledData K) : DecidablePred d.IsWheel := fun i =>
  inferInstanceAs (Decidable (d.nt + i.1 ∈ (d.wheels 0).map WheelAt.dof))

/-- The displacements of `calculate_initial_state` in the first row of the coupled solver,
`rose/model/train_track_interaction.py:388-409, 315-333`: the static solution of the track for its force vector `F0`
(`rose/model/global_system.py:337-353`), the wheels on the track
(`rose/model/train_track_interaction.py:207-228`), the other train dofs solved with the rows and columns of the wheels
deleted and the force of `impose_displacement` (`rose/model/train_model.py:962-1000`). -/
structure IsInitialState (d : CoupledData K) (Kt Kv : ℕ → ℕ → K) (F0 u : ℕ → K) : Prop where
  track : ∀ i < d.nt, ∑ j ∈ Finset.range d.nt, Kt i j * u j = F0 i
  wheels : ∀ w ∈ d.wheels 0, u w.dof = dispAtWheel u w.contact
  bodies : ∀ i : {i // ¬ d.IsWheel i}, ∑ j : {j // ¬ d.IsWheel j}, Kv i.1 j.1 * u (d.nt + j.1) =
    imposeDisplacement (Matrix.of fun i j : Fin d.nv => Kv i j) (fun i : Fin d.nv => d.trainF i) d.IsWheel
      (fun j : Fin d.nv => u (d.nt + j)) i

end
end Rose
