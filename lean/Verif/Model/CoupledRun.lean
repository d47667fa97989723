/-
Model of a whole coupled calculation: initialisation of train and track, numbering and matrices of the coupled system, the
solver as a parameter that asks for right hand sides, and the results on the nodes
(`rose/model/train_track_interaction.py`).
-/
import Verif.Model.Results
import Verif.Model.TrainSystem

set_option linter.unusedSectionVars false

namespace Rose

section
variable {K : Type*} [Field K] [LinearOrder K] [IsStrictOrderedRing K]

/-- A wheel on the rail per time index: the nodes of the contact element as positions in `mesh.nodes` of the track
(`rose/model/train_track_interaction.py:87-116`, C40), the shape factors (145-163, C42), the nodal forces of the moving load
on the rail nodes that stands for the static wheel load (434-481, C32, C33), the static contact deformation (170-181) and the
contact law (183-205, C41). -/
structure RailWheel (K : Type*) where
  element : ℕ → ℕ × ℕ
  shape : ℕ → Fin 4 → K
  load : ℕ → ℕ → Fin 3 → K
  static : K
  law : ℕ → K → K

/-- The input of a coupled calculation: track (`timed` are its loads that are not moving loads), nodes and active dofs of the
wheel loads (`rose/model/train_track_interaction.py:434-481`), train, gravity, start distances of the carts, the wheels on
the rail by their number, Rayleigh damping of the coupled system (`rose/model/train_track_interaction.py:16-52`,
`rose/model/global_system.py:47-74`). -/
structure CoupledRun (K : Type*) where
  track : SystemRun K
  railNodes : List ℕ
  railAct : Fin 3 → Bool
  train : Train K
  g : K
  start : ℕ → K
  rail : ℕ → RailWheel K
  isRayleigh : Bool
  ratio : K
  w1 : K
  w2 : K

/-- `train.wheels`: bogie and number of each wheel, `rose/model/train_model.py:655-670`. -/
def Train.wheelList (t : Train K) : List (ℕ × ℕ) :=
  t.bogies.flatMap fun b => (List.range (t.bogie b).wheels.length).map fun j => (b, j)

/-- `initialize_wheel_loads`, `rose/model/train_track_interaction.py:434-481`: the loads of the track followed by one moving load
on the rail nodes for every wheel. -/
def CoupledRun.loadedTrack (c : CoupledRun K) : SystemRun K :=
  { c.track with
    timed := c.track.timed ++ (List.range c.train.wheelList.length).map fun w =>
      { nodes := c.railNodes, act := c.railAct, source := .moving (c.rail w).load } }

/-- The contact dofs of a rail element with equation numbers `eqn`, `rose/model/train_track_interaction.py:108-113`. -/
def railDofs (eqn : ℕ → Fin 3 → Option ℕ) (e : ℕ × ℕ) : Fin 4 → Option ℕ := ![eqn e.1 1, eqn e.1 2, eqn e.2 1, eqn e.2 2]

/-- `index_dof` of the node of a part of the train after `initialise_ndof` of the coupled system,
`rose/model/train_track_interaction.py:337-353`. -/
def CoupledRun.trainIdx {H : Type*} [DecidableEq H] (hash : (Fin 3 → K) → H) (c : CoupledRun K) (nt : ℕ) (p : TrainPart) :
    Fin 3 → Option ℕ :=
  shiftDofs nt (c.train.trimmedIdx c.g (c.train.initialMesh hash c.start) p)

/-- The train after `train.initialise`, `rose/model/train_model.py:898-936`. -/
def CoupledRun.trainState {H : Type*} [DecidableEq H] (hash : (Fin 3 → K) → H) (c : CoupledRun K) : TrimState K :=
  trimAll (c.train.system c.g (c.train.initialMesh hash c.start))

/-- The data of the force vector: sizes, the force vector of the train and the wheels per time index, with the contact dofs of
the train in the coupled numbering (`rose/model/train_track_interaction.py:87-163, 348, 536-565`). -/
def CoupledRun.data {H : Type*} [DecidableEq H] (hash : (Fin 3 → K) → H) (c : CoupledRun K) (st : TrimState K) :
    CoupledData K :=
  { nt := st.N
    nv := (c.trainState hash).N
    trainF := (c.trainState hash).F
    wheels := fun t => (c.train.contactDofs (c.trainIdx hash st.N)).mapIdx fun w dof =>
      { dof := dof
        contact := ⟨railDofs (nodeEquations st.nodes) ((c.rail w).element t), (c.rail w).shape t⟩
        static := (c.rail w).static
        law := (c.rail w).law t } }

/-- Mass, damping and stiffness of the coupled system: `combine_global_matrices` and `calculate_rayleigh_damping` of
`calculate_initial_state`, `rose/model/train_track_interaction.py:307-335, 387-409`, `rose/model/global_system.py:390-415`. The
nodes are those of the track mesh followed by those of the train mesh with shifted indices (337-353). -/
def CoupledRun.system {H : Type*} [DecidableEq H] (hash : (Fin 3 → K) → H) (c : CoupledRun K) (st : TrimState K) :
    TrimState K :=
  let tv := c.trainState hash
  let M := combineMatrices st.N tv.N st.M tv.M
  let C := combineMatrices st.N tv.N st.C tv.C
  let S := combineMatrices st.N tv.N st.Kg tv.Kg
  { nodes := st.nodes ++ tv.nodes.map fun n => { n with idx := shiftDofs st.N n.idx }
    N := st.N + tv.N
    M := M
    C := if c.isRayleigh then
        let a := rayleighFactors c.ratio c.w1 c.w2
        fun i j => C i j + (M i j * a.1 + S i j * a.2)
      else C
    Kg := S
    F := combineRhs st.N tv.N (fun _ => 0) st.F tv.F }

/-- What `update_non_linear_iteration(t, u)` returns to the solver after the time steps and iterations `sched`, the call of
`update_time_step_rhs(t)` and the iterations `us` of this time step, `rose/model/train_track_interaction.py:230-285`. -/
def CoupledRun.rhs {H : Type*} [DecidableEq H] (hash : (Fin 3 → K) → H) (c : CoupledRun K) (st : TrimState K)
    (sched : List (ℕ × List (ℕ → K))) (us : List (ℕ → K)) (t : ℕ) (u : ℕ → K) : ℕ → K :=
  ((c.data hash st).iterate t u
    ((c.data hash st).run ⟨c.loadedTrack.loaded st, (c.system hash st).F⟩ (sched ++ [(t, us)]))).1

/-- The results of a coupled calculation: the track after initialisation, and per output index the rows of the nodes of the
track mesh and of the train mesh (`rose/model/train_track_interaction.py:355-369`). -/
structure CoupledResult (K : Type*) where
  track : TrimState K
  trackRows : List (List (NodeRow K))
  trainRows : List (List (NodeRow K))

/-- `main`, `rose/model/train_track_interaction.py:588-613`, without validation, the initial state of the solver (C46, C104) and
the forces in the elements: initialise, let the solver compute `times` output rows, assign them to the nodes of track and
train (355-369). The external solver is one function of the coupled system and of the right hand sides it can ask for. -/
def CoupledRun.main {H : Type*} [DecidableEq H] (hash : (Fin 3 → K) → H) (c : CoupledRun K) (flags : ℕ → Fin 3 → Bool)
    (times : ℕ)
    (solver : TrimState K → (List (ℕ × List (ℕ → K)) → List (ℕ → K) → ℕ → (ℕ → K) → ℕ → K) → SolverOutput K) :
    Except Err (CoupledResult K) := do
  let st ← c.loadedTrack.input.initialise flags
  let out := solver (c.system hash st) (c.rhs hash st)
  let trackRows ← (List.range times).mapM fun t => st.nodes.mapM (nodeRow out t)
  let trainRows ← (List.range times).mapM fun t =>
    ((c.trainState hash).nodes.map fun n => { n with idx := shiftDofs st.N n.idx }).mapM (nodeRow out t)
  .ok ⟨st, trackRows, trainRows⟩

/-- The results that the node object of a part of the train has, if it is in the mesh (`rose/model/geometry.py:54-85`,
`rose/model/train_track_interaction.py:366-369`). -/
def CoupledRun.partRow {H : Type*} [DecidableEq H] (hash : (Fin 3 → K) → H) (c : CoupledRun K) (rows : List (NodeRow K))
    (p : TrainPart) : Option (NodeRow K) :=
  let m := c.train.initialMesh hash c.start
  rows[m.mesh.idxOf (m.node p)]?

end
end Rose
