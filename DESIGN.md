# ROSE in Lean 4 — design

Subject: PlatypusBytes/ROSE (python, `/repo/rose`), a 2D finite element model of a railway track, a multi-body
train model, their coupling, and empirical settlement models. The code is read as text; it is not run.

## 1. Method

* `lean/Verif/Model/*`  — the model: total functions that mirror the python functions branch by branch. Every
  definition cites `file:lines` and says what is simplified.
* `lean/Verif/Spec/*`   — small independent specifications (what a stranger would write from the English text).
* `lean/Verif/Lemmas/*` — helper lemmas.
* `lean/Verif/Props/*`  — the property theorems, one section per property id, with non-vacuity examples beside them.

Conventions of the model

* Python/numpy floats are modelled by exact arithmetic in an arbitrary linearly ordered field `K`
  (so the theorems hold over the rationals, where the model is executable, and over the reals). Where the code uses
  `sqrt`, `cos`, `atan`, `**` with a real exponent or `exp`, the model is over `ℝ`. Rounding, overflow and
  denormals are not modelled; tolerances (`1e-9`, `np.isclose`) that are part of the logic are.
* Exceptions are values (`Except Err`), including the ones python raises implicitly (index errors, type errors from
  `None`, unpacking errors) where the property is about them.
* Mutable objects that can be aliased are modelled by object identifiers into a store (particle swarm, shared bogies,
  node merge); everything else by functional update.
* numpy arrays are lists or functions on `Fin n`; scipy sparse matrices are modelled by their dense meaning plus, for
  assembly, the coordinate list with summation of duplicates.
* External solvers (`solvers.*`), `scipy`, `gstools`, `matplotlib`, pickle/json I/O are not modelled. Where a function
  calls one, the call is a parameter of the model.

## 2. Trusted base

* Lean 4.33.0 kernel, and the three standard axioms `propext`, `Classical.choice`, `Quot.sound`
  (see section 5 for the `#print axioms` audit).
* The reading of the python source by which the model definitions were written (no mechanical link).
* The assumed meaning of the numpy/scipy primitives that are modelled: `np.cumsum`, `np.diff`, `np.unique`,
  boolean/fancy indexing (including: fancy `+=` evaluates once per distinct index), `np.linspace`, `np.isclose`,
  `coo_matrix` (sums duplicates), `dict.fromkeys` (insertion-ordered, first key kept, hash then `==`).

## 3. Plan per property

Shape: A algebraic law, I invariant by induction, R refinement to a spec, D decision logic, N negation with witness.

| id | modelled | how proved |
|----|----------|------------|
| C01 | `Node` equality (tolerance), hash (rounding, parameter), `dict.fromkeys` insertion on a node store | I over calls; no-duplicates only for nodes that share a hash (partial); N: two nodes 4e-10 apart on both sides of a rounding boundary stay |
| C02 | side effects of `__eq__` in the insertion | I over the inserted list |
| C03 | `Element.__eq__`/`__hash__` | I; N: reversed duplicate stays |
| C04 | reorder loops | A |
| C05 | `initialise_ndof` loop | A (closed form 3·i+d) |
| C06 | `add_aux_matrix_to_global` as coordinate list + dense meaning | R: dense meaning = sum over elements; permutation invariance |
| C07 | same | A: quadratic form identity, symmetric, psd |
| C08 | `reshape_aux_matrix` four nested loops with writes | R: closed form of the written array |
| C09 | `trim_all_global_matrices`, `delete_from_lil`, `recalculate_dof` | R: both are described by the strictly increasing list of kept indices |
| C10 | `set_constraint_condition` over parts | N: later part releases earlier support; partial: last part wins |
| C11 | `_assign_result_to_node`, boolean-mask assignment | R |
| C12 | Rayleigh factors | A over an ordered field |
| C13 | `set_stage_time_ids` (`np.unique` first indices) | I; uniform step only if no step size recurs (partial); N |
| C14 | load ramp | A |
| C15 | `update_dof_indices`, `__add_condition_to_global` with last-write-wins fancy `+=` | R for conditions without repeated nodes (partial); N |
| C16 | `calculate_force_in_elements` with the part's last rotation | N, partial for one orientation |
| C17–C20 | rod and beam matrices built by the same fancy assignments | A, psd by sums of squares |
| C21–C23 | shape functions | A; derivative over ℝ; C23 partial + N |
| C24 | `rotate_aux_matrix` | partial for horizontal/vertical rods; N for inclined; exact characterisation |
| C25 | `rotate_point_around_z_axis`, `calculate_rotation` | A over ℝ |
| C26 | `__set_rigid_part_stiffness_matrix` | A; refinement to a beam with rotational end springs |
| C27 | `calculate_local_forces_at_x` | end values; N for linearity |
| C28–C31 | moving load bookkeeping: cumsum, filter, element and part pointers | I over time steps with the exact step-size hypothesis (partial); N |
| C32, C33 | nodal distribution with the shared buffers | A; N for combined loads |
| C34 | dof numbering of a train with shared bogies on a store | I over visits |
| C35, C36 | train matrices as sums of writes | A; partial when first moments vanish; N for the SLT end cart |
| C37, C38 | static load distribution on a store | I; N for the second initialisation |
| C39 | distances | A |
| C40 | `impose_displacement` + static solve as a hypothesis | N (sign), exact residual |
| C41, C42 | Hertz law over ℝ with NaN as a value | A, D |
| C43, C44 | writing wheel loads to the track, interpolation | R when no rail dof is shared (partial); N |
| C45–C47 | coupled assembly, position check, load list | R, D, I |
| C48–C52 | mesh generators | R by induction on sizes; N at the hinge ends, for sleeper spacing with r > 1 |
| C53–C61 | accumulation models | I over cycles and stages; N for counts, start time, single output step |
| C62–C64 | irregularities | D, A over ℝ |
| C65–C67 | default trains | R; N for two locomotives |
| C68 | residual function with deep copy | A over arbitrary model step |
| C69–C71 | particle swarm with aliasing store | I over iterations; N |
| C72 | Kalman filter, independent mode | I over measurements |
| C73, C74 | Hmax | N; D over the band table |
| C75, C76 | layering, log-normal parameters | A |
| C77 | interaction force | A |
| C78 | validation against a process-wide log cache | N, partial with a clean log |
| C79 | semi-rigid beam against a beam with rotational end springs | R: iff with existential internal rotations |
| C80 | wheel distance along the contact element | R: identity by induction over the time steps on a level rail; negation for a rail at another level |
| C81 | reference test | R: closed form of the settlement of one train by induction over the passages; negation: the reference sum stops one cycle early |
| C82 | writing settlement results | S: directory part of a name, set of directories; negation for bare names |
| C83 | irregularities on repeated initialisation | A; N for the second one |
| C84 | dictionary of a train | R; N for mixed trains |
| C85 | parameters of the optimisation | I over the listed attributes |
| C86 | residual of the optimisation | R for one result name; N for further names, a single position, further result sets |
| C87 | Kalman filter, dependent components | N: elementwise gain |
| C88 | effective values | A over lists |
| C89 | attribute `omega` and the frequencies of the loop | A: first one agrees (partial); N: all others differ |
| C90 | `__read_SoS`, `__classify`, `__initial_stress` | R: interface levels; telescoping sum by induction |
| C91 | `sigma_v0`, `__strength` against the weight of the column | A: exact condition; equal unit weights (partial); N: peat on sand |
| C92 | `__dev_stress` with its 100 points | A: closed form by the angle subtended; bound; maximum over the points only (partial); N: the centre line is missed |
| C93 | `compute_cumulative_distance` on the joined coordinates | I over the points |
| C94 | `weighted_avg_and_std` with `np.average` | A over lists |
| C95 | the loop over the segments | I for consecutive segments (partial), two segments (partial); N: three segments with the last one at the beginning |
| C96 | `argmin` as a recursion | I |
| C97 | `closest_idx` and the four cases | D for segments of two points (partial); N: second point taken for the last |
| C98 | nodal distribution against the textbook displacement field | A: shear-rigid (partial), exact conditions; N: shear-flexible example |
| C99 | distances of consecutive nodes, tolerance of the comparison, rejection | A: exact acceptance, all generated tracks; elements between consecutive nodes (partial); N: nodes in another order |
| C100 | per body writes of mass and weight at its dofs | A: sum over the bodies, independent specification of kinetic energy and total mass |
| C101 | store of node objects, visits in code order, merging by position | A: induction over the visits, invariant on the store |
| C102 | train system as input of the trimming model | A: bodies with mass and stiffness (partial); N: wheels with the default mass 0 are removed |
| C103 | contact dofs after trimming | A: bodies with mass and stiffness (partial); N: wheels with the default mass 0 have none |
| C104 | trimmed against assembled equations | A: exact residual and condition, undisplaced or uncoupled removed dofs (partial); N: two massless layers in series |
| C105 | hinge stiffness from the element length stored by the generation | A: exact realised fixity, one rail element per sleeper (partial); N: two rail elements per sleeper |
| C106 | `SystemInput.initialise` composes numbering, assembly, trimming and damping of the real code; `Spec/Work.lean` defines the work per part | A: for horizontal elements and vertical rods (partial), and for all structures with the mirrored axes; N: inclined spring |
| C107 | `initialiseAgain`, `initialiseTimes` start from the dof flags left in the node objects | A: induction over the repetitions |
| C108 | `initialiseAgain first second` | A: exact condition (iff) and partial; N: a removed support keeps its dof locked |
| C109 | state machine of the force vectors (`CoupledData.run`) | A: invariant over the schedule, values from `C15`, `C43` |
| C110 | `CoupledData.updateForceVector` | A: exact difference, track dofs (partial); N: the force on a wheel is counted twice |
| C111 | `LoadedSystem.initialise` | A: exact condition, moving loads (partial); N: a fixed load is missing |
| C112 | `stageCalls`, `runStages` on `stageTimeIds` | A: induction over the list of stage ends |
| C113 | relation between matrices, loads and the displacements of calculate_initial_state (solver assumed exact), the first right hand side from the model of the calculation | exact residual at every dof (C113_unbalanced), C113_iff; violated by the sign of impose_displacement (C113_violated) |
| C114 | static loads and stiffness matrix of Model/Train and Model/TrainSystem | spring forces at every dof (C114_spring_forces_partial, balanced springs), reactions for carts on two symmetric bogies with two symmetric wheels (C114_reactions_partial), violated for unsymmetric carts (C114_violated) |
| C115 | the system that a generated track hands to GlobalSystem.initialise (Model/TrackSystem.lean), on top of mesh generation (C48), boundaries (C52), initialisation (C106) | energy of the assembled system is a sum over rail elements, pads and soil springs; zero energy makes every rail element move rigidly (C19), the pads at two sleepers stop the motion; a definite matrix has one solution by linear algebra; for the necessity a motion without force is exhibited |
| C116 | as C115 | unit displacements of rail and sleeper dofs do more than 1e-8 of mass and stiffness work, those of the x and rotation dofs of sleepers none; counting through the bijection of C106 |
| C117 | as C115 with mass and damping | the mass work is the integral of C20, the damping work a sum of squares plus Rayleigh's combination; sum of a definite and two semidefinite forms |
| C118 | ReadTrainInfo and read_traffic in full (Model/Traffic.lean), exact numbers, integer days | the count is the size of a set of passages (day, hour, train, axle); floor of linspace is natural division; monotonicity because there are not more outputs than cycles |
| C119 | stiffness matrix of Model/Beam.lean; closed-form cantilever in Spec/Cantilever.lean | direct computation; uniqueness from the kernel of the energy (C19) |
| C120 | strainAt of Model/Beam.lean | algebra and linearity of the integral |
| C121 | SystemRun.main (Model/Results.lean): initialise, external solver as parameter, rows of the nodes; Spec/Motion.lean: solver contract, admissible fields, loads of a time | composition of C106, C109, C11; uniqueness from C115; negation for an inclined spring |
| C122 | `Model/FullTrains`: all constants of the default trains and the train objects built from them; `Spec/TrainSheet`: data sheets | the train is a row of equal carts, parts and loads by the theorems on start places and static loads, behaviour by C35, C36 and C114; SLT: measures and loads proved, behaviour refuted (its springs are unbalanced) |
| C123 | `Model/TrainSystem`; positions of rest as solutions of the equations of the bodies with given wheels | energy is zero only without elongation of springs, so the equations are injective and hence solvable; SLT by eliminating the carts |
| C124 | The whole calculation (`Model/CoupledRun.lean`): initialisation of track and train, coupled numbering and matrices, the solver as a parameter that asks for right hand sides, results on the nodes. | Assembly of the track as virtual work (C106, C121), the force vector under the wheels (C43, C44), the train matrices as springs between bodies (C36, C118); counterexample with a track load under a wheel. |
| C125 | Composition: the track of C115, the distances and loads of C27-C33, the contact of C40-C42 and the coupled calculation of C124, from the mesh and the train to the reported rows (Model/TrainOnTrack). The specification has only positions, the cubic deflection of the rail and the Hertz force (Spec/TrainOnTrack). | The coupled input of a ride is computed in closed form for generated tracks (element indices, shape functions, wheel loads under the wheels), then C124; default trains by C122 and lower bounds for masses and stiffnesses; a free-falling train away from the rail shows that the condition on the solver can be met for every valid ride. |
| C126 | element forces of all parts of a run (Model/ElementForces on top of Model/Results and Model/TrackSystem) | virtual work of the reported field (C121) with unit and rigid motions of rail and sleepers, the work of each element written with its reported force |
| C127 | columns read by the demo script and its loop over the soil elements (Model/ElementForces) | evaluation of the reported forces; fold over the soil elements with distinct equations; the pad column is zero (violated) |
| C128 | collecting the results as a fold over the listed files, dictionaries as association lists | invariant of the fold: the value is that of the last uninterrupted run of files; equality with the sum exactly if the files are contiguous; violated in general |
| C129 | the table as the zip of two dictionaries | rows are always right; complete iff segments are listed in the order of the soil data; violated in general |
| C130 | names as lists of characters, split, strip, endswith and in as on strings | induction over the characters; exact conditions; violated for underscores and names without segment |
| C131 | filtering and pairing of listed names; members of the Varandas class as a list | exact condition on the orders; violated; no settlement is ever written |
| C132 | nested loops as mapM over the dictionaries on top of the layering of C75 | induction over both loops |
| C133 | the calculation as an arbitrary function on the (deep-copied) model; files as a dictionary; slices as lists | induction over the scenarios with different names |
| C134 | the distance as a running sum over stored steps | closed formula; equal to the travelled distance for constant velocity; violated if the velocity changes |
| C135 | dictionaries as association lists | induction over the segments and scenarios; writing the table violated for all inputs |
| C136 | combined mesh over node objects of all segments, joints and renumbering | induction over the segments: nodes do not coincide after moving, so nothing is merged |
| C137 | system of the combined track with one soil part and bottom boundary per segment | positive definiteness of the sum of the element energies |
| C138 | coupled run on the numbered combined track | the rail of a combined track is evenly spaced and placed in the mesh, so the motion theorem of C125 applies |
| C139 | `Model/Demo`: geometry, materials, times, velocities, soils, one calculation and the loop over the trains. | The values are shown to meet the conditions of C138; closed forms of times and positions; the loop is run symbolically. The SLT train is refused (one cart), so that the shipped scripts stop at their second train: violated. |
| C140 | `HorizontalTrack.hingedRail`, `railContact` (Model/HingedTrack): the rail parts of a track with a hinge, and the contact element per time step from the concatenated nodes and elements | places of the concatenated nodes (three nodes occur twice), invariant of the pointer along the path (on its interval, or on an interval without length and at most half an element beyond it); right before the hinge (`_before_partial`); `_start_violated`, `_passed_violated`, `_end_violated` from the invariant |
| C141 | the system of a generated track with the cut rail (Model/HingedSystem) | energy of the cut rail is zero only for a rail bent at the hinge; pads exclude it, or a displacement without force shows that the equations are singular |
| C142 | The script as a loop over scenarios around the combined track with one segment, the default trains and the coupled run | By the theorems on combined tracks (C138), times and positions (C139) and velocities of a case (C133); the shipped numbers fit for all trains but the SLT; the type INTERCITY asked for by the script does not exist, so the script as it is stops on loading (proved as violated) |
| C143 | the moving loads and the wheel-rail contact on the concatenated rail parts, `coupledOnHinged`, `mainOnHinged` | the wheels in front of the hinge get their own element (C140), the conditions of C124 hold for the hinged system, so its equations of motion are those of the specification; behind the hinge a virtual displacement of the element under the wheel alone shows that no force acts there |
| C144 | the mass matrices of the parts of a track with and without hinge, `demoSystem` with the mass of the hinge | the beam element has mass rho A l in translation (C20), rods and sleepers theirs; summed over the chain of rail elements; splitting the rail at the hinge leaves the mass work unchanged |
| C145 | Model/Analytical.lean: the mesh and the two formulas of `compute`; Spec/SimpleBeam.lean: virtual work of a beam on two supports | integrate the virtual work by parts on both sides of the load; uniqueness by taking the difference as virtual deflection |
| C146 | Model/SimpleBeam.lean: the model of the benchmark for any number of elements as a static run of the global system | work of a beam element on linear bending moments, summed over the chain; uniqueness by definiteness of the supported chain |
| C147 | Model/AnalyticalModes.lean: the sum over the modes; Spec/Modes.lean: virtual work of inertia, damping and bending on each shape | orthogonality of the shapes turns the virtual work into one oscillator per mode; uniqueness by an energy argument |
| C148 | Model/AnalyticalModes.lean: `dampedAt`; the same specification with damping | the step response of a damped oscillator, uniqueness by energy |
| C149 | Model/AnalyticalTimoshenko.lean: the sum over the modes with the roots as parameter; Spec/TimoshenkoModes.lean: virtual work of deflection and rotation | frequencies by the determinant of the mode; the amplitude of the first mode contradicts its equations (π² ≠ 12); the sum at midspan by the zeta value at 4 |
| C150 | `OneDimWavePropagation.solution` over the reals with the loops over times, places and terms | derivatives term by term; Fourier series of the second Bernoulli polynomial for the front, telescoping bound of the tail |
| C151 | `TwoDofVehicle.compute` with the Newmark loop over the reals | the system solved in a step is equivalent to the two laws at the new time; induction over the steps; the missing term is zero exactly without a damper |
| C152 | `PulseLoadNoDamping` of cantilever_beam.py over the reals with `scipy.optimize.root` as a parameter | integration by parts gives orthogonality and the modal mass; convergence of the trapezoidal rule; uniqueness by the energy of an oscillator |
| C153 | Model/AnalyticalHinge has the two branches of the formula; Spec/HingedBeam says what a deflection of a clamped-hinged-supported beam under a point load is (piecewise cubic shapes, supports, no moment at the hinge, equilibrium of forces at the load and the hinge). | Uniqueness through reciprocity with a unit load at the hinge; the maximum by monotonicity of the deflection of the clamped part; a load on the right part gives a counterexample to the maximum. |
| C154 | Model/AnalyticalWinkler has every coefficient and root of the code over the complex numbers with the principal square root; Spec/FoundationWave says what a motion of a beam on two foundations under an approaching load is, and what its transform after time zero is. | Sums of exponentials with their dispersion relation; signs of the real parts of the roots; the coefficients as Lagrange interpolation of powers; conjugate pairs make the displacements real. The numerical inversion of the transform is not compared with the motion after time zero. |
| C155 | Model/Signal (convolution, weights, maxima); the filtered signal is an input. | Geometric sum of the weights, bounds of the exponential by its tangent, convolution of a constant. |
| C156 | the parts of the benchmark through the model of add_semi_rigid_hinge_at_x, the global system with its trimming, and the static solver as a parameter that solves the equations | C50 for the split; only supported dofs and the rotation at the hinge are trimmed; no admissible field is free of energy; the nodal values of the unit influence line do the work of a load at the hinge on every admissible field; reciprocity |
| C157 | combined track, its system and `trimAllGlobalMatrices` | a degree of freedom is trimmed exactly if a boundary removes it or no element gives it stiffness; counted with the node lists of the combination |
| C158 | the solver's output restricted to a list of step indices, `main` of a system and of a coupled model on it, columns of times and velocities of the file | the reports of `main` are evaluated row by row, so restriction commutes with reporting; motion from C138 |
| C159 | a row of carts with arbitrary data as a train of the coupled run (C125, C138) | the conditions of the coupled run are derived from distances of carts, bogies and axles; the cargo trains are such rows (C122). Further locomotives overlap the wagons (C122), so one locomotive |
| C160 | `Model/Calibration`: base model, `displacements_out`, the optimisation on it | numbers of unknowns from C157 and the numbering of the train, the reported rows of C124, history from C68; both indices are the same, so the two residuals are equal: violated |
| C161 | `CombinedTrack.hingedSystem` (Model/HingedCombined.lean): the four rail parts, the pad and sleeper parts and one soil part per segment | the cut rail of a sound track is a `HingedStanding` system; definiteness of C141 is reused; the pads of a combined track hold a pin if a sleeper is behind it |
| C162 | `TrackRide.mainOnHingedCombined`, `DemoInput.calculateHinged`, `semiRigidScript` (Model/HingedCombined.lean) | the lemmas of C143 for an even rail and a given system, applied to the numbered combined track; the values of the scripts are checked against their conditions |
| C163 | the parts of the model with their classes and the four writers over the combined and hinged track of C136/C161 | the order of pads, sleepers and springs of a combined track; the pieces of a rail cut at a hinge put together again; induction over the segments |
| C164 | the writer of the batch over the track of C142 and the reader of C126 | rows of the two lists in the file (two per sleeper, one per sleeper); homogeneity of the peak; counterexample rows |
| C165 | create_rf with the standard field of gstools as a parameter and the inputs of the two scripts | places of numpy.linspace; C139 and C162 for the runs |
| C166 | solver as an object with type, result arrays and a function for one stage; `main` with its stage loop over `set_stage_time_ids` | refinement to the run of C121 / C124 with the composed solver; induction over the stages with a row-local invariant; counterexample with a returning step size; unknown type: the arrays stay as initialised |
| C167 | finalise of the coupled model on a combined track (Model/TrainForces.lean) | virtual work (C138) in the displacements of single dofs and in the rigid motions of rail and sleepers; stiffness work expressed by the reported forces |
| C168 | `Model/KalmanSteps.lean`: the arrays `A`, `B`, `H`, `C` with a time axis, the slices by index (negative indices count from the end), one pass with given matrices | `C168_matrices`, `C168_runs` by induction over the measurements; `C168_tracks`: the prediction of an exact state is exact and an exact measurement leaves it; `C168_mean`: inverse variances and weighted estimates add up |
| C169 | nodal loads and shape functions as in C98, stiffness with springs as in C79; `Spec/SemiRigidLoad.lean` gives the loaded beam on rotational springs by slope-deflection equations, clamped reactions and spring laws | `C169_loads_iff`, `C169_deflection_iff` exact conditions (unit rotation of one spring), `C169_moment` by solving the spring law, `C169_hinge_violated` for the parts of a rail with a hinge |
| C170 | Model/Beam; Spec/ElasticBeam states the differential equations, energies and springs independently of any shape function. | The fields are polynomials because their derivatives are known; everything is then an identity in the values at the first end; existence and uniqueness of the state for all end displacements; equivalences for deflection and inertia. |
| C171 | two runs of the whole static calculation (`createHorizontalTrack` … `SystemRun.main`) of one track | virtual work: a field on the fine mesh that lies on the elastic curve has the work of the coarse field (C170), positive definiteness gives uniqueness; forces through the shape functions |
| C172 | The initialised system of generated, combined and hinged tracks (models of C106, C117, C137, C161), unchanged | The mass matrix of the rail element is positive definite (integral of its field, `C20_beam_mass_pos`). A dof without kinetic energy that is not on the rail has a zero diagonal and was trimmed, so the trimmed mass matrix is positive definite. Symmetry goes through the work of the parts. Existence of the motion by the exponential of the first-order system, uniqueness by the energy law, free vibrations by the quadratic equation of the forms (Lemmas/Oscillator, Spec/Vibration) |
| C173 | The calculation of C121 and the matrices of C172, unchanged; the solver is a parameter (external package), restricted to outputs that satisfy the recurrence of the Newmark method (`Spec/TimeSteps.lean`, `Spec/TrackMotion.lean`), where C121 only asks for the balance at each output | Each step is a linear system with the matrix M + gamma dt C + beta dt^2 K, positive definite, hence solvable. Boundedness: the mass form of the accelerations plus (beta - gamma/2) dt^2 times their stiffness form plus the stiffness form of the velocities never grows; displacements then follow from the balance. Convergence: the error of displacements and velocities satisfies the recurrence with a residue bounded by the trapezoidal rule; its energy norm grows per step by at most the residue (Cauchy-Schwarz for semidefinite forms). The reported rows represent the vectors of the solver (C106, C121), and the balance of vectors is the balance of works of fields, so motions of vectors and of fields correspond one to one |
| C174 | the coupled matrices and the force callback of CoupledRun (C124), rides on generated, combined and hinged tracks (C125, C138, C162), solver as parameter | the coupled matrices are symmetric, mass positive definite, damping and stiffness semidefinite (C172 for the track, C36 for the train); the contact force is a continuous function of the distance of wheel and rail that never decreases; a step is the minimum of a coercive function with a monotone gradient, so it exists and is unique; induction over the steps; the results depend only on the dofs of the system |
| C175 | Static calculation with an abstract solver (Spec.SolvesWhenever); superposition, reciprocity, energy stated on the reported rows (Spec.LinearStatics) | From the principle of virtual work (C121), symmetry of all part matrices (C19) and definiteness of the trimmed stiffness (C115, C137, hinged tracks). |
| C176 | Two inputs with the same mesh (Spec.NoSofter, Spec.NoDeeper, Spec.RailNoSofter) | Admissible fields of the stiffer track are admissible in the softer one (C116, C157), energies of all elements compare (rail energy in stretching, bending and shear), then least potential energy (C175). |
| C177 | Both helpers with the python errors as values; nodes and coordinate arrays as two kinds of arguments | Case analysis over the number of nodes and the length of the array; exact iff for the first, failure for all lengths but two for the second, its value for length two. |
| C178 | the stiffness of the two elements at the hinge with their fixity factors, and the assembled static system of hinged and unhinged combined tracks (as for C161, C175) | the bending energy of an element with fixity a at one end grows with a, its derivative is a square; the hinge removes no unknown of the rail without hinge; then the minimum principle of C175 compares the work of the loads. For the pin the rotation of its node has no stiffness and is removed, while the moment turns the rail without hinge |
| C179 | The same model as for C173 and C175: initialisation, load vectors, solver with average acceleration steps as parameter, report of the rows of the nodes. | The reported rows are admissible nodal fields that satisfy virtual work at every index and the step formulas. Differences of results are steps without load from rest; by induction over the steps each acceleration has zero quadratic form of mass, damping and stiffness, hence vanishes because the mass form is definite. Energy: the sum of two consecutive balances tested with the displacement of the step. |
| C180 | two rides on the modelled tracks (TrackRide) that are the same until an output index (Spec.SameUntil) | the equations of both runs agree up to this index and the steps have exactly one solution (C174), so the rows of the solver agree and so do the results on the nodes |
| C181 | the state kept by the objects (dof flags of the nodes, static loads of bogies and wheels, irregularities) is threaded through `main` (`Model/Rerun.lean`) | closed form of the loads by induction on the calls; the flags left behind are shown harmless by the invariant `UsedFlags`, so call k obeys the laws of motion with the loads of call k; the property is false: results of call k differ from those of call 0 wherever a wheel presses on the rail |
| C182 | Two inputs of GlobalSystem related by a permutation of the mesh positions and of their lists | the virtual work of parts and loads is invariant, so the matrices agree entry by entry along a bijection of the unknowns; uniqueness of the steps and of equilibrium transfers the results; negation where several supports share a node |
| C183 | the assembled systems of C179, with the external solver specified by average acceleration steps (C179) and the static solver by the static equations (C175) | the damping matrix is definite because of the Rayleigh part, so the loss of energy per step forces the mean velocities to zero; the other quantities follow from the step equations; the bound of a sudden load follows from the sum of the energy balances and the positive energy of the difference to twice the static shape |
| C184 | the coupled calculation of C125, C138 and C139 with a train without speed; the external solver by Newmark steps (C179) or by the equations it satisfies (C125) | the track part is solved by the definite stiffness matrix under the static loads, the train part by C123 with the wheels at the deflected rail; the contact law is inverted on the pressed side; uniqueness by the monotonicity of the contact law and the positive semidefinite stiffness of the coupled system, definite on track and sprung train; staying by the uniqueness of a Newmark step |
| C185 | results under mirrored loads of a generated track, and of segments combined in reverse order | beam matrices are invariant under exchange of the ends with signs; rods and point masses under exchange of nodes; so the virtual work of the mirrored system in mirrored fields is that of the system; uniqueness of equilibrium and of average acceleration steps; counterexample for more than one rail element per sleeper from the positions |
| C186 | solve with the two numberings of columns, the period and the cosine sum of time_high | orthogonality of cosines on the window; induction on the list of times for the numbering; counting of negative times for the unordered case |
| C187 | the same model as C179 and C183 | the step balance of energy of C179 applied to the difference from the static results; equivalence of norms on the finite number of unknowns for the distance |
| C188 | the existing model of the track, its assembly and the Newmark solver; a force on one dof with a table of values | the balance of each calculation is tested with the displacements of the other and folded over the antidiagonals of the time indices; the symmetry of mass, damping and stiffness and the average acceleration steps make both sums equal; the first non-vanishing sum of two successive forces isolates one output time, and longer results exist and agree with the given ones up to it |
| C189 | Model/TrainMain.lean: the way the matrices are stored (numpy arrays for a train, lists of lists for a track) through delete_from_lil and tocsc, the stage loop with an external solver | violated: numpy arrays have no tocsc, so main fails for every train, solver and time array with at least two times; proved for the matrices handed to the solver: the steps are those of free fall iff the springs of all bodies are balanced, and for every default train but the SLT they are the only ones |
| C190 | Verif/Spec/Units.lean (values in other units, same results), existing model of tracks, initialise and main | every part's matrices are multiplied by alpha, alpha tau, alpha tau^2; the same dofs are removed (Generated.unknowns, SoundTrack.unknowns); the steps of the second system scaled back are steps of the first, and steps are unique. Violation: for small alpha all diagonal stiffnesses are below the threshold, so all dofs are removed. |
| C191 | the model of the track calculation of C179 and C183, nothing new | one average acceleration step is shown to be a linear map of state and loads (both matrices that are solved are definite); by the settling of C183 its powers vanish on every vector, in finite dimension their norm then decays geometrically, and the geometric sum bounds the influence of all loads; differences and shifts of results are results again by linearity |
| C192 | the model of the track calculation of C179 and C187, nothing new | the sign of the force is chosen step by step so that the cross term of the energy of the motion so far and of a single pulse is not negative; without damping the energy of the motion so far is kept, and every pulse adds the same positive energy; small fields have little energy (C187), so some result is large |
| C193 | the model of the track calculation of C179 and C187, nothing new | the second results before the delay are zero, because the mass is definite; from there on both results satisfy the same steps and initial state; if they agree at the first index, balance with zero displacement and velocity makes the first load do no work |
| C194 | the model of the track calculation of C179 and C187, nothing new | the reversed fields satisfy the balance, because a field that loses no power has no damping force in admissible fields (Cauchy-Schwarz), and the step rules of the scheme, which are symmetric in both ends of a step; the motion from an initial state is unique; conversely the first accelerations agree only if the damping does no work |
| C195 | the model of the track calculation of C179 and C187, nothing new; the motion is specified on fields of the nodes, without equations or matrices | the work of a motion in an admissible field is that of the assembled equations in its unknowns, so motions of fields and of unknowns are the same; existence and uniqueness from C172, error bounds of the average acceleration steps from C173 |
| C196 | `Spec.Continues`; the state and loads of a system under assembly, constraints and average acceleration steps (the model of C172 to C195) | both calculations take average acceleration steps in balance; the later part of the first one and the second one start equally and have equal loads, so they agree |
| C197 | `Spec.FromPulses`, `Spec.pulse`, `Spec.pulseSum`; the model of C172 to C195 | the sum of delayed pulse responses takes average acceleration steps in balance with the force; uniqueness of such steps |
| C198 | `read_wolf` with `basename` and `splitext` on lists of characters; opening and parsing a file is a parameter | induction over the list of paths; `splitext` against a specification of a json file as directory, stem and extension |
| C199 | `n_fft` and the frequencies of `welch`; the densities are a parameter | logarithm and ceiling against the least power of two; a grid of spacing at most the width of a band meets the band; negation for short signals |

## 4. Disagreements between code and property

Each is a theorem about the model of the code as it is (the negation of the property, with a witness). What remains true is in the
`_partial`/exact-condition theorems of the same property and in the note in MANIFEST.json.

* `C01_violated` — C01 fails: nodes `2e-10` m apart, far within the comparison tolerance `1e-9`, both stay in the mesh, because their coordinates round to different ninth decimals and the dictionary never compares them.
* `C03_violated` — C03 fails: the same element with its two nodes listed in the opposite order is kept as a second element, although `Element.__eq__` calls the two equal, because the hash depends on the node order.
* `C10_violated` — C10 fails: node 1 is fixed in y by the first part; a second part that fixes x (and leaves y free) releases it.
* `C13_violated` — C13 fails when a step size recurs: for the times 0, 1, 3, 4 the stages are 0-1 and 1-3; the second stage has steps 2 and 1.
* `C15_violated` — C15 fails for a condition that contains a node twice: the two loads 5 and 7 on equation 0 do not add up to 12; the fancy-indexed `+=` keeps the last one only.
* `C16_sign_violated` — C16 fails for a vertical element: stretching the rod by 1 is reported with the opposite sign of its own-axes force (tension and compression are exchanged).
* `C16_orientation_violated` — C16 fails for the first element of a part with two orientations: stretching the horizontal rod reports no force.
* `C18_violated` — C18 fails: a rigid rotation of the (valid) shear-flexible beam with one semi-rigid end produces nodal moments.
* `C23_violated` — C23 fails for the shear-flexible example beam (length 2) at its middle.
* `C24_violated` — C24 fails for a rod at the angle with cosine 4/5 and sine 3/5.
* `C25_direction_violated` — C25 fails for an upward element whose second node lies `1e-9` to the left of the first one: its direction is reversed (the second node is mapped one unit to the wrong side).
* `C27_linear_violated` — C27 fails in the interior: under pure bending (end rotations `-1` and `1`, constant moment) the reported moment at midspan is minus one half of the end moments instead of equal to them.
* `C27_shear_flexible_violated` — C27 fails for shear-flexible beams already at the ends: the reported moment at the first node of the example beam is not the end moment.
* `C30_fast_violated` — C30 fails for a load that moves two elements per time step: at the second time index the load is at 2.5, on element 2, but element 1 is active.
* `C30_reverse_violated` — C30 fails for a load that moves back: the pointer stays.
* `C30_end_violated` — C30 fails for a load that stands at the last node of the track: the first element is active.
* `C31_violated` — C31 fails: a load that starts on the third part is given the second part's properties, one step long.
* `C33_violated` — C33 fails: a transverse force 1 with a moment 1 at the first node gives no force at the nodes at all.
* `C35_violated` — C35 fails for the default sprinter: lifting the whole train by 1 produces a moment on the first cart.
* `C36_violated` — C36 fails for the default sprinter: the energy of this displacement of the train is negative, although all spring stiffnesses are positive. The first cart is raised and turned, the other bodies follow without straining their springs as far as possible.
* `C38_violated` — C38 fails for every train with non-negative masses and a bogie that carries weight: a second initialisation makes every wheel of that bogie heavier.
* `C38_irregularities_violated` — C38 fails with generated irregularities: after `k` initialisations the wheels have `k` times the generated irregularity (for a fixed seed).
* `C40_violated` — C40 fails: a weightless body on one spring above a wheel that is lowered by 1 is placed 1 above its rest position instead of 1 below, and is not in equilibrium.
* `C41_odd_violated` — C41 fails for odd powers (including the linear law `p = 1`): a wheel above the rail is pushed up.
* `C41_even_violated` — C41 fails for even powers: a wheel above the rail is pulled down.
* `C43_violated` — C43 fails for two wheels on the same rail element: only the load of the second arrives.
* `C44_violated` — C44 fails for two wheels on one rail element (at a third and two thirds of its length): the rail forces do half of the work of the wheel loads over a uniform velocity of the rail.
* `C48_violated` — C48 fails for soil depth zero: the nodes below the soil are not in the mesh.
* `C49_violated` — C49 fails for two or more rail elements per sleeper: at each joint between segments `j` and `j + 1` the distance from the last sleeper to the next one is `(2 - 1 / r) d` instead of `d`.
* `C50_first_violated` — C50 fails at the first node: the element after the hinge element is put before it, in a part without nodes.
* `C50_last_violated` — C50 fails at the last node: an `IndexError`.
* `C51_rejection_violated` — C51 fails: a fixity factor outside `[0, 1]` is not rejected, the computation silently keeps the old attribute (and a factor slightly above one is accepted as fixed).
* `C52_violated` — C52 fails for soil in two layers: the node between the layers is fixed as well.
* `C54_violated` — Every train with fewer passages than the busiest is applied once too often.
* `C55_violated` — If the output step is more than half the number of passages (one output), only the first cycle counts: a single loading train passing `N ≥ 2` times gets the settlement of one passage, less than with output step 1.
* `C56_violated` — Two trains with 2 and 1 passages a day: two stages of one day settle more than one stage of two days, because the less frequent train is counted once too often in each stage.
* `C56_li_selig_violated` — Two passages followed by a continuation with two passages settle less than four passages at once: the continuation counts its cycles from one again.
* `C57_violated` — A train that does not pass in the period (count 0, next to a train of no weight passing twice) lets the subsoil rise: its cycle numbers run from 1 down to 0.
* `C59_continue_violated` — Continuing with as many but different nodes is accepted, and the settlement of the new node starts from the last settlement of another node.
* `C61_violated` — Two passages in a period starting at day 0 are applied twice; the same two passages in a period starting at any day after day 2 are applied once.
* `C62_short_violated` — If the flat does not come by before the last sample, creating the wheel flat raises an index error.
* `C62_last_violated` — The last sample is always zero, also if the flat comes by there.
* `C67_violated` — With two or more locomotives the first wagon and the second locomotive overlap, for all supported types.
* `C70_violated` — A best cost of -1 is taken for "not yet evaluated": the next evaluated particle replaces it, however bad it is.
* `C70_sentinel_violated` — An execution in which this happens: one particle, two iterations, starting at the minimum with cost -1; it reports cost 5.
* `C71_violated` — In every execution, in every iteration and for every particle: the remembered best position is the present position, so that the pull to the particle's own best is zero: the new velocity is half the old one plus the pull to the best of the group, whatever `r1` was drawn.
* `C73_violated` — With the default conversion the caller's signal is afterwards 1000 times larger, and analysing it a second time analyses 1000000 times the original signal.
* `C78_violated` — C78 fails: validating one invalid model makes validation of every later model fail, even of a valid one.
* `C79_violated` — C79 fails: the shear-flexible example beam with one semi-rigid end.
* `C80_violated` — C80 fails for a rail at level 4: a wheel at 3, at the first node of an element that starts at 3, is placed at local distance -2.
* `C81_violated` — The `N₀` passages of the reference test give more than `γ`: the reference sum stops at `N₀ - 1`.
* `C82_violated` — A bare file name raises: the directory part is empty, and the empty name is no directory.
* `C83_violated` — Initialising a second time adds the generated irregularities once more.
* `C84_violated` — The dictionary of a cargo train describes no wagon: it has the data of the locomotive only.
* `C86_rows_violated` — Results and observations after the first result name have no influence on the residual: with the same number of them it is the same.
* `C86_single_violated` — With one observed position evaluating never gives a residual.
* `C86_sets_violated` — With two result sets evaluating never gives a residual.
* `C87_violated` — With dependent components (the default) the gain divides element by element instead of solving a system. For equal errors `a` of both components and a better measurement (errors `c < a`) the filter reports a negative variance.
* `C87_exact_violated` — An exact measurement (errors zero) is not adopted: the estimate of each component also moves by the deviation of the other one.
* `C89_violated` — As soon as there are two frequencies, every reported frequency but the first differs from the one used: the list of `N` frequencies ends at the maximum, the ones used are `1 / N` of the range apart.
* `C91_violated` — Two metres of peat (12 kN/m3) on sand (18 kN/m3): the sand is given the strength it would have under two metres of sand, too high by `12 tan 32°` kPa.
* `C92_violated` — The centre line of the sleeper is not among the points, so that the largest shear stress on the line, which half a width below the surface is at the centre, is underestimated.
* `C95_violated` — Adding a segment at the first point of the profile turns the coordinates around, but not the values: with these three segments the point at 2, which belongs to the second segment only (value 2), is drawn with value 1.
* `C97_second_point_violated` — If the second point of a further segment is nearer to the ends of the profile than its first point, and the last point is further away than the first one, the segment is joined with its last point, and so not at the closest ends.
* `C97_violated` — The second point of a segment is taken for its last one. The segment with points 2, 50, 1 touches the profile from 0 to 1 with its last point, but is joined with its first one, with a gap of 1.
* `C98_violated` — for the shear-flexible example beam: force 1 at the middle, nodal rotation 1 at the first node.
* `C99_violated` — C99 fails for another order of the nodes: a rail of two elements of length 1 with its nodes listed as 0, 2, 1 is rejected; with nodes listed as 0, 1, 2, an element from 0 to 2 of length 2 is accepted with stored length 1.
* `C102_violated` — C102 fails for wheels that keep their default mass of zero: a system of 6 instead of 10 equations remains, in which the wheels have no displacement.
* `C103_violated` — C103 fails for the same train: no wheel is in contact with the rail.
* `C104_violated` — C104 fails for two layers without mass: the assembled system deflects by 2 under the unit load, the only equation that remains after trimming by 1, because the node between the layers is held in place.
* `C105_violated` — C105 fails with two rail elements per sleeper: a requested fixity of 1/2 becomes 1/3.
* `C106_violated` — C106 fails for inclined elements: moving node 1 at right angles to a spring of slope 4:3 does no work on the spring, but the stiffness matrix of the initialised system does.
* `C108_violated` — C108 fails: the support of the first calculation is removed for the second one, but the dof stays without an equation; on new nodes it has one.
* `C110_violated` — C110 fails: updating the force vector twice for the same time and displacements gives different forces on the wheel.
* `C111_violated` — C111 fails: a fixed load of 3 prescribed for time 0 is missing in the initial state; the first evaluation of the right hand side at time 0 has it.
* `C113_violated` — C113 fails: a train that stands symmetrically on a track of springs, the wheel loads in balance with the contact forces; in the initial state of the calculation every bogie is pulled with 264000 (the weight of the train is 60).
* `C114_violated` — C114 fails in general: the load of a cart is divided equally over its bogies also where the cart does not stand symmetrically. The train is at rest, its wheels carry 1, 1, 1/2 and 1/2, and the reported loads are 3/4 for every wheel.
* `C121_violated` — C121 fails for inclined elements: a node on a spring of slope 4:3 and a force at an angle to it. The solver satisfies the equations it is given, but in a virtual displacement at right angles to the spring the reported field does no work although the load does.
* `C122_slt_violated` — In every SLT the springs under the first cart are not balanced about its centre, which the matrices do not take into account: raising the whole train by `h` gives a moment of 9 606 690 `h` on the first cart, and there are displacements with negative energy.
* `C122_slt_loads_violated` — Standing on level wheels, every SLT presses with 64854500/5983 ≈ 10840 kg under each wheel of its first bogie, where the loads it reports, and applies to the track, are 8050 kg.
* `C123_rest_violated` — Two bogies to one side of the cart, all springs positive: with the wheels on the ground and no force on the bodies the train rests in two (hence in infinitely many) positions, because the matrix lacks the coupling of height and rotation of the cart.
* `C123_steps_violated` — The same for a time step with positive masses: the matrix `M + K` of this train is singular.
* `C123_slt_steps_violated` — For every length of the default SLT there is a step size for which the step of the free train does not have one solution.
* `C124_violated` — is false without the restriction to loads away from the wheels: for a load of the track on a node of an element that carries a wheel, with a correct solver, the reported results do not satisfy the equations of motion of the track under its loads and the contact forces. The force vector of the track is overwritten at the nodes under a wheel.
* `C127_pads_violated` — fails for the pads: the pad forces that the demo script collects are zero for every track, load and solver, whatever the forces in the pads are.
* `C128_violated` — The weighted settlement depends on the order in which the operating system lists the files: with the file of another segment between the two scenarios of segment A, its weighted settlement is 40 % of 20 only and its first scenario is lost.
* `C129_violated` — If segment B is listed before segment A, which comes first in the soil data, the table is empty although both segments have results and coordinates.
* `C130_underscore_violated` — An underscore in the name of a segment makes the results unreadable, and two scenarios of different segments can get one name.
* `C130_found_violated` — The results of a batch calculation are not found under the type of train.
* `C130_settlement_violated` — A segment with a plain number for a name is not found back: its settlements are looked up under the empty name.
* `C131_same_result_violated` — If the files are listed in another order, the trains of different segments are calculated together: here the intercity of A with the sprinter and the cargo train of B.
* `C131_output_violated` — Whatever the directory contains, no settlements are written: the batch uses members that the class does not have, and ignores the exception.
* `C134_distance_violated` — If the velocity changes after the first shown step, the distance shown is not the one travelled: here the train starts within the shown steps.
* `C135_table_violated` — Whatever the soil data and the results are: once `get_results` has found a segment with coordinates, and after both weighted values are calculated, writing the table raises, because the dynamic stiffness and the cumulative settlement it is to contain are collected nowhere.
* `C139_script_violated` — The SLT train needs two carts, `set_train` is called for one: whatever the values, its calculation is refused, and `demo.py` stops after the first of its six trains.
* `C140_start_violated` — C140 is violated: a wheel that starts at the last node before the hinge or anywhere beyond it is given a contact element that lies ahead of it.
* `C140_passed_violated` — C140 is violated: a wheel that runs over the hinge in steps of at most half an element. From half an element beyond the last node before the hinge on, except exactly on the hinge, its contact element lies ahead of it; from one and a half elements behind the hinge on, the contact element is the third one after the element on which the wheel stands.
* `C140_end_violated` — C140 is violated: a wheel that runs over the hinge in steps of at most half an element and comes nearer than three elements to the end of the rail: the calculation stops with an exception, although the wheel is on the rail all the time.
* `C141_mechanism_violated` — (violated) With shear flexibility the computed track stands although it is a mechanism: a rail end behind a free pin, with no sleeper under it, has exactly one static equilibrium under every load. An element with a pin resists being turned about it (`C18_violated`).
* `C142_script_violated` — The type of train it asks for does not exist: whatever the values and the scenarios, nothing is calculated and the script ends with an exception.
* `C143_passed_violated` — C143 is violated: a train that runs over the hinge in steps of at most half an element. At a time when a wheel is one and a half elements past the hinge and the wheels behind it are more than five elements away from it, the results obey the laws of motion only if this wheel does not press on the rail at all: the calculation lets no force act on the nodes of the element on which it stands.
* `C144_hinge_violated` — C144 is violated: for a track with a hinge of any mass, whatever its nodes do, the inertia is that of the track without hinge; it lacks the inertia of the hinge, which the hinge as a part of the system would have added.
* `C147_violated` — C147 fails for one mode: the result is zero although the beam is loaded.
* `C148_overdamped_violated` — With any stiffness damping there is a number of modes from which on the code takes the square root of a negative number.
* `C149_violated` — The result is never the motion of a Timoshenko beam, neither with the `n - 1` used shapes nor with any other values of the roots: for every beam with positive parameters in at least two elements, every load and at least one used mode. The factor `1 + phi` of all modes is the one of the static deflection at midspan; in a single mode `j` it has to be `1 + phi * (j π) ^ 2 / 12`.
* `C151_violated` — C151 fails for the vehicle of the script.
* `C152_velocity_violated` — At the free end of a loaded cantilever the reported velocity is at no time the derivative of the displacement.
* `C153_max_violated` — With a load on the right part the largest displacement can be elsewhere: here the point under the load moves more than a hundred times as much as `calculate_max_disp` says.
* `C160_identifiable_violated` — The two residuals that the script gives to the least squares fit of stiffness and damping are equal for all parameters: there is one equation for two unknowns.
* `C162_passed_violated` — C162 is violated: a train that runs over the hinge in steps of at most half an element. At a time when a wheel is one and a half elements past the hinge and the wheels behind it are more than five elements away from it, the results obey the laws of motion only if this wheel does not press on the rail at all: the calculation lets no force act on the nodes of the element on which it stands.
* `C162_demo_violated` — C162 is violated by scripts with a hinge: for the rear wheels of the two bogies, whenever they are one and a half elements past the hinge, the calculation lets no force act on the nodes of the element on which they stand. The train passes the hinge.
* `C162_script_violated` — C162 is violated by the script itself: it stops at its second train, the SLT, after one result; and in this result no force acts on the nodes under the rear wheels of the two bogies once they are past the hinge (`C162_demo_violated`).
* `C164_dynamic_violated` — fails for the other sleepers: for the node `2 j` (the sleeper `j`) the value is the stiffness of the soil only if the sleepers `j` and `2 j` have the same peak displacement.
* `C164_zero_violated` — For every sleeper `j` (not the first) there are results, with the supports at rest, in which the soil under this sleeper is pressed and the value read for the node `2 j` is nevertheless 0 instead of the stiffness of the soil.
* `C164_script_violated` — The files that the script writes for its own results are read this way: the node `2 j` gives the stiffness of the soil spring times the peak of the sleeper `2 j`, divided by the peak of the sleeper `j`.
* `C165_place_violated` — The place at which the field is taken is that of the sleeper only for the first sleeper of a segment.
* `C165_copies_violated` — Whatever the standard field is, the second half of the track of `demo_rf.py` repeats the variations of the first half, and the damping varies exactly as the stiffness.
* `C166_unrecognised_violated` — An unknown solver is not refused: for every system and every time array with at least two times the calculation with a solver that is neither dynamic nor static succeeds, and reports the values with which the solver has filled its result arrays at the start. If these are zeros, the report is a system at rest, which satisfies the equations of motion of a time only if the loads of that time do no work at all.
* `C166_return_violated` — is false if a step size returns: the times 0, 1, 3, 4 are two stages, of which the second has two step sizes. A solver that solves every stage with one step size and does nothing in another one reports a spring at rest under a load.
* `C169_hinge_violated` — beside every hinge: the rail of nodes at equal distances with a hinge of any fixity from 0 to 1 in an inner node consists of four parts; for the two elements at the hinge (shear-rigid rail) no force strictly inside them is passed on to the nodes as by the beam on its spring, and at no place strictly inside is the deflection that the code takes that of this beam for all displacements of the nodes.
* `C170_violated` — for a shear-flexible element of two metres (deflection between its ends) and for an element with a spring (inertia).
* `C171_violated` — for the shear-flexible example rail: a force of 1000 in the middle between the first two sleepers, in an element of the coarse track and at a node of the fine track.
* `C177_rotate_violated` — So no element of two nodes, whatever its direction, gets its force in the axes of the element.
* `C177_load_violated` — The load over time of the mesh utilities fails for every time array that does not have exactly two entries.
* `C178_pin_violated` — A free pin is no hinge of fixity factor 0 in this sense: a moment on its node is left out of the equations, so that the node does not turn, although it turns in the rail without hinge.
* `C181_violated` — For every train with weight, without irregularities: at every output index at which a wheel presses on the rail in the first calculation, each later call of `main` on the same coupled model reports other values, whatever solver solves the equations: its wheels start deeper in the rail.
* `C181_from_rest_violated` — For every held track and every train with weight and wheels, in steps of the Newmark method from the undeformed state: there is a solver that solves the equations of every call, and the first output row of every later call differs from that of the first call.
* `C182_violated` — C182 fails for two supports on one node that hold it in different ways: the last one counts, so their order decides whether the node moves.
* `C189_violated` — A train cannot be calculated on its own: whatever the train, the solver and the time, `main` ends in an error as soon as there is a time step; it returns, with the initial values of the solver, only for less than two times.
* `C190_violated` — For every generated track there are units of force in which the program reports that nothing moves, whatever the loads are: so the results depend on the units.
* `C199_empty_violated` — Of every signal of at most 256 samples at distances of a decimetre, the value of the first band is zero whatever its spectral density is: the band has no frequency.

## 5. Modelled code and axiom audit

### 5.1 Modelled and not modelled

Functions with at least one model definition citing their body; the comments of the definitions say what is simplified.
A function is listed as not modelled if no definition cites it: plotting,
printing, trivial properties and hooks that do nothing, and the functions that only call the modelled ones in sequence or an
external solver.

* `rose/model/accumulation_model.py`
  * modelled: `ReadTrainInfo.__init__`, `ReadTrainInfo.__train_info`, `Varandas.__init__`, `Varandas.settlement`, `LiSelig.__init__`, `LiSelig.__read_SoS`, `LiSelig.__initial_stress`, `LiSelig.__classify`, `LiSelig.__strength`, `LiSelig.__dev_stress`, `LiSelig.settlement`, `AccumulationModel.__init__`, `AccumulationModel.read_traffic`, `AccumulationModel.calculate_settlement`, `AccumulationModel.write_results`, `AccumulationModel.__create_results`
  * not modelled: `AccumulationModel.settlement`
* `rose/model/boundary_conditions.py`
  * modelled: `LoadCondition.__init__`, `LoadCondition.initialize`, `LoadCondition.initialize_matrices`, `LoadCondition.set_load_vector_as_function_of_time`, `LoadCondition.update_force`, `LineLoadCondition.validate`, `MovingPointLoad.__init__`, `MovingPointLoad.moving_force_vector`, `MovingPointLoad.initialize`, `MovingPointLoad.initialize_matrices`, `MovingPointLoad.set_contact_model_part_as_function_of_time`, `MovingPointLoad.set_load_vectors_as_function_of_time`, `MovingPointLoad.set_active_elements`, `MovingPointLoad.filter_load_outside_range`, `MovingPointLoad.calculate_moving_coords`, `MovingPointLoad.get_first_element_idx`, `MovingPointLoad.calculate_cumulative_distance_contact_nodes`, `MovingPointLoad.calculate_cumulative_distance_moving_load`, `MovingPointLoad.__distribute_normal_force`, `MovingPointLoad.__distribute_shear_force`, `MovingPointLoad.__distribute_z_moment`, `MovingPointLoad.set_moving_point_load`, `MovingPointLoad.update_force`
  * not modelled: `LoadCondition.x_disp_dof`, `LoadCondition.y_disp_dof`, `LoadCondition.z_rot_dof`, `LineLoadCondition.__init__`
* `rose/model/geometry.py`
  * modelled: `Node.__init__`, `Node.assign_result`, `Node.__eq__`, `Node.__hash__`, `Element.__init__`, `Element.__eq__`, `Element.__hash__`, `Element.assign_force`, `Mesh.reorder_node_ids`, `Mesh.add_unique_nodes_to_mesh`, `Mesh.fast_add_nodes_to_mesh`, `Mesh.add_unique_elements_to_mesh`
  * not modelled: `Node.set_dof`, `Node.ndof`, `Element.add_model_part`, `Mesh.__init__`, `Mesh.reorder_element_ids`, `Mesh.fast_add_elements_to_mesh`
* `rose/model/global_system.py`
  * modelled: `GlobalSystem.__init__`, `GlobalSystem.validate_input`, `GlobalSystem.__add_aux_matrices_to_global`, `GlobalSystem.__reshape_aux_matrices`, `GlobalSystem.__add_condition_to_global`, `GlobalSystem.trim_global_matrices_on_indices`, `GlobalSystem.recalculate_dof`, `GlobalSystem.__get_constrained_indices`, `GlobalSystem.trim_all_global_matrices`, `GlobalSystem.add_model_parts_to_global_matrices`, `GlobalSystem.calculate_initial_displacement`, `GlobalSystem.initialise_global_matrices`, `GlobalSystem.__calculate_rayleigh_damping_factors`, `GlobalSystem.calculate_rayleigh_damping`, `GlobalSystem.initialise_ndof`, `GlobalSystem.set_stage_time_ids`, `GlobalSystem.initialise`, `GlobalSystem.update_time_step_rhs`, `GlobalSystem.calculate_stage`, `GlobalSystem.calculate_force_in_elements`, `GlobalSystem.finalise`, `GlobalSystem._assign_result_to_node`, `GlobalSystem.main`
  * not modelled: `GlobalSystem.initialise_model_parts`, `GlobalSystem.update_model_parts`, `GlobalSystem.update`, `GlobalSystem.assign_results_to_nodes`, `GlobalSystem.print_initial_message`, `GlobalSystem.print_end_message`
* `rose/model/irregularities.py`
  * modelled: `RailDefect.__init__`, `WheelFlat.__init__`, `RailIrregularities.__init__`, `RailIrregularities.spectral`
* `rose/model/model_part.py`
  * modelled: `Material.__init__`, `Material.validate_input`, `Material.shear_modulus`, `Section.__init__`, `Section.validate_input`, `ModelPart.validate_input`, `ModelPart.update`, `ModelPart.update_dof_indices`, `ElementModelPart.__init__`, `ElementModelPart.initialize`, `RodElementModelPart.__init__`, `RodElementModelPart.validate_input`, `RodElementModelPart.set_rotation_matrix`, `RodElementModelPart.set_aux_mass_matrix`, `RodElementModelPart.set_aux_stiffness_matrix`, `RodElementModelPart.set_aux_damping_matrix`, `RodElementModelPart.set_normal_shape_functions`, `TimoshenkoBeamElementModelPart.__init__`, `TimoshenkoBeamElementModelPart.x_disp_dof`, `TimoshenkoBeamElementModelPart.y_disp_dof`, `TimoshenkoBeamElementModelPart.z_rot_dof`, `TimoshenkoBeamElementModelPart.validate_input`, `TimoshenkoBeamElementModelPart.calculate_timoshenko_factor`, `TimoshenkoBeamElementModelPart.set_rotation_matrix`, `TimoshenkoBeamElementModelPart.__set_translational_aux_mass_matrix`, `TimoshenkoBeamElementModelPart.__set_rotational_aux_mass_matrix`, `TimoshenkoBeamElementModelPart.set_aux_mass_matrix`, `TimoshenkoBeamElementModelPart.__set_rigid_part_stiffness_matrix`, `TimoshenkoBeamElementModelPart.set_aux_stiffness_matrix`, `TimoshenkoBeamElementModelPart.set_aux_damping_matrix`, `TimoshenkoBeamElementModelPart.set_y_shape_functions`, `TimoshenkoBeamElementModelPart.set_z_rot_shape_functions`, `TimoshenkoBeamElementModelPart.calculate_local_forces_at_x`, `TimoshenkoBeamElementModelPart.calculate_strain`, `TimoshenkoBeamElementModelPart.initialize`, `ConstraintModelPart.__init__`, `ConstraintModelPart.x_disp_dof`, `ConstraintModelPart.y_disp_dof`, `ConstraintModelPart.z_rot_dof`, `ConstraintModelPart.set_constraint_condition`
  * not modelled: `ModelPart.__init__`, `ModelPart.x_disp_dof`, `ModelPart.y_disp_dof`, `ModelPart.z_disp_dof`, `ModelPart.x_rot_dof`, `ModelPart.y_rot_dof`, `ModelPart.z_rot_dof`, `ModelPart.initialize`, `ModelPart.set_geometry`, `ModelPart.set_aux_force_vector`, `ModelPart.calculate_total_n_dof`, `ElementModelPart.normal_shape_functions`, `ElementModelPart.y_shape_functions`, `ElementModelPart.z_rot_shape_functions`, `ElementModelPart.rotation_matrix`, `ElementModelPart.set_rotation_matrix`, `ElementModelPart.set_normal_shape_functions`, `ElementModelPart.set_y_shape_functions`, `ElementModelPart.set_z_rot_shape_functions`, `ElementModelPart.set_aux_stiffness_matrix`, `ElementModelPart.set_aux_damping_matrix`, `ElementModelPart.set_aux_mass_matrix`, `ElementModelPart.calculate_strain`, `RodElementModelPart.x_disp_dof`, `RodElementModelPart.rotation_matrix`, `RodElementModelPart.initialize_shape_functions`, `TimoshenkoBeamElementModelPart.timoshenko_factor`, `TimoshenkoBeamElementModelPart.rotation_matrix`, `TimoshenkoBeamElementModelPart.calculate_mass`, `TimoshenkoBeamElementModelPart.initialize_shape_functions`, `TimoshenkoBeamElementModelPart.set_normal_shape_functions`, `ConditionModelPart.__init__`
* `rose/model/soil.py`
  * modelled: none
  * not modelled: `Soil.__init__`
* `rose/model/track.py`
  * modelled: `InvalidRailException.__init__`, `Rail.calculate_length_rail`, `Rail.initialize`, `Sleeper.__init__`, `Sleeper.y_disp_dof`, `Sleeper.set_aux_stiffness_matrix`, `Sleeper.set_aux_damping_matrix`, `Sleeper.set_aux_mass_matrix`, `Hinge.__init__`, `Hinge.y_disp_dof`, `Hinge.set_aux_stiffness_matrix`, `Hinge.set_aux_damping_matrix`, `Hinge.set_aux_mass_matrix`, `Hinge.calculate_hinge_stiffness`
  * not modelled: `Rail.__init__`, `RailPad.__init__`
* `rose/model/train_model.py`
  * modelled: `Wheel.__init__`, `Wheel.fill_mass_matrix`, `Wheel.fill_static_force_vector`, `Wheel.set_mesh`, `Wheel.calculate_active_n_dof`, `Wheel.calculate_total_static_load`, `Bogie.__init__`, `Bogie.y_disp_dof`, `Bogie.z_rot_dof`, `Bogie.set_mesh`, `Bogie.reset_mesh`, `Bogie.calculate_active_n_dof`, `Bogie.fill_stiffness_matrix`, `Bogie.fill_damping_matrix`, `Bogie.calculate_total_static_load`, `Bogie.distribute_static_load`, `Cart.__init__`, `Cart.y_disp_dof`, `Cart.z_rot_dof`, `Cart.set_mesh`, `Cart.reset_mesh`, `Cart.calculate_active_n_dof`, `Cart.fill_stiffness_matrix`, `Cart.fill_damping_matrix`, `Cart.calculate_total_static_load`, `TrainModel.__init__`, `TrainModel.set_mesh`, `TrainModel.__get_bogies`, `TrainModel.__get_wheels`, `TrainModel.get_train_parts`, `TrainModel.initialise_ndof`, `TrainModel.set_global_mass_matrix`, `TrainModel.set_global_stiffness_matrix`, `TrainModel.set_global_damping_matrix`, `TrainModel.set_static_force_vector`, `TrainModel.calculate_total_static_load`, `TrainModel.initialise_irregularities_at_wheels`, `TrainModel.get_contact_dofs`, `TrainModel.initialize_force_vector`, `TrainModel.calculate_distances`, `TrainModel.initialise_global_matrices`, `TrainModel.reset_mesh`, `TrainModel.check_distribution_factors`, `TrainModel.initialise`, `TrainModel.trim_global_matrices`, `TrainModel.impose_displacement`, `TrainModel.calculate_initial_displacement`, `TrainModel.update`, `TrainModel.main`
  * not modelled: `Wheel.y_disp_dof`, `Wheel.reset_mesh`, `Bogie.fill_mass_matrix`, `Bogie.fill_static_force_vector`, `Cart.fill_mass_matrix`, `Cart.fill_static_force_vector`, `TrainModel.bogies`, `TrainModel.wheels`
* `rose/model/train_track_interaction.py`
  * modelled: `CoupledTrainTrack.__init__`, `CoupledTrainTrack.get_interaction_forces_history`, `CoupledTrainTrack.set_wheel_load_on_track`, `CoupledTrainTrack.initialize_track_elements`, `CoupledTrainTrack.calculate_distance_wheels_track_nodes`, `CoupledTrainTrack.calculate_y_shape_factors_rail`, `CoupledTrainTrack.calculate_static_contact_deformation`, `CoupledTrainTrack.calculate_wheel_rail_contact_force`, `CoupledTrainTrack.get_disp_track_at_wheels`, `CoupledTrainTrack.update_force_vector_contact`, `CoupledTrainTrack.update_non_linear_iteration`, `CoupledTrainTrack.update_time_step_rhs`, `CoupledTrainTrack.update_force_vector`, `CoupledTrainTrack.combine_rhs`, `CoupledTrainTrack.combine_global_matrices`, `CoupledTrainTrack.initialise_ndof`, `CoupledTrainTrack.assign_results_to_nodes`, `CoupledTrainTrack.calculate_initial_state`, `CoupledTrainTrack.__check_train_position`, `CoupledTrainTrack.initialize_wheel_loads`, `CoupledTrainTrack.initialise_track_wheel_interaction`, `CoupledTrainTrack.initialise_train`, `CoupledTrainTrack.clean_model`, `CoupledTrainTrack.initialise_track`, `CoupledTrainTrack.initialise`, `CoupledTrainTrack.finalise`, `CoupledTrainTrack.main`
  * not modelled: `CoupledTrainTrack.__calculate_elastic_wheel_deformation`, `CoupledTrainTrack.calculate_initial_displacement_track`, `CoupledTrainTrack.calculate_initial_displacement_train`, `CoupledTrainTrack.calculate_stage`
* `rose/model/utils.py`
  * modelled: `filer_location`, `filter_data_outside_range`, `interpolate_cumulative_distance_on_nodes`, `calculate_cum_distance_from_velocity`, `reshape_aux_matrix`, `delete_from_lil`, `calculate_point_rotation`, `calculate_rotation`, `rotate_point_around_z_axis`, `rotate_force_vector`, `rotate_aux_matrix`, `add_aux_matrix_to_global`, `distance_np`, `generate_rail_irregularities`
* `rose/optimisation/optimisation.py`
  * modelled: `ModelResults.__init__`, `OptimisationModelPart.__init__`, `Optimisation.__init__`, `Optimisation.initialise`, `Optimisation.reset_model`, `Optimisation.residual_function`
  * not modelled: `Optimisation.least_square`
* `rose/optimisation/particle_swarm_optimisation.py`
  * modelled: `Particle.__init__`, `Particle.evaluate`, `Particle.update_velocity`, `Particle.update_position`, `PSO.__init__`
  * not modelled: `func1`
* `rose/post_processing/plot_profile.py`
  * modelled: `compute_distance`, `compute_cumulative_distance`, `weighted_avg_and_std`, `find_nearest`, `plot_profile`
* `rose/post_processing/plot_utils.py`
  * modelled: none
  * not modelled: `plot_2d_geometry`, `create_animation`
* `rose/pre_process/default_trains.py`
  * modelled: `set_train`, `set_traxx_locomotive`, `set_br189_locomotive`, `set_double_dekker_train`, `set_sprinter_slt_train`, `set_sprinter_sgm_train`, `set_icm_train`, `set_cargo_SGNS_train`, `set_cargo_FALNS5_train`, `set_cargo_TAPPS_train`, `build_cargo_train`, `train_class_to_dict`
* `rose/pre_process/mesh_utils.py`
  * modelled: `set_load_vector_as_function_of_time`, `calculate_cum_distances_coordinate_array`, `add_no_displacement_boundary_to_bottom`, `add_semi_rigid_hinge_at_x`, `create_hinge_model_part`, `create_horizontal_track`, `combine_horizontal_tracks`
  * not modelled: `get_coordinates_node_array`
* `rose/utils/Hmax.py`
  * modelled: `HrsmMax.__init__`, `HrsmMax.power_spectral_density`, `HrsmMax.rms_effective`, `HrsmMax.effective_values`
* `rose/utils/Kalman_Filter.py`
  * modelled: `KalmanFilter.__init__`, `KalmanFilter.initialise_control_matrices`, `KalmanFilter.update_control_matrices_by_index`, `KalmanFilter.update_control_matrices`, `KalmanFilter.state_matrix`, `KalmanFilter.initial_cov_matrix`, `KalmanFilter.predict_process_cov_matrix`, `KalmanFilter.error_covariance_measures`, `KalmanFilter.kalman_gain`, `KalmanFilter.new_observation`, `KalmanFilter.predicted_state`, `KalmanFilter.update_process_covariance_matrix`
* `rose/utils/random_field.py`
  * modelled: `create_rf`
* `rose/utils/wolf_utils.py`
  * modelled: `create_layering_for_wolf`
  * not modelled: `run_wolf_on_layering`
* `run_rose/batch_calculation.py`
  * modelled: `set_base_model`, `calculate`, `write_results`, `main`
* `run_rose/batch_post_process.py`
  * modelled: `write_gis_csv`, `calculate_weighted_values`, `calculate_dynamic_stiffness`, `get_and_write_n_scenarios_per_segment`, `get_batch_dynamic_stiffnesses`, `get_segment_and_scenario_from_fn`, `write_gis_csv_2`, `get_batch_cumulative_settlement`, `get_results`
  * not modelled: `plot_cumulative_results`, `plot_max_disp_vs_velocity`
* `run_rose/batch_varandas.py`
  * modelled: `main`
* `run_rose/demo.py`
  * modelled: `geometry`, `materials`, `time_integration`, `soil_parameters`, `create_model`, `write_results`, `main`
* `run_rose/demo_rf.py`
  * modelled: `geometry`, `materials`, `time_integration`, `soil_parameters`, `create_model`, `write_results`, `main`
* `run_rose/demo_semi_rigid.py`
  * modelled: `geometry`, `materials`, `time_integration`, `soil_parameters`, `create_model`, `write_results`, `main`
* `run_rose/demo_semi_rigid_rf.py`
  * modelled: `geometry`, `materials`, `time_integration`, `soil_parameters`, `create_model`, `write_results`, `main`
* `run_rose/read_wolf.py`
  * modelled: `read_wolf`
* `run_rose/run_optimisation.py`
  * modelled: `set_base_model`, `main`
  * not modelled: `calculate`, `write_results`
* `run_rose/run_wolf.py`
  * modelled: `read_file`
  * not modelled: `run_wolf`

### 5.2 Axioms

`#print axioms` for the 764 theorems listed in MANIFEST.json:

* `Classical.choice`, `Quot.sound`, `propext` (713 theorems): all others
* `Quot.sound`, `propext` (48 theorems): C04_elements, C04_nodes, C06_all_succeed, C06_succeeds, C06_unnumbered_rejected, C08_embedding, C09_numbering_ordered, C10_accumulate_partial, C10_iff, C10_last_wins, C10_untouched, C10_violated, C128_last_run, C128_succeeds, C129_rows, C129_scenarios, C12_off, C132_layering, C14_too_long, C158_column_iff, C168_matrices, C189_sparse, C33_combined, C33_superposition_partial, C34_consecutive, C35_symmetric, C37_force_vector, C38_irregularities_partial, C45_shift, C48_rejects, C49_chain, C65_built, C67_rejects, C68_history_independent, C70_violated, C73_unchanged_partial, C73_violated, C75_empty, C75_thickness, C77_interaction, C78_violated, C82_iff, C82_violated, C82_write_partial, C84_dict_partial, C86_rows_violated, C86_sets_violated, C88_window_le
* `propext` (2 theorems): C130_distinct, C31_violated
* no axioms (1 theorems): C142_types
