{"id": "C01", "title": "Adding nodes to a mesh merges coinciding nodes and loses none", "statement": "After any sequence of calls adding node lists to a mesh, the mesh keeps its earlier nodes in their order, every added node has a representative in the mesh at the same position, and no two mesh nodes coincide (differ by less than the 1e-9 m comparison tolerance in every coordinate).", "quantifier": "every initial mesh, every sequence of node lists, every coordinate value", "why_tests_cant": "node equality is a tolerance and hashing is a rounding; the two disagree only for coordinates straddling a rounding boundary, which hand-picked coordinates never hit", "anchors": ["rose/model/geometry.py::Node.__eq__", "rose/model/geometry.py::Node.__hash__", "rose/model/geometry.py::Mesh.add_unique_nodes_to_mesh"]}
{"id": "C02", "title": "Merging coinciding nodes unites their degrees of freedom", "statement": "When nodes at one position are merged into the mesh, the surviving node has a degree of freedom active exactly if at least one of the merged nodes had it active, and it belongs to the model parts of all of them.", "quantifier": "every list of nodes, every combination of dof flags and model part memberships", "why_tests_cant": "the merge happens as a side effect of an equality test inside a dictionary insertion, so its outcome depends on which pairs get compared", "anchors": ["rose/model/geometry.py::Node.__eq__", "rose/model/geometry.py::Mesh.add_unique_nodes_to_mesh"]}
{"id": "C03", "title": "Adding elements to a mesh merges elements with the same end nodes", "statement": "After adding elements to a mesh no two mesh elements connect the same nodes, earlier elements keep their order, and every added element is represented.", "quantifier": "every mesh, every sequence of element lists, every node order inside an element", "why_tests_cant": "element equality ignores node order while the hash does not; only reversed duplicates expose it", "anchors": ["rose/model/geometry.py::Element.__eq__", "rose/model/geometry.py::Element.__hash__", "rose/model/geometry.py::Mesh.add_unique_elements_to_mesh"]}
{"id": "C04", "title": "Mesh renumbering gives consecutive ids in mesh order", "statement": "After reordering ids, the i-th node has id i and the i-th element has id i, and nothing else about the mesh changes.", "quantifier": "every mesh", "why_tests_cant": "must hold for every mesh size", "anchors": ["rose/model/geometry.py::Mesh.reorder_node_ids", "rose/model/geometry.py::Mesh.reorder_element_ids"]}
{"id": "C05", "title": "Every nodal degree of freedom gets its own equation", "statement": "After dof numbering, the map from (node, dof) to equation index is a bijection onto 0..3n-1 for a mesh of n nodes, increasing in mesh order.", "quantifier": "every number of nodes", "why_tests_cant": "holds for all mesh sizes, tests fix one", "anchors": ["rose/model/global_system.py::GlobalSystem.initialise_ndof"]}
{"id": "C06", "title": "Global matrices are the sum of the element matrices", "statement": "The global mass, damping or stiffness entry at equations (i,j) equals the previous entry plus the sum over all elements of all parts of the element-matrix entries whose local dofs carry equations i and j; the result does not depend on the order of elements or parts.", "quantifier": "every list of elements and parts, every dof numbering (including shared nodes), every element matrix", "why_tests_cant": "assembly is a sparse append with duplicate summation; tests only use chains of equal elements", "anchors": ["rose/model/utils.py::add_aux_matrix_to_global", "rose/model/global_system.py::GlobalSystem.add_model_parts_to_global_matrices"]}
{"id": "C07", "title": "Assembly preserves symmetry and energy", "statement": "If all element matrices are symmetric (positive semi-definite) then so is the assembled matrix; the energy of any displacement field equals the sum of the element energies.", "quantifier": "every mesh, every displacement vector, every family of element matrices", "why_tests_cant": "positive semi-definiteness quantifies over every displacement field", "anchors": ["rose/model/utils.py::add_aux_matrix_to_global"]}
{"id": "C08", "title": "Embedding an element matrix into nodal dofs keeps every coefficient and nothing else", "statement": "Reshaping an active-dof element matrix to the full nodal dof layout puts each coefficient at its (node, dof) place, leaves zero at every inactive dof, and is the identity when all dofs are active.", "quantifier": "every number of nodes, every pattern of active dofs, every matrix", "why_tests_cant": "index arithmetic over arbitrary dof patterns; tests use one pattern", "anchors": ["rose/model/utils.py::reshape_aux_matrix", "rose/model/global_system.py::GlobalSystem.__reshape_aux_matrices"]}
{"id": "C09", "title": "Trimming solves exactly the retained equations", "statement": "After trimming, the retained equations are exactly those that are unconstrained and have non-negligible mass and stiffness diagonal; the numbering of retained nodal dofs is a bijection onto 0..m-1, removed dofs carry no equation, and every retained matrix entry and force entry equals the untrimmed entry of the same pair of nodal dofs.", "quantifier": "every mesh, every set of constrained, massless or stiffness-less dofs, every matrix", "why_tests_cant": "renumbering and matrix deletion are two separate loops that must agree for every removal pattern", "anchors": ["rose/model/global_system.py::GlobalSystem.trim_all_global_matrices", "rose/model/global_system.py::GlobalSystem.trim_global_matrices_on_indices", "rose/model/global_system.py::GlobalSystem.recalculate_dof", "rose/model/utils.py::delete_from_lil"]}
{"id": "C10", "title": "Supports applied to a node accumulate", "statement": "If several constraint parts share a node, every displacement or rotation fixed by at least one of them is fixed.", "quantifier": "every list of constraint parts and nodes", "why_tests_cant": "depends on the order in which parts are applied; tests use one constraint per node", "anchors": ["rose/model/model_part.py::ConstraintModelPart.set_constraint_condition", "rose/model/global_system.py::GlobalSystem.__get_constrained_indices"]}
{"id": "C11", "title": "Results are reported at the right node and dof", "statement": "After a calculation the displacement, velocity and acceleration reported at a node's dof equal the solution of the equation assigned to that dof, and are zero for a removed dof, at every output time.", "quantifier": "every mesh, dof removal pattern and solution history; every output time", "why_tests_cant": "relates numbering, trimming and reporting for every pattern", "anchors": ["rose/model/geometry.py::Node.assign_result", "rose/model/global_system.py::GlobalSystem._assign_result_to_node", "rose/model/global_system.py::GlobalSystem.assign_results_to_nodes"]}
{"id": "C12", "title": "Rayleigh damping hits the requested ratio at both frequencies", "statement": "With Rayleigh damping on, the added damping matrix gives any undamped mode at the first or at the second control frequency exactly the requested damping ratio, and no mode strictly between them more than that.", "quantifier": "every damping ratio, every pair of positive control frequencies, every mode", "why_tests_cant": "a real-valued identity over all frequencies", "anchors": ["rose/model/global_system.py::GlobalSystem.calculate_rayleigh_damping"]}
{"id": "C13", "title": "Time stages are contiguous and have one step size each", "statement": "The stage boundaries start at the first and end at the last time index, increase strictly, and inside one stage all time steps are equal.", "quantifier": "every strictly increasing time array", "why_tests_cant": "holds for all patterns of step sizes; recurrence of an earlier step size is an untested pattern", "anchors": ["rose/model/global_system.py::GlobalSystem.set_stage_time_ids"]}
{"id": "C14", "title": "A static load is ramped up and then held", "statement": "A load condition with an initialisation phase grows linearly from zero to the given load over that phase and equals the given load afterwards; without one it is constant; it never exceeds the given load in absolute value.", "quantifier": "every load, every initialisation length and total time length", "why_tests_cant": "quantifies over every time index and length", "anchors": ["rose/model/boundary_conditions.py::LoadCondition.set_load_vector_as_function_of_time", "rose/model/boundary_conditions.py::LineLoadCondition"]}
{"id": "C15", "title": "All load conditions act together on the right hand side", "statement": "At every time step the force on an equation is the sum of the forces that all load conditions put on the nodal dofs carrying that equation; loads on removed dofs are dropped.", "quantifier": "every list of load conditions, nodes, and dof numberings", "why_tests_cant": "in-place fancy-index addition ignores repeated indices, visible only when a condition lists a node twice", "anchors": ["rose/model/global_system.py::GlobalSystem.__add_condition_to_global", "rose/model/global_system.py::GlobalSystem.update_time_step_rhs"]}
{"id": "C16", "title": "Element forces are computed in the element's own direction", "statement": "The reported force of each element equals its stiffness matrix in its own orientation times its nodal displacements.", "quantifier": "every mesh with elements of any orientations", "why_tests_cant": "wrong only when elements of one part have different orientation", "anchors": ["rose/model/global_system.py::GlobalSystem.calculate_force_in_elements", "rose/model/utils.py::rotate_aux_matrix"]}
{"id": "C17", "title": "Rigid translation of a beam or rod produces no force", "statement": "The stiffness and damping matrices of a rod and the stiffness matrix of a beam (any end fixity, any shear factor, any orientation) annihilate every rigid translation.", "quantifier": "every material, section, length, spring stiffness, angle, translation", "why_tests_cant": "identity over all real parameters", "anchors": ["rose/model/model_part.py::RodElementModelPart.set_aux_stiffness_matrix", "rose/model/model_part.py::TimoshenkoBeamElementModelPart.set_aux_stiffness_matrix"]}
{"id": "C18", "title": "Rigid rotation of a beam produces no force", "statement": "The beam stiffness matrix annihilates an infinitesimal rigid rotation about any point, for every shear factor and every end fixity.", "quantifier": "every beam parameter, fixity, rotation centre", "why_tests_cant": "only combinations of shear flexibility with semi-rigid ends break it", "anchors": ["rose/model/model_part.py::TimoshenkoBeamElementModelPart.set_aux_stiffness_matrix"]}
{"id": "C19", "title": "Beam stiffness is symmetric, stores no negative energy and resists every deformation", "statement": "For positive stiffness parameters the beam stiffness matrix is symmetric, u^T K u >= 0 for every u, and for rigid ends u^T K u = 0 only if u is a rigid body motion.", "quantifier": "every nodal displacement vector, every positive parameter, every fixity factor in [0,1]", "why_tests_cant": "positive definiteness on the deformation space quantifies over all displacements", "anchors": ["rose/model/model_part.py::TimoshenkoBeamElementModelPart.set_aux_stiffness_matrix", "rose/model/model_part.py::RodElementModelPart.set_aux_stiffness_matrix"]}
{"id": "C20", "title": "Beam and rod mass matrices carry exactly the element mass", "statement": "A uniform unit acceleration of a beam in any direction costs exactly the inertia rho*A*l (a rod's mass acts along its axis only and costs rho*A*l for an acceleration along the axis); a rigid rotation of a beam about an end costs rho*A*l^3/3 (plus rho*I*l with rotary inertia); the matrix is symmetric and positive definite: every motion of the end nodes that is not rest has kinetic energy.", "quantifier": "every length, area, density and shear factor", "why_tests_cant": "polynomial identities in all parameters", "anchors": ["rose/model/model_part.py::TimoshenkoBeamElementModelPart.__set_translational_aux_mass_matrix", "rose/model/model_part.py::TimoshenkoBeamElementModelPart.__set_rotational_aux_mass_matrix", "rose/model/model_part.py::RodElementModelPart.set_aux_mass_matrix"]}
{"id": "C21", "title": "Beam interpolation reproduces nodal values and rigid motions", "statement": "The transverse shape functions interpolate the four nodal values at both ends, sum to one in translation, and reproduce any rigid motion exactly, for all shear factors.", "quantifier": "every position in the element, every length and shear factor", "why_tests_cant": "identity in position and parameters", "anchors": ["rose/model/model_part.py::TimoshenkoBeamElementModelPart.set_y_shape_functions"]}
{"id": "C22", "title": "The rotation shape functions are the slope of the deflection shape functions", "statement": "At each position the rotation shape functions are the derivatives of the deflection shape functions.", "quantifier": "every position, length and shear factor", "why_tests_cant": "a derivative statement over a continuum", "anchors": ["rose/model/model_part.py::TimoshenkoBeamElementModelPart.set_z_rot_shape_functions", "rose/model/model_part.py::TimoshenkoBeamElementModelPart.set_y_shape_functions"]}
{"id": "C23", "title": "Beam interpolation reproduces pure bending", "statement": "A beam bent to constant curvature (deflection x^2/2 with matching nodal values) is interpolated exactly, for every shear factor and every length.", "quantifier": "every position, length and shear factor", "why_tests_cant": "fails only for shear-flexible beams whose length differs from 1 m", "anchors": ["rose/model/model_part.py::TimoshenkoBeamElementModelPart.set_y_shape_functions"]}
{"id": "C24", "title": "Rotating an element matrix to global axes is a change of coordinates", "statement": "The global matrix of an inclined element is that of the same element turned by its angle: its energy for a global displacement equals the local energy of the displacement expressed in element axes.", "quantifier": "every angle, every element matrix, every displacement", "why_tests_cant": "horizontal and vertical rods hide the sign; only inclined elements show it", "anchors": ["rose/model/utils.py::rotate_aux_matrix", "rose/model/model_part.py::RodElementModelPart.set_rotation_matrix", "rose/model/model_part.py::TimoshenkoBeamElementModelPart.set_rotation_matrix"]}
{"id": "C25", "title": "Rotating a force to local axes and back is the identity", "statement": "Rotating points/forces around z by an angle and then by the opposite angle returns them, lengths are preserved, and the rotation takes the element direction to the local x axis.", "quantifier": "every angle and vector, every pair of element end points", "why_tests_cant": "identity over all angles", "anchors": ["rose/model/utils.py::rotate_point_around_z_axis", "rose/model/utils.py::calculate_rotation", "rose/model/utils.py::calculate_point_rotation", "rose/model/utils.py::rotate_force_vector"]}
{"id": "C26", "title": "Semi-rigid ends interpolate between pinned and rigid", "statement": "The end fixity factor lies in [0,1], is 0 for a free spring, 1 for an infinite one and increases with spring stiffness; infinite springs give the ordinary beam matrix and zero springs remove all bending resistance at that end.", "quantifier": "every spring stiffness >= 0, every beam parameter", "why_tests_cant": "monotonicity over a continuum", "anchors": ["rose/model/model_part.py::TimoshenkoBeamElementModelPart.__set_rigid_part_stiffness_matrix"]}
{"id": "C27", "title": "Internal beam forces match the element end forces", "statement": "The reported internal forces at the two ends of a beam element equal the element's end forces, and the bending moment varies linearly in between.", "quantifier": "every nodal displacement, every position in the element", "why_tests_cant": "tests check one displacement mode for which the wrong interpolation happens to be linear", "anchors": ["rose/model/model_part.py::TimoshenkoBeamElementModelPart.calculate_local_forces_at_x", "rose/model/model_part.py::TimoshenkoBeamElementModelPart.calculate_strain"]}
{"id": "C28", "title": "A moving load travels the integral of its velocity", "statement": "The load position along the track at time index k is its start distance plus the sum over earlier steps of velocity times step length; it is monotone for non-negative velocities and stays put for zero velocity.", "quantifier": "every time array, velocity array, start position", "why_tests_cant": "holds for every time index of every array", "anchors": ["rose/model/boundary_conditions.py::MovingPointLoad.calculate_cumulative_distance_moving_load", "rose/model/utils.py::calculate_cum_distance_from_velocity"]}
{"id": "C29", "title": "Loads off the track carry no force", "statement": "At every time index at which the moving load lies before the first or beyond the last track node its force is zero and its reported position is clamped to the track end; at all others force and position are unchanged.", "quantifier": "every load history, every track", "why_tests_cant": "quantifies over all positions and times", "anchors": ["rose/model/boundary_conditions.py::MovingPointLoad.filter_load_outside_range", "rose/model/utils.py::filer_location", "rose/model/utils.py::filter_data_outside_range"]}
{"id": "C30", "title": "The moving load acts on the element it is on", "statement": "At every time index the active contact element is the one whose end nodes enclose the load position.", "quantifier": "every track, every velocity history (including more than one element per step and reversing), every start position on the track", "why_tests_cant": "the search advances at most one element per time step and never backwards; only fast, reversing or end-of-track loads expose it", "anchors": ["rose/model/boundary_conditions.py::MovingPointLoad.set_active_elements", "rose/model/boundary_conditions.py::MovingPointLoad.get_first_element_idx"]}
{"id": "C31", "title": "The moving load uses the properties of the part it is on", "statement": "At every time index the contact model part is the part that owns the active contact element.", "quantifier": "every partition of the track in parts, every active element history", "why_tests_cant": "the part pointer advances at most once per time step", "anchors": ["rose/model/boundary_conditions.py::MovingPointLoad.set_contact_model_part_as_function_of_time"]}
{"id": "C32", "title": "Nodal loads are statically equivalent to the moving load", "statement": "Distributing a vertical force (or an axial force) at position x to the element nodes gives nodal forces with the same total force and the same moment about the first node.", "quantifier": "every position, force, length, shear factor", "why_tests_cant": "identity over all positions and parameters", "anchors": ["rose/model/boundary_conditions.py::MovingPointLoad.__distribute_shear_force", "rose/model/boundary_conditions.py::MovingPointLoad.__distribute_normal_force"]}
{"id": "C33", "title": "A force and a moment at the same point superpose", "statement": "The nodal load of a moving point load with several components is the sum of the nodal loads of each component alone.", "quantifier": "every force, moment, position", "why_tests_cant": "both distributions return the same internal buffer; only a combined load shows it", "anchors": ["rose/model/boundary_conditions.py::MovingPointLoad.update_force", "rose/model/boundary_conditions.py::MovingPointLoad.__distribute_z_moment"]}
{"id": "C34", "title": "Train dofs are numbered once each", "statement": "Numbering the degrees of freedom of any train (carts, bogies possibly shared between carts, wheels) gives every distinct body its own indices, consecutive from the starting index, and a shared bogie keeps the indices of its first visit.", "quantifier": "every train topology including shared bogies, every start index", "why_tests_cant": "topology is arbitrary; tests use one shared bogie", "anchors": ["rose/model/train_model.py::Cart.calculate_active_n_dof", "rose/model/train_model.py::Bogie.calculate_active_n_dof", "rose/model/train_model.py::Wheel.calculate_active_n_dof", "rose/model/train_model.py::TrainModel.initialise_ndof"]}
{"id": "C35", "title": "Train matrices are symmetric and raising the whole train costs no force", "statement": "The train stiffness and damping matrices are symmetric and a uniform vertical displacement (velocity) of all bodies produces no force and no moment.", "quantifier": "every train: any numbers of carts, bogies, wheels, any distances and distribution factors", "why_tests_cant": "fails only for unequal distribution factors or asymmetric distances", "anchors": ["rose/model/train_model.py::Bogie.fill_stiffness_matrix", "rose/model/train_model.py::Cart.fill_stiffness_matrix", "rose/model/train_model.py::Cart.fill_damping_matrix", "rose/model/train_model.py::Bogie.fill_damping_matrix"]}
{"id": "C36", "title": "The train suspension stores the energy of its springs", "statement": "For every displacement of the train the energy u^T K u equals the sum over suspensions of stiffness times squared elongation; it is never negative.", "quantifier": "every train and every displacement", "why_tests_cant": "a quadratic identity over all displacements", "anchors": ["rose/model/train_model.py::Bogie.fill_stiffness_matrix", "rose/model/train_model.py::Cart.fill_stiffness_matrix"]}
{"id": "C37", "title": "The static wheel loads carry the whole train weight", "statement": "After initialisation the static loads of all wheels sum to minus g times the total mass of carts, bogies and wheels, for every train including shared bogies.", "quantifier": "every train topology, masses", "why_tests_cant": "quantifies over all topologies and masses", "anchors": ["rose/model/train_model.py::TrainModel.calculate_total_static_load", "rose/model/train_model.py::Cart.calculate_total_static_load", "rose/model/train_model.py::Bogie.distribute_static_load", "rose/model/train_model.py::Wheel.calculate_total_static_load"]}
{"id": "C38", "title": "Initialising a train again gives the same wheel loads", "statement": "Calling the initialisation a second time on the same train (as the coupled system does when it is run again) leaves every wheel's static load and irregularity unchanged.", "quantifier": "every train, every number of repetitions", "why_tests_cant": "needs a second run on the same objects; tests build a fresh train each time", "anchors": ["rose/model/train_model.py::Wheel.calculate_total_static_load", "rose/model/train_model.py::Bogie.calculate_total_static_load", "rose/model/train_model.py::TrainModel.initialise_irregularities_at_wheels", "rose/model/train_track_interaction.py::CoupledTrainTrack.clean_model"]}
{"id": "C39", "title": "Wheels keep their distance", "statement": "At every time the track distance of a wheel is that of its cart plus the bogie offset plus the wheel offset, so the distance between any two wheels is constant in time.", "quantifier": "every train, time and velocity history", "why_tests_cant": "over all times and trains", "anchors": ["rose/model/train_model.py::TrainModel.calculate_distances"]}
{"id": "C40", "title": "The initial train displacement follows the imposed wheel displacement", "statement": "The initial static displacement of the train solves the static equations of its bodies under their own weight with the wheels held at the prescribed wheel displacement.", "quantifier": "every train stiffness matrix, every force and prescribed wheel displacement", "why_tests_cant": "only non-zero wheel displacements expose the sign", "anchors": ["rose/model/train_model.py::TrainModel.impose_displacement", "rose/model/train_model.py::TrainModel.calculate_initial_displacement"]}
{"id": "C41", "title": "The wheel-rail contact only pushes", "statement": "The contact force is zero when the wheel is off the rail, never pulls, increases with compression, and a NaN compression is reported as an error.", "quantifier": "every compression, every contact coefficient > 0 and Hertz power > 0", "why_tests_cant": "quantifies over all compressions and powers; odd integer powers are the untested case", "anchors": ["rose/model/train_track_interaction.py::CoupledTrainTrack.calculate_wheel_rail_contact_force"]}
{"id": "C42", "title": "Static contact deformation balances the static wheel load", "statement": "Under the static contact deformation the contact law returns exactly the static load of each wheel.", "quantifier": "every static load that presses the wheel onto the rail and every positive contact parameter", "why_tests_cant": "inverse-function identity over a continuum", "anchors": ["rose/model/train_track_interaction.py::CoupledTrainTrack.calculate_static_contact_deformation", "rose/model/train_track_interaction.py::CoupledTrainTrack.calculate_wheel_rail_contact_force"]}
{"id": "C43", "title": "The track receives the opposite of the forces on the wheels", "statement": "In each time step the sum of the vertical forces the wheels put on the rail nodes is minus the sum of the contact forces on the wheels, and other loads on the track are kept.", "quantifier": "every number and position of wheels, every contact force", "why_tests_cant": "forces are written, not added; only wheels sharing a rail node expose it", "anchors": ["rose/model/train_track_interaction.py::CoupledTrainTrack.set_wheel_load_on_track", "rose/model/train_track_interaction.py::CoupledTrainTrack.update_force_vector_contact"]}
{"id": "C44", "title": "Track displacement under a wheel is work-conjugate to the wheel load", "statement": "The rail displacement used under a wheel is the interpolated nodal displacement: the power of the nodal rail forces equals the contact force times the velocity of the contact point; a uniform rail displacement is reported unchanged.", "quantifier": "every rail displacement, wheel position", "why_tests_cant": "bilinear identity over all displacements and positions", "anchors": ["rose/model/train_track_interaction.py::CoupledTrainTrack.get_disp_track_at_wheels", "rose/model/train_track_interaction.py::CoupledTrainTrack.set_wheel_load_on_track"]}
{"id": "C45", "title": "The coupled system is the direct sum of track and train", "statement": "The coupled matrices have the track and train matrices as diagonal blocks and zero elsewhere, the coupled right hand side is the concatenation, and the shifted train dofs are disjoint from the track dofs.", "quantifier": "every pair of systems", "why_tests_cant": "over all sizes", "anchors": ["rose/model/train_track_interaction.py::CoupledTrainTrack.combine_global_matrices", "rose/model/train_track_interaction.py::CoupledTrainTrack.combine_rhs", "rose/model/train_track_interaction.py::CoupledTrainTrack.initialise_ndof"]}
{"id": "C46", "title": "A train that leaves the track is rejected", "statement": "The position check raises an error exactly if some wheel is off the track (beyond float tolerance) at some time.", "quantifier": "every wheel path and every track", "why_tests_cant": "quantifies over all paths", "anchors": ["rose/model/train_track_interaction.py::CoupledTrainTrack.__check_train_position"]}
{"id": "C47", "title": "There is one moving load per wheel", "statement": "However often the wheel loads are initialised, the track then has exactly one moving load per wheel, and all its other model parts in unchanged order.", "quantifier": "every initial list of parts, every number of initialisations", "why_tests_cant": "history property", "anchors": ["rose/model/train_track_interaction.py::CoupledTrainTrack.initialize_wheel_loads", "rose/model/train_track_interaction.py::CoupledTrainTrack.clean_model"]}
{"id": "C48", "title": "A generated track has the advertised structure", "statement": "create_horizontal_track(n, d, h, r) yields n*r rail nodes spaced d/r forming a chain of n*r-1 elements, n sleepers spaced d each connected by one pad to the rail node above it and by one soil spring to a node h below; all nodes and elements are in the mesh.", "quantifier": "every number of sleepers, spacing, depth, rail elements per sleeper", "why_tests_cant": "must hold for every n and r", "anchors": ["rose/pre_process/mesh_utils.py::create_horizontal_track"]}
{"id": "C49", "title": "Combining tracks gives one continuous rail", "statement": "Combining any number of track segments yields one rail whose elements form a chain through all rail nodes with equal spacing, and sleepers of consecutive segments are one sleeper distance apart.", "quantifier": "every list of segments, every number of rail elements per sleeper", "why_tests_cant": "tests use one rail element per sleeper", "anchors": ["rose/pre_process/mesh_utils.py::combine_horizontal_tracks"]}
{"id": "C50", "title": "Inserting a hinge splits the rail without losing elements", "statement": "Inserting a hinge at a rail node distributes the rail elements over the resulting parts so that their concatenation is the original rail, with the springs at the hinge node; a coordinate that is not a rail node is rejected.", "quantifier": "every rail, every hinge position including the ends", "why_tests_cant": "index arithmetic that differs at the ends", "anchors": ["rose/pre_process/mesh_utils.py::add_semi_rigid_hinge_at_x", "rose/pre_process/mesh_utils.py::create_hinge_model_part"]}
{"id": "C51", "title": "Hinge stiffness realises the requested fixity", "statement": "The hinge stiffness computed from a fixity factor f in [0,1) makes the beam end's fixity factor equal f, is zero for f=0 and increases with f; a factor outside [0,1] is rejected.", "quantifier": "every fixity factor and beam", "why_tests_cant": "over a continuum of factors", "anchors": ["rose/model/track.py::Hinge.calculate_hinge_stiffness", "rose/model/model_part.py::TimoshenkoBeamElementModelPart.__set_rigid_part_stiffness_matrix", "rose/pre_process/mesh_utils.py::add_semi_rigid_hinge_at_x"]}
{"id": "C52", "title": "The bottom boundary fixes exactly the lowest nodes", "statement": "The bottom boundary part contains exactly the nodes of the model part whose height is the minimum and fixes their displacements.", "quantifier": "every model part", "why_tests_cant": "over all node sets", "anchors": ["rose/pre_process/mesh_utils.py::add_no_displacement_boundary_to_bottom"]}
{"id": "C53", "title": "Ballast settlement never decreases", "statement": "The accumulated settlement reported by the Varandas model is non-negative and non-decreasing in time for every node, over any number of stages.", "quantifier": "every force history, every parameter set, every stage sequence", "why_tests_cant": "over all histories", "anchors": ["rose/model/accumulation_model.py::Varandas.settlement", "rose/model/accumulation_model.py::Varandas.settlement"]}
{"id": "C54", "title": "Each train is counted as often as it passes", "statement": "In the Varandas model a train with c passages in the period contributes exactly c load cycles.", "quantifier": "every set of trains with different passage counts", "why_tests_cant": "only trains with fewer passages than the busiest one expose the off-by-one", "anchors": ["rose/model/accumulation_model.py::Varandas.settlement", "rose/model/accumulation_model.py::ReadTrainInfo"]}
{"id": "C55", "title": "The output step does not change the final settlement", "statement": "The settlement at the end of a stage is the sum of all cycle increments, whatever output step is chosen.", "quantifier": "every number of cycles and output step", "why_tests_cant": "breaks only for output steps larger than half the cycles", "anchors": ["rose/model/accumulation_model.py::Varandas.settlement", "rose/model/accumulation_model.py::ReadTrainInfo.__init__"]}
{"id": "C56", "title": "A stage can be split", "statement": "Calculating settlement for N1 passages and continuing for N2 passages gives the same settlement as N1+N2 passages at once.", "quantifier": "every N1, N2, force and parameters", "why_tests_cant": "history property", "anchors": ["rose/model/accumulation_model.py::Varandas.settlement", "rose/model/accumulation_model.py::AccumulationModel.calculate_settlement"]}
{"id": "C57", "title": "Subsoil settlement is non-negative, non-decreasing and starts at zero", "statement": "The Li & Selig settlement at every node starts at zero at the first output, is non-negative and non-decreasing.", "quantifier": "every layering, strength, force", "why_tests_cant": "over all inputs", "anchors": ["rose/model/accumulation_model.py::LiSelig.settlement", "rose/model/accumulation_model.py::LiSelig.settlement"]}
{"id": "C58", "title": "Soil classes are recognised or rejected", "statement": "Every supported soil class gets its table parameters; any other class raises an error.", "quantifier": "every class string", "why_tests_cant": "over all strings", "anchors": ["rose/model/accumulation_model.py::LiSelig.__classify"]}
{"id": "C59", "title": "Results stay aligned over stages", "statement": "After any sequence of traffic reads and settlement calculations, every node's settlement history is as long as the time array, and continuing a stage starts from the last settlement of the previous one.", "quantifier": "every history of stages", "why_tests_cant": "history property", "anchors": ["rose/model/accumulation_model.py::AccumulationModel.calculate_settlement", "rose/model/accumulation_model.py::AccumulationModel.__create_results"]}
{"id": "C60", "title": "Traffic with inconsistent node counts is rejected", "statement": "Reading traffic succeeds exactly if all trains have the same number of force nodes.", "quantifier": "every traffic dictionary", "why_tests_cant": "over all dictionaries including the empty one", "anchors": ["rose/model/accumulation_model.py::AccumulationModel.read_traffic"]}
{"id": "C61", "title": "The settlement of a period does not depend on when it starts", "statement": "The number of load cycles applied in a period depends on its duration, not on its start time.", "quantifier": "every start and end time", "why_tests_cant": "tests start at zero", "anchors": ["rose/model/accumulation_model.py::ReadTrainInfo.__init__", "rose/model/accumulation_model.py::Varandas.settlement"]}
{"id": "C62", "title": "A wheel flat hits once per revolution", "statement": "The wheel flat profile is zero except for one sample of minus the flat depth per revolution, and any track length is accepted.", "quantifier": "every distance array and wheel", "why_tests_cant": "short tracks without a complete revolution are untested", "anchors": ["rose/model/irregularities.py::WheelFlat"]}
{"id": "C63", "title": "The wheel rolls on the rail defect without penetrating it", "statement": "Over a rail defect given as a polyline the wheel is at the lowest height at which the circle does not cut the profile; a flat profile gives zero irregularity.", "quantifier": "every profile given from left to right within the track, every radius and position", "why_tests_cant": "a sup over a continuum of contact points", "anchors": ["rose/model/irregularities.py::RailDefect"]}
{"id": "C64", "title": "Random track irregularities belong to the track", "statement": "With one seed all wheels see the same irregularity at the same position, and its size never exceeds the sum of the amplitudes.", "quantifier": "every parameter set, seed, position", "why_tests_cant": "over all positions and seeds", "anchors": ["rose/model/irregularities.py::RailIrregularities", "rose/model/train_model.py::TrainModel.initialise_irregularities_at_wheels"]}
{"id": "C65", "title": "Default trains are couplable", "statement": "In every default train consecutive carts are one cart length apart in decreasing order from the start coordinate, and every bogie and wheel offset list matches its bodies.", "quantifier": "every train type, number of carts, start coordinate", "why_tests_cant": "over all numbers of carts", "anchors": ["rose/pre_process/default_trains.py::set_train"]}
{"id": "C66", "title": "Shared bogies of an articulated train have one position", "statement": "In the SLT train neighbouring carts share a bogie and both carts put it at the same position; fewer than two carts are rejected.", "quantifier": "every number of carts", "why_tests_cant": "over all numbers of carts", "anchors": ["rose/pre_process/default_trains.py::set_sprinter_slt_train"]}
{"id": "C67", "title": "Wagons of a cargo train do not overlap the locomotives", "statement": "In a cargo train the carts occupy disjoint stretches of track for every number of locomotives and wagons.", "quantifier": "every number of locomotives and wagons", "why_tests_cant": "tests use one locomotive", "anchors": ["rose/pre_process/default_trains.py::build_cargo_train"]}
{"id": "C68", "title": "Optimisation evaluations are independent of each other", "statement": "The residual returned for a parameter vector depends only on that vector and the original model, not on earlier evaluations.", "quantifier": "every model, every sequence of evaluated parameter vectors", "why_tests_cant": "history property", "anchors": ["rose/optimisation/optimisation.py::residual_function"]}
{"id": "C69", "title": "Particles stay within the bounds", "statement": "After every iteration of the particle swarm every particle lies within the bounds.", "quantifier": "every cost function, bounds, random draws, number of iterations", "why_tests_cant": "over all executions", "anchors": ["rose/optimisation/particle_swarm_optimisation.py::Particle.update_position", "rose/optimisation/particle_swarm_optimisation.py::PSO"]}
{"id": "C70", "title": "The particle swarm returns the best point it has evaluated", "statement": "The returned position has the smallest cost among all evaluated positions, and the reported error is its cost.", "quantifier": "every cost function, random draws, numbers of particles and iterations", "why_tests_cant": "over all executions; a sentinel value collides with a legal cost", "anchors": ["rose/optimisation/particle_swarm_optimisation.py::PSO"]}
{"id": "C71", "title": "Every particle is attracted to its own best point", "statement": "A particle remembers the position of its best evaluation, so that its velocity update contains the pull back to it.", "quantifier": "every execution", "why_tests_cant": "the remembered position is an alias; visible only after a worse move", "anchors": ["rose/optimisation/particle_swarm_optimisation.py::Particle.evaluate", "rose/optimisation/particle_swarm_optimisation.py::Particle.update_velocity"]}
{"id": "C72", "title": "Kalman estimates are convex combinations with shrinking variance", "statement": "With independent components the gain is in [0,1], each measurement moves the estimate between prediction and measurement, variances stay non-negative and never grow in an update, and the covariance stays diagonal.", "quantifier": "every measurement history, every noise setting", "why_tests_cant": "history property", "anchors": ["rose/utils/Kalman_Filter.py::KalmanFilter"]}
{"id": "C73", "title": "Analysing a signal does not change it", "statement": "Computing the effective vibration level leaves the caller's signal unchanged, so that repeated analysis gives the same result.", "quantifier": "every signal", "why_tests_cant": "aliasing", "anchors": ["rose/utils/Hmax.py::HrsmMax"]}
{"id": "C74", "title": "Frequency bands do not overlap", "statement": "The frequency weighting bands tile the covered range: each frequency in it is weighted exactly once and frequencies outside are left unweighted.", "quantifier": "every frequency", "why_tests_cant": "over a continuum", "anchors": ["rose/utils/Hmax.py::HrsmMax"]}
{"id": "C75", "title": "The layering for the dynamic stiffness model lists every layer", "statement": "The generated layering has one entry per soil layer with the right thickness plus the half space, in order.", "quantifier": "every number of layers", "why_tests_cant": "over all inputs", "anchors": ["rose/utils/wolf_utils.py::create_layering_for_wolf"]}
{"id": "C76", "title": "Log-normal random fields have the requested mean and deviation", "statement": "The parameters passed to the underlying normal field give a log-normal variable with the requested mean and coefficient of variation.", "quantifier": "every mean and coefficient of variation", "why_tests_cant": "identity over a continuum", "anchors": ["rose/utils/random_field.py::create_rf"]}
{"id": "C77", "title": "Interaction force history is the contact force history", "statement": "The interaction force reported for a wheel is minus its weight minus the total force on its dof, i.e. the opposite of the contact force put on it.", "quantifier": "every force history", "why_tests_cant": "over all histories", "anchors": ["rose/model/train_track_interaction.py::CoupledTrainTrack.get_interaction_forces_history", "rose/model/train_track_interaction.py::CoupledTrainTrack.update_force_vector_contact"]}
{"id": "C78", "title": "A valid model passes validation", "statement": "Validation raises an error exactly if the model at hand violates a requirement, whatever happened earlier in the process.", "quantifier": "every model, every logging history", "why_tests_cant": "history property: validation reads a process-wide log level cache", "anchors": ["rose/model/global_system.py::GlobalSystem.validate_input"]}
{"id": "C79", "title": "Semi-rigid ends behave as a beam attached through rotational springs", "statement": "The stiffness of a beam with semi-rigid ends maps node displacements to exactly the end forces of an ordinary beam whose ends are connected to the nodes through rotational springs with the stiffness that the fixity factors stand for.", "quantifier": "every beam, every pair of fixity factors, every displacement of the end nodes", "why_tests_cant": "algebraic identity in all parameters with existentially determined internal rotations", "anchors": ["rose/model/model_part.py::TimoshenkoBeamElementModelPart"]}
{"id": "C80", "title": "Wheels are placed at their true distance along the contact element", "statement": "At each time step the distance of a wheel from the first node of its contact element, which sets the shape factors, equals the position of the wheel minus the position of that node.", "quantifier": "every rail geometry, every sequence of contact elements and every wheel path", "why_tests_cant": "depends on a cumulative sum over the whole travel history", "anchors": ["rose/model/train_track_interaction.py::CoupledTrainTrack.calculate_distance_wheels_track_nodes", "rose/pre_process/mesh_utils.py::calculate_cum_distances_coordinate_array"]}
{"id": "C81", "title": "The reference test of the ballast model is reproduced", "statement": "The number of passages and the force of the reference test lead to the reference settlement given by the user.", "quantifier": "every reference settlement, force, number of cycles and exponent", "why_tests_cant": "a closed form over an unbounded number of cycles", "anchors": ["rose/model/accumulation_model.py::Varandas.__init__", "rose/model/accumulation_model.py::Varandas.settlement"]}
{"id": "C82", "title": "Settlement results can be written to any path", "statement": "Writing the settlement results succeeds for every file name in a writable location and creates the directory if it is missing.", "quantifier": "every file name, every set of existing directories", "why_tests_cant": "quantifies over all paths and file system states", "anchors": ["rose/model/accumulation_model.py::AccumulationModel.write_results"]}
{"id": "C83", "title": "Initialising a train again does not change its irregularities", "statement": "The irregularities at the wheels are the user's plus the generated ones, however often the train is initialised.", "quantifier": "every train, every number of initialisations", "why_tests_cant": "history property", "anchors": ["rose/model/train_model.py::TrainModel.initialise_irregularities_at_wheels"]}
{"id": "C84", "title": "The dictionary of a train describes the train", "statement": "Converting a train to a dictionary keeps the geometry and masses of every cart.", "quantifier": "every default and cargo train", "why_tests_cant": "over all types and sizes; mixed trains are untested", "anchors": ["rose/pre_process/default_trains.py::train_class_to_dict"]}
{"id": "C85", "title": "Optimisation parameters reach their attributes", "statement": "Evaluating a parameter vector runs the model in which the k-th listed attribute of its model part has the value of the k-th parameter and every other attribute its original value; too few parameters raise.", "quantifier": "every model, every list of parts and attributes, every parameter vector", "why_tests_cant": "over all lists of parts and names", "anchors": ["rose/optimisation/optimisation.py::Optimisation.initialise", "rose/optimisation/optimisation.py::Optimisation.residual_function"]}
{"id": "C86", "title": "Every observation enters the residual", "statement": "The residual compares every requested result at every requested position with its observation, for any number of results, positions and result sets.", "quantifier": "every choice of results, positions and time steps", "why_tests_cant": "tests use one result with two positions", "anchors": ["rose/optimisation/optimisation.py::Optimisation.residual_function"]}
{"id": "C87", "title": "Kalman variances stay non-negative for dependent components", "statement": "With dependent components (the default) an update keeps the variances non-negative, and an exact measurement is adopted.", "quantifier": "every measurement", "why_tests_cant": "over all noise levels", "anchors": ["rose/utils/Kalman_Filter.py::KalmanFilter.kalman_gain"]}
{"id": "C88", "title": "The effective level over the central window is below that over the signal", "statement": "Both effective values are roots of non-negative numbers, the window lies centrally within the signal, and its value does not exceed the value over the whole signal.", "quantifier": "every signal, sampling distance and band", "why_tests_cant": "over all lengths; index arithmetic with possible wrap-around", "anchors": ["rose/utils/Hmax.py::HrsmMax.effective_values"]}
{"id": "C89", "title": "The reported frequencies are the superposed ones", "statement": "The frequency array kept with generated rail irregularities lists the frequencies whose waves were added up.", "quantifier": "all frequency ranges and numbers of frequencies", "why_tests_cant": "must hold for every frequency index and every range", "anchors": ["rose/model/irregularities.py: RailIrregularities.__init__"]}
{"id": "C90", "title": "Soil layers have the thickness and depth of the scenario", "statement": "For the subsoil settlement every soil layer enters once, in order, with the parameters of its class, the distance between its top and the top of the next layer (or the given end of the last layer) as thickness and the depth of its centre below the surface; the thicknesses add up to the depth of the soil. A soil is accepted exactly if every layer's name ends in a known class, alone or after an underscore; any other is rejected with a value error.", "quantifier": "all soils with any number of layers with descending tops", "why_tests_cant": "any number of layers and any levels", "anchors": ["rose/model/accumulation_model.py: LiSelig.__initial_stress, LiSelig.__classify, LiSelig.__read_SoS"]}
{"id": "C91", "title": "Soil strength follows from the weight of the soil above", "statement": "The strength in the middle of each soil layer is the Mohr-Coulomb strength under the weight of the soil above it.", "quantifier": "all layered soils", "why_tests_cant": "any number of layers with any unit weights", "anchors": ["rose/model/accumulation_model.py: LiSelig.__initial_stress, LiSelig.__strength"]}
{"id": "C92", "title": "The stress under a sleeper is that of a strip load", "statement": "The deviatoric stress used in a soil layer is the largest shear stress, along a horizontal line at the depth of the layer, of the elastic solution for a strip load of the force over the loaded area; it never exceeds the load divided by pi.", "quantifier": "all forces, areas and depths", "why_tests_cant": "real-valued inputs; identity between trigonometric expressions", "anchors": ["rose/model/accumulation_model.py: LiSelig.__dev_stress"]}
{"id": "C93", "title": "The profile is drawn over the distance along the track", "statement": "Points of a profile plot are drawn at the distance travelled along the track: the first at zero and every next one further by the straight distance between the two points.", "quantifier": "all segments, coordinates and times for which something is drawn", "why_tests_cant": "any number of segments and points", "anchors": ["rose/post_processing/plot_profile.py: compute_cumulative_distance, plot_profile"]}
{"id": "C94", "title": "Weighted mean and standard deviation", "statement": "The mean and standard deviation of scenario values are those of the weighted values: weighted deviations from the mean cancel, the mean lies between the smallest and largest value, the squared standard deviation is the weighted mean squared deviation and vanishes only if all values that count agree; weights without a sum are rejected.", "quantifier": "all value and weight lists", "why_tests_cant": "any number of real values and weights", "anchors": ["rose/post_processing/plot_profile.py: weighted_avg_and_std"]}
{"id": "C95", "title": "A profile shows every value at its own position", "statement": "Each point of a segment is drawn with the mean value of its own segment.", "quantifier": "all lists of segments, however they are joined", "why_tests_cant": "any number of segments in any arrangement", "anchors": ["rose/post_processing/plot_profile.py: plot_profile"]}
{"id": "C96", "title": "A profile shows the stored time closest to the requested one", "statement": "Looking up a time (or value) gives the first entry that is closest to the requested one.", "quantifier": "all lists and requested values", "why_tests_cant": "any length, ties", "anchors": ["rose/post_processing/plot_profile.py: find_nearest, plot_profile"]}
{"id": "C97", "title": "Segments are joined at their closest ends", "statement": "A further segment is added to a profile at the ends of both that are closest to each other.", "quantifier": "all profiles and segments", "why_tests_cant": "any coordinates", "anchors": ["rose/post_processing/plot_profile.py: plot_profile"]}
{"id": "C98", "title": "Loads inside an element do the work of the load", "statement": "The nodal loads that replace a moving force or moment inside an element do the same work as the load itself, for every deformation of the element.", "quantifier": "all positions, loads, element lengths, shear ratios and deformations", "why_tests_cant": "identity over all positions and deformations", "anchors": ["rose/model/boundary_conditions.py: MovingPointLoad.update_force", "rose/model/model_part.py: TimoshenkoBeamElementModelPart.set_y_shape_functions, TimoshenkoBeamElementModelPart.set_z_rot_shape_functions"]}
{"id": "C99", "title": "Rail element length is that of the elements", "statement": "If initialising a rail is accepted, the stored element length is the length of every rail element, up to the comparison tolerance; a rail of equal elements is accepted, whatever the order of its nodes.", "quantifier": "all node lists and coordinates, all generated tracks", "why_tests_cant": "any number, order and position of nodes", "anchors": ["rose/model/track.py: Rail.calculate_length_rail, Rail.initialize", "rose/pre_process/mesh_utils.py: create_horizontal_track"]}
{"id": "C100", "title": "Train mass matrix is the kinetic energy, force vector the weight", "statement": "The mass matrix of a train gives its kinetic energy: every cart, bogie and wheel counts once, also a bogie that belongs to two carts. The static force vector is minus the weight of each body and sums to the weight of the train.", "quantifier": "all trains, velocities and gravity", "why_tests_cant": "any number of carts, bogies, wheels and any sharing of bogies", "anchors": ["rose/model/train_model.py: Wheel.fill_mass_matrix, Bogie.fill_mass_matrix, Cart.fill_mass_matrix, TrainModel.get_train_parts, set_static_force_vector"]}
{"id": "C101", "title": "Train mesh holds the nodes of the parts", "statement": "After initialisation the mesh of a train holds the node objects of its parts, each once, in their order, with the coordinates and dof indices of the part, also for bogies that belong to two carts.", "quantifier": "all trains and start positions with bodies of the same kind apart", "why_tests_cant": "aliasing of node objects for any sharing of bogies", "anchors": ["rose/model/train_model.py: TrainModel.set_mesh, Cart.set_mesh, Bogie.set_mesh, Wheel.set_mesh, TrainModel.initialise"]}
{"id": "C102", "title": "Initialising a train keeps every body", "statement": "Trimming the matrices of a train removes no dof of a body and leaves the mass, damping, stiffness and force entries of the bodies unchanged.", "quantifier": "all trains", "why_tests_cant": "any train, any sharing of bogies", "anchors": ["rose/model/train_model.py: TrainModel.initialise", "rose/model/global_system.py: GlobalSystem.trim_all_global_matrices"]}
{"id": "C103", "title": "Contact dofs are the wheels", "statement": "The contact dofs of an initialised train are the vertical dofs of the wheels, one per wheel, in the order of the wheels.", "quantifier": "all trains", "why_tests_cant": "any train", "anchors": ["rose/model/train_model.py: TrainModel.get_contact_dofs"]}
{"id": "C104", "title": "Removing massless dofs does not change statics", "statement": "A dof that is removed because it has no mass does not change the static displacements of the others.", "quantifier": "all assembled systems and loads", "why_tests_cant": "any system", "anchors": ["rose/model/global_system.py: GlobalSystem.trim_all_global_matrices"]}
{"id": "C105", "title": "A hinge on a generated rail has the requested fixity", "statement": "A hinge created on the rail of a generated track with a requested fixity factor gives the beam ends at the hinge this fixity.", "quantifier": "all tracks, rails and fixity factors below 1", "why_tests_cant": "any number of rail elements per sleeper", "anchors": ["rose/pre_process/mesh_utils.py: create_hinge_model_part, create_horizontal_track", "rose/model/track.py: Hinge.calculate_hinge_stiffness"]}
{"id": "C106", "title": "The assembled system does the work of all parts", "statement": "After initialisation, for any displacement field that is zero at supported dofs, the work done by the global stiffness, mass and damping matrices and the force vector is the sum of the works of all model parts and loads in their own axes; exactly the supported dofs and those without mass or stiffness are missing among the unknowns.", "quantifier": "all meshes, model parts, supports, loads and displacement fields", "why_tests_cant": "a test assembles one structure; the claim is about every structure and every displacement field", "anchors": ["rose/model/global_system.py: GlobalSystem.initialise, add_model_parts_to_global_matrices, trim_all_global_matrices, calculate_rayleigh_damping"]}
{"id": "C107", "title": "Initialising again gives the same system", "statement": "Initialising the same model again on the same mesh gives the same unknowns, matrices and forces.", "quantifier": "all models and any number of repetitions", "why_tests_cant": "any number of repetitions on any model; state kept in the node objects could accumulate", "anchors": ["rose/model/global_system.py: GlobalSystem.initialise", "rose/model/train_track_interaction.py: CoupledTrainTrack.clean_model"]}
{"id": "C108", "title": "Nodes of an earlier calculation can be used again", "statement": "Initialising a changed model on a mesh that was used before gives the same system as on a new mesh.", "quantifier": "all pairs of models on one mesh", "why_tests_cant": "depends on the history of the node objects", "anchors": ["rose/model/global_system.py: GlobalSystem.initialise, recalculate_dof", "rose/model/model_part.py: ConstraintModelPart"]}
{"id": "C109", "title": "The forces of a time step do not depend on the history", "statement": "The force vector that the solver receives for a time index and displacements depends only on these, not on the time steps and iterations computed before; it consists of the loads prescribed for this time, the train's own weight and equal and opposite contact forces.", "quantifier": "all loads, wheels, contact laws, and all schedules of time steps and iterations before", "why_tests_cant": "quantifies over every history of steps and iterations; the vectors are updated in place", "anchors": ["rose/model/train_track_interaction.py: CoupledTrainTrack.update_non_linear_iteration, update_time_step_rhs, set_wheel_load_on_track", "rose/model/boundary_conditions.py: LoadCondition.update_force", "rose/model/global_system.py: GlobalSystem.update_time_step_rhs"]}
{"id": "C110", "title": "The force update can be repeated", "statement": "Updating the force vector twice for the same time index and displacements gives the same forces.", "quantifier": "all states, times and displacements", "why_tests_cant": "the vector is changed in place; depends on how often the solver calls it", "anchors": ["rose/model/train_track_interaction.py: CoupledTrainTrack.update_force_vector, update_force_vector_contact"]}
{"id": "C111", "title": "The initial state carries the loads of time 0", "statement": "The force vector from which the initial displacements are computed contains all loads prescribed for time 0.", "quantifier": "all sets of load conditions", "why_tests_cant": "any set of loads of both kinds", "anchors": ["rose/model/global_system.py: GlobalSystem.initialise, calculate_initial_displacement", "rose/model/boundary_conditions.py: LoadCondition.initialize, MovingPointLoad.initialize"]}
{"id": "C112", "title": "The stages cover the time array", "statement": "The stages of a calculation compute every time index once, in order, each stage starting where the one before ended; with a solver that advances step by step the staged calculation equals one over the whole time array.", "quantifier": "all time arrays with at least two times, all solvers that advance step by step", "why_tests_cant": "any number of changes of the step size at any places", "anchors": ["rose/model/global_system.py: GlobalSystem.set_stage_time_ids, main", "rose/model/train_track_interaction.py: CoupledTrainTrack.main"]}
{"id": "C113", "title": "The coupled calculation starts in equilibrium", "statement": "After the initial state of the coupled train and track model is calculated, the forces of the stiffness of track and train at every degree of freedom equal the forces the calculation applies in its first evaluation at time 0 (weights, contact forces, loads), so that a train standing still stays at rest.", "quantifier": "all tracks, trains, wheel positions, contact laws, loads and displacements that calculate_initial_state can deliver", "why_tests_cant": "Tests look at displacements of a few configurations; the balance must hold at every degree of freedom for every track and train.", "anchors": ["rose/model/train_track_interaction.py:CoupledTrainTrack.calculate_initial_state", "rose/model/train_model.py:TrainModel.calculate_initial_displacement", "rose/model/train_model.py:TrainModel.impose_displacement", "rose/model/global_system.py:GlobalSystem.calculate_initial_displacement"]}
{"id": "C114", "title": "Static wheel loads are the reactions of the train at rest", "statement": "For a train at rest under gravity, the static load that is reported for a wheel, and applied to the track, is the force that keeps the wheel in place; the stiffness matrix gives at every body the sum of the forces of the springs attached to it.", "quantifier": "all trains with their carts, bogies, wheels, distances, masses, stiffnesses and distribution factors, and all displacements in which carts and bogies are in equilibrium", "why_tests_cant": "Tests check loads of a few symmetric trains; the claim concerns every arrangement of bogies and wheels and every resting position.", "anchors": ["rose/model/train_model.py:TrainModel.calculate_total_static_load", "rose/model/train_model.py:Cart.calculate_total_static_load", "rose/model/train_model.py:Bogie.distribute_static_load", "rose/model/train_model.py:Cart.fill_stiffness_matrix"]}
{"id": "C115", "title": "A generated track on its boundaries has one static equilibrium", "statement": "A track from create_horizontal_track with at least two sleepers, with positive rail, pad and soil stiffness, fixed at the bottom of the soil and held in x at both rail ends, is initialised without error, stores energy in every displacement, and has for every load exactly one displacement in equilibrium. Without the x constraint, or with one sleeper only, the static system is singular.", "quantifier": "all numbers of sleepers and rail elements per sleeper, sleeper distances, soil depths, section and material properties, pad and soil values, loads and earlier states of the nodes", "why_tests_cant": "Tests solve a few tracks; that the matrix is never singular is a statement about all sizes and all parameters at once.", "anchors": ["rose/pre_process/mesh_utils.py:create_horizontal_track", "rose/pre_process/mesh_utils.py:add_no_displacement_boundary_to_bottom", "rose/model/global_system.py:GlobalSystem.initialise", "rose/model/boundary_conditions.py:ConstraintModelPart", "run_rose/demo.py:create_model"]}
{"id": "C116", "title": "The unknowns of a generated track", "statement": "After initialisation of a generated track on its boundaries, the unknowns are x displacement, y displacement and rotation of every rail node, except the x displacements of the first and last rail node, and the y displacement of every sleeper; the nodes below the soil have none. Their number is 3 times the rail nodes plus the sleepers minus 2.", "quantifier": "all generated tracks whose rail, sleepers and pads have masses and stiffnesses above the trimming tolerance 1e-8", "why_tests_cant": "Which dofs are removed depends on boundaries, node sharing between parts and diagonal entries of the assembled matrices; tests look at single meshes.", "anchors": ["rose/model/global_system.py:GlobalSystem.trim_all_global_matrices", "rose/model/global_system.py:GlobalSystem.initialise", "rose/pre_process/mesh_utils.py:create_horizontal_track"]}
{"id": "C117", "title": "Every time step of a generated track has one solution", "statement": "For a generated track on its boundaries with masses, dampings and a damping ratio that are not negative, the matrix K + a C + b M is regular for all a, b >= 0, in particular the effective matrix of the Newmark method for every step size.", "quantifier": "all generated tracks with at least two sleepers, all parameter values, all step sizes and method parameters", "why_tests_cant": "Tests run with a few step sizes on a few tracks.", "anchors": ["rose/model/global_system.py:GlobalSystem.calculate_rayleigh_damping", "rose/model/global_system.py:GlobalSystem.initialise", "rose/pre_process/mesh_utils.py:create_horizontal_track"]}
{"id": "C118", "title": "Reading the traffic counts every axle", "statement": "read_traffic succeeds exactly if there is a train, all trains have forces for the same number of nodes and the output step is not zero; the cycles of a train are the axles that pass in the period, consecutive periods add up, and output times and output indices have equal length, strictly increasing indices, and span the whole period.", "quantifier": "all dictionaries of trains, periods and output steps", "why_tests_cant": "Counting and rounding of output indices must be right for every combination of counts and steps; tests use a few round numbers.", "anchors": ["rose/model/accumulation_model.py:ReadTrainInfo", "rose/model/accumulation_model.py:AccumulationModel.read_traffic"]}
{"id": "C119", "title": "A clamped beam element is a Timoshenko cantilever", "statement": "A beam element with rigid ends, clamped at one node and loaded at the other by axial force, transverse force and moment, has the displacements of Timoshenko's theory (bending, shear with shear modulus E/(2(1+nu)) and shear area, stretching), and no others.", "quantifier": "all admissible sections, materials, shear factors, lengths and loads", "why_tests_cant": "Tests compare with solutions for single parameter sets within a tolerance; a wrong power of the length or a wrong shear modulus may stay within it.", "anchors": ["rose/model/model_part.py:TimoshenkoBeamElementModelPart.set_aux_stiffness_matrix", "rose/model/model_part.py:TimoshenkoBeamElementModelPart.calculate_timoshenko_factor", "rose/model/model_part.py:Material.shear_modulus"]}
{"id": "C120", "title": "Reported strains balance the internal forces", "statement": "The strains reported at top and bottom of a beam section belong to a plane section; the stresses of this linear strain have the normal force and the bending moment as resultants, for every section shape with the given area, second moment and centroid.", "quantifier": "all sections (widths as a function of height), materials and internal forces", "why_tests_cant": "A statement about integrals over all section shapes.", "anchors": ["rose/model/model_part.py:TimoshenkoBeamElementModelPart.calculate_strain"]}
{"id": "C121", "title": "The reported results satisfy the principle of virtual work", "statement": "A calculation on a new mesh succeeds and gives every node a row of displacements, velocities and accelerations for each output time. Whatever solver is used, if it satisfies the equations it is given, the reported fields respect all supports, and in every admissible virtual displacement the inertia, damping and stiffness forces of all parts do the work of the loads at that time. For a generated track the reported static displacements are the only such field.", "quantifier": "all structures, loads over time, orders in which the solver asks for right hand sides, and solvers that satisfy their equations", "why_tests_cant": "The claim composes numbering, assembly, supports, trimming, load updates, solver and result assignment for every structure and load history.", "anchors": ["rose/model/global_system.py:GlobalSystem.main", "rose/model/global_system.py:GlobalSystem.calculate_stage", "rose/model/global_system.py:GlobalSystem.assign_results_to_nodes", "rose/model/global_system.py:GlobalSystem.update_time_step_rhs", "rose/model/geometry.py:Node.assign_result"]}
{"id": "C122", "title": "A default train measures, weighs and behaves as its data sheet", "statement": "set_train with a type, a start coordinate and a number of carts returns a train whose carts stand at the pitch of the type behind the start, with two bogies of two wheels each at the offsets of the data sheet (SLT: bogies shared by neighbouring carts). Parts of one kind stand at least a metre apart. Every wheel reports as static load the weight the data sheet puts on it, and that load is the reaction under the wheel when the train stands at rest. Raising the train causes no force, and no displacement has negative energy. The same holds for a cargo train with its locomotive.", "quantifier": "all nine train types, start coordinates, numbers of carts, displacements, and cargo trains with any locomotive and wagons", "why_tests_cant": "Tests compare a few trains of fixed length; the claim covers every length and every displacement of all types.", "anchors": ["rose/pre_process/default_trains.py:set_train", "rose/pre_process/default_trains.py:set_sprinter_slt_train", "rose/pre_process/default_trains.py:build_cargo_train", "rose/model/train_model.py:TrainModel.calculate_total_static_load", "rose/model/train_model.py:Cart.fill_stiffness_matrix"]}
{"id": "C123", "title": "For given wheel heights a train has one position of rest", "statement": "If every cart stands on two or more bogies and every bogie on two or more wheels at different places, with positive spring stiffness, then for every height of the wheels and every force on the bodies exactly one position of carts and bogies is in equilibrium. With positive masses every time step of the free train has exactly one solution, whatever the step size. All default trains have one position of rest.", "quantifier": "all trains, wheel heights, forces and step sizes", "why_tests_cant": "Regularity of the matrix for every train and step size is not a finite set of cases.", "anchors": ["rose/model/train_model.py:TrainModel.calculate_initial_displacement", "rose/model/train_model.py:TrainModel.set_global_stiffness_matrix", "rose/model/train_model.py:TrainModel.calculate_active_n_dof"]}
{"id": "C124", "title": "The results of a coupled calculation satisfy the laws of motion of track and train", "statement": "A coupled calculation reports displacements, velocities and accelerations of all nodes of the track and all bodies of the train. If the solver satisfies the equations it is given, the reported track results respect all supports and satisfy, in every admissible virtual displacement, d'Alembert's principle under the loads of the track and the contact forces of the wheels. Every cart, bogie and wheel obeys Newton's law under its weight, its springs and dampers and, for a wheel, the contact force. The contact force is the contact law for the reported positions of wheel and rail, equal and opposite on both, so that the powers of train and track add up.", "quantifier": "all tracks, trains, loads, contact laws, wheel paths, output times, iteration histories and solvers", "why_tests_cant": "Tests compare a few responses with analytical curves within a tolerance; the claim covers every track, train and time history.", "anchors": ["rose/model/train_track_interaction.py:CoupledTrainTrack.main", "rose/model/train_track_interaction.py:CoupledTrainTrack.initialise", "rose/model/train_track_interaction.py:CoupledTrainTrack.update_non_linear_iteration", "rose/model/train_track_interaction.py:CoupledTrainTrack.set_wheel_load_on_track", "rose/model/train_track_interaction.py:CoupledTrainTrack.assign_results_to_nodes"]}
{"id": "C125", "title": "A train running over a generated track obeys the laws of motion at its actual positions", "statement": "Let a track be generated with create_horizontal_track, its rail without shear deformation, and let a train be put on it at its cart distances with a velocity for every time. The coupled calculation is accepted and gives results for every output index. If the solver satisfies the equations it is given, then at every output index the reported displacements, velocities and accelerations satisfy: the supports are respected; in every admissible virtual displacement the inertia, damping and stiffness forces of the track do the work of the wheels, each pressing with its contact force at the coordinate where the train has driven it; every body of the train moves by its weight, its springs and dampers and the contact force. The contact force is the force of Hertz for the approach of wheel and rail: the static approach under the weight on the wheel, plus the cubic deflection of the rail at the coordinate of the wheel, minus the displacement of the wheel and the irregularity. Every default train other than the SLT, with any number of carts, meets the conditions on rail elements shorter than half a metre.", "quantifier": "Numbers of sleepers and rail elements, distances, stiffnesses, masses, trains with balanced suspensions whose wheels are more than two rail elements apart, times and velocities (forward, at most an element per step), irregularities, solvers that satisfy their equations, output indices, virtual displacements; default trains with any number of carts", "why_tests_cant": "A test compares results of one train on one track with stored numbers; it cannot show that positions, wheel loads, contact elements, shape functions, contact law, numbering, trimming and matrices together give the laws of motion for all tracks, trains and speeds.", "anchors": ["rose/model/train_track_interaction.py: CoupledTrainTrack.initialize_wheel_loads, get_contact_dofs, calculate_wheel_rail_contact_force, update_non_linear_iteration, main", "rose/model/train_model.py: TrainModel.calculate_distances, calculate_total_static_load", "rose/model/boundary_conditions.py: MovingPointLoad", "rose/pre_process/mesh_utils.py: create_horizontal_track", "rose/pre_process/default_trains.py"]}
{"id": "C126", "title": "Element forces of a generated track balance the loads at every node", "statement": "After a calculation on a track made by create_horizontal_track with the boundaries of the demo scripts, element.force at every output index is: for a rail pad and a soil spring the stiffness times the elongation, in the first column, with zeros in the others; for the rail axial force, shear force and mean moment. These reported forces are in equilibrium with the loads of that output index: vertical forces, horizontal forces (except at the held rail ends) and moments at every rail node, vertical forces at every sleeper, and the soil forces carry the total vertical load and its moment. For a dynamic calculation the same holds with the inertia and damping forces taken off the loads.", "quantifier": "all numbers of sleepers and rail elements per sleeper, all spacings and depths above the merging tolerance, all admissible rail, pad, sleeper and soil values, all loads over time, all output indices, all solvers that satisfy the equations they are given", "why_tests_cant": "a test compares the forces of one track with stored values; equilibrium at every node for every geometry, property and load history follows only from the assembly, the trimming, the result assignment and the force calculation together", "anchors": ["rose/model/global_system.py: GlobalSystem.calculate_force_in_elements, finalise, main", "rose/model/geometry.py: Element.assign_force", "rose/pre_process/mesh_utils.py: create_horizontal_track", "rose/model/model_part.py: RodElementModelPart, TimoshenkoBeamElementModelPart"]}
{"id": "C127", "title": "Forces and soil matrices in the result file of the demo script", "statement": "The result file of a demo run contains, for every output index, the vertical force of every rail element, of every rail pad and of every soil spring, and the matrices soil_stiffness and soil_damping, which are diagonal with the soil values at the vertical equation of every sleeper, with idx_matrix naming these equations.", "quantifier": "all generated tracks, property values and results of the nodes", "why_tests_cant": "the benchmark test stores the pad forces as computed, zeros included; that the matrices have their entries at the right equations for every track depends on the numbering after trimming", "anchors": ["run_rose/demo.py: main (collect results, collect stiffness and damping of the soil)", "rose/model/global_system.py: GlobalSystem.calculate_force_in_elements"]}
{"id": "C128", "title": "Weighted batch results", "statement": "get_batch_cumulative_settlement and get_batch_dynamic_stiffnesses report for every segment the sum over its scenarios of the value (settlement of the given node and step, or largest absolute stiffness) times the probability of the scenario, and keep every scenario in the data, in whatever order the files are listed.", "quantifier": "all soil data, directories, file contents, segments and orders of the listing", "why_tests_cant": "os.listdir gives an arbitrary order; a test sees the one order of its file system", "anchors": ["run_rose/batch_post_process.py: get_batch_cumulative_settlement, get_batch_dynamic_stiffnesses"]}
{"id": "C129", "title": "Rows of the GIS table", "statement": "write_gis_csv_2 writes, for every segment with results, one row for each of its coordinates with the weighted value of the segment, and no other rows.", "quantifier": "all soil data with different segment names, directories and orders of the listing", "why_tests_cant": "whether rows are lost depends on the order of the listing relative to the order of the soil data", "anchors": ["run_rose/batch_post_process.py: write_gis_csv_2, get_batch_cumulative_settlement"]}
{"id": "C130", "title": "Names of batch files", "statement": "The segment and the scenario of a batch result are found back from the name under which it is stored, different scenarios get different names, and the results of a train are found under the type of the train.", "quantifier": "all names of segments and scenarios", "why_tests_cant": "names are arbitrary strings; whether splitting and stripping find them back depends on their characters", "anchors": ["run_rose/batch_post_process.py: get_segment_and_scenario_from_fn, get_batch_dynamic_stiffnesses, get_results", "run_rose/batch_calculation.py: write_results", "run_rose/batch_varandas.py: main", "run_rose/read_wolf.py: read_wolf"]}
{"id": "C131", "title": "Trains of a segment are accumulated together", "statement": "batch_varandas accumulates, for every result, the intercity, sprinter and cargo train of that same result, and writes the settlements.", "quantifier": "all directories and orders of the listing", "why_tests_cant": "the pairing is by position in an arbitrary listing", "anchors": ["run_rose/batch_varandas.py: main", "rose/model/accumulation_model.py: Varandas"]}
{"id": "C132", "title": "Input of the dynamic stiffness for all scenarios", "statement": "read_file (run_wolf.py) gives one layering for every scenario of every segment, in the order of the soil data, under the name made of segment and scenario, with the layers of that scenario.", "quantifier": "all soil data", "why_tests_cant": "soil data have any number of segments, scenarios and layers", "anchors": ["run_rose/run_wolf.py: read_file"]}
{"id": "C133", "title": "Batch calculation: independence of the scenarios and stored steps", "statement": "The result file of a scenario of a batch calculation contains the result for the base model with stiffness and damping of this scenario, whatever other scenarios are calculated before it; the train stands still in the initial steps and has the given velocity afterwards; all stored histories contain the values of the same steps.", "quantifier": "all lists of scenarios, base models, calculations, intervals", "why_tests_cant": "independence must hold for every number and order of scenarios and for whatever the calculation changes in the model", "anchors": ["run_rose/batch_calculation.py: set_base_model, calculate, write_results, main"]}
{"id": "C134", "title": "Distance axis of the shown results", "statement": "The distance shown for an output step is the distance the train travelled since the first shown step.", "quantifier": "all times, velocities, intervals and output steps", "why_tests_cant": "depends on the whole velocity history", "anchors": ["run_rose/post_process.py: distance"]}
{"id": "C135", "title": "Weighted values of several results and their table", "statement": "calculate_weighted_values sets, for every segment, the sum over the scenarios of the value times the probability, changes nothing else and can be repeated; write_gis_csv then writes a row for every coordinate of every segment.", "quantifier": "all soil data, results and keys", "why_tests_cant": "must hold for every dictionary of segments and scenarios", "anchors": ["run_rose/batch_post_process.py: get_results, calculate_weighted_values, write_gis_csv"]}
{"id": "C136", "title": "Combined track is in order", "statement": "For any list of segments (numbers of sleepers and soil depths), generating the segments and combining them gives a mesh of exactly the rail nodes, sleepers and nodes below the soil, each once, no two of them coinciding, numbered by position; an evenly spaced rail across all joints; vertical pads and soil elements, one of each per sleeper; and one soil part per segment that reaches down to the depth of that segment.", "quantifier": "all lists of segments with at least two sleepers in all, all sleeper distances, numbers of rail elements per sleeper and soil depths", "why_tests_cant": "unbounded number of segments, sleepers and rail elements; merging by tolerance could join nodes of neighbouring segments for some distances", "anchors": ["rose/pre_process/mesh_utils.py: create_horizontal_track, combine_horizontal_tracks", "rose/model/geometry.py: Mesh.add_unique_nodes_to_mesh, Mesh.reorder_node_ids", "run_rose/demo.py: geometry"]}
{"id": "C137", "title": "Combined track stands and every time step is solvable", "statement": "The system of a track combined from segments with different soils, held in x at the rail ends and fixed below the soil, has exactly one static equilibrium under every load and exactly one solution of every Newmark step; a segment without soil values is rejected.", "quantifier": "all lists of segments, all admissible values of rail, pads, sleepers and of the soil of each segment, all step lengths, all earlier node flags", "why_tests_cant": "regularity of matrices of any size for all stiffness values", "anchors": ["run_rose/demo.py: create_model", "rose/pre_process/mesh_utils.py: add_no_displacement_boundary_to_bottom", "rose/model/global_system.py: GlobalSystem"]}
{"id": "C138", "title": "Laws of motion on a combined track", "statement": "For a train on a track combined from segments with different soils, if the solver satisfies its equations, the reported displacements, velocities and accelerations satisfy the laws of motion of track and train at every output step: supports, virtual work of the track under the contact forces at the places of the wheels (also between segments), Newton's law of every body, Hertz contact.", "quantifier": "all lists of segments, soil values, trains, speeds and irregularities that meet the stated conditions; all output steps", "why_tests_cant": "must hold for every train, track and position of the wheels, in particular at the joints", "anchors": ["run_rose/demo.py: create_model, main", "rose/model/train_track_interaction.py: CoupledTrainTrack", "rose/pre_process/mesh_utils.py: combine_horizontal_tracks"]}
{"id": "C139", "title": "Demo scripts calculate by the laws of motion", "statement": "For the demo scripts (a track of any number of segments with given sleeper numbers and soil values, one cart of a train type, start coordinate, speed, running time, time step): the time starts at zero, increases and ends at initialisation plus running time; the train stands still in the initialisation phase and then runs at constant speed; if it stays on the rail and no step is longer than a rail element, the calculation succeeds with one result per time step and the results obey the laws of motion of track and train at the actual positions of the wheels; and each script as shipped calculates all its trains.", "quantifier": "all numbers and lengths of segments, soil values, train types, starts, speeds, running times and steps that keep the train on the rail; all irregularities; all solvers that solve the equations they are given; and the values shipped with the scripts", "why_tests_cant": "a test can run one script for one train for some steps; it cannot show that every result of every step satisfies the equations of motion, nor for all script values", "anchors": ["run_rose/demo.py:geometry", "run_rose/demo.py:materials", "run_rose/demo.py:time_integration", "run_rose/demo.py:create_model", "run_rose/demo.py:main", "run_rose/demo_rf.py:main", "rose/pre_process/default_trains.py:set_train"]}
{"id": "C140", "title": "A wheel on a rail with a hinge acts on the element on which it stands", "statement": "For a straight rail of nodes at equal distances with a semi-rigid hinge in any inner node, and a wheel that runs over it: at every time step the element that the calculation takes as contact element of the wheel is one on which the wheel stands, and the calculation does not fail as long as the wheel is on the rail. As written this holds only up to the last node before the hinge: the nodes next to the hinge are listed twice, so that a wheel at the hinge or beyond it gets an element that lies ahead of it (the third one after the right one), and the calculation stops when the wheel comes within three elements of the end of the rail.", "quantifier": "all numbers of nodes, element lengths, places of the hinge in inner nodes, fixities, and all paths of a wheel on the rail", "why_tests_cant": "the test with a hinge removes the repeated nodes itself before it makes the moving load; a test of one passage cannot show for which wheel positions, hinge places and rail lengths the contact element is right or wrong", "anchors": ["rose/model/train_track_interaction.py:CoupledTrainTrack.initialize_wheel_loads", "rose/model/boundary_conditions.py:MovingPointLoad.set_active_elements", "rose/model/boundary_conditions.py:MovingPointLoad.get_first_element_idx", "rose/pre_process/mesh_utils.py:add_semi_rigid_hinge_at_x", "rose/pre_process/mesh_utils.py:create_hinge_model_part"]}
{"id": "C141", "title": "A track with a hinge has one equilibrium exactly where it is not a mechanism", "statement": "A generated track of n >= 2 sleepers on its boundaries, with a hinge added to the rail at one of its nodes, is accepted by the solver preparation. With any fixity factor in (0, 1] it has exactly one static equilibrium under every load, and each time step has exactly one solution. With a free pin (factor 0) it has exactly one static equilibrium if and only if it is not a mechanism: at least three sleepers, and a sleeper behind the pin.", "quantifier": "all numbers of sleepers, rail elements per sleeper, sleeper distances, soil depths, rail, pad, sleeper and soil values, positions of the hinge with two rail nodes on either side, fixity factors, loads and step lengths", "why_tests_cant": "whether a system of equations is regular depends on the number of sleepers, the position of the hinge and the stiffnesses together; a test checks one track, and a singular matrix often passes unnoticed in floating point", "anchors": ["rose/pre_process/mesh_utils.py: add_semi_rigid_hinge_at_x", "rose/model/track.py: Hinge, Rail", "rose/model/model_part.py: TimoshenkoBeamElementModelPart.set_aux_stiffness_matrix", "run_rose/demo_semi_rigid.py: create_model"]}
{"id": "C142", "title": "Each scenario of the batch is calculated by the laws of motion with its own soil", "statement": "Running the batch calculation over the dynamic stiffness files writes one result file per scenario, in which the train and the track move by the laws of motion: the springs under the sleepers have the stiffness and damping of that scenario (per metre of track) times the sleeper distance, the train stands still during the initialisation and then runs with the given speed, and no scenario influences another. The script as shipped runs.", "quantifier": "all batch values for which the train stays on the rail, all types of train, speeds, irregularities, lists of scenarios with positive soil stiffness and solvers that solve what they are given", "why_tests_cant": "The script needs the dynamic stiffness files and hours of calculation, so no test runs it; the claim is about every list of scenarios and every time step.", "anchors": ["run_rose/batch_calculation.py:13-299", "rose/pre_process/default_trains.py:TrainType", "rose/model/train_track_interaction.py:CoupledTrainTrack.main"]}
{"id": "C143", "title": "A train on a track with a hinge moves by the laws of motion", "statement": "A train that runs over a generated track with a semi-rigid hinge in an inner node of the rail: the coupled calculation runs through and its results obey the laws of motion at every time step: the track with the hinge moves by its own mass, damping and stiffness under the contact forces at the places where the wheels are, every body of the train by its springs and gravity, and each contact force is the Hertz force of the indentation. As written this holds as long as all wheels stay in front of the hinge (up to the last node before it). For a wheel that is more than one and a half elements behind the hinge the calculation applies the contact force elsewhere: the results can obey the laws of motion only if the wheel does not press on the rail at all.", "quantifier": "all numbers of sleepers, elements per sleeper, distances, soil depths, track values, places and fixities of the hinge, trains, speeds, irregularities, time steps and solvers that solve what they are given", "why_tests_cant": "no test runs a train over a hinge and compares with the equations of motion; a single run cannot show for which positions of hinge and train the results are right", "anchors": ["run_rose/demo_semi_rigid.py:create_model", "rose/model/train_track_interaction.py:CoupledTrainTrack.initialize_wheel_loads", "rose/model/train_track_interaction.py:CoupledTrainTrack.main", "rose/model/boundary_conditions.py:MovingPointLoad", "rose/pre_process/mesh_utils.py:add_semi_rigid_hinge_at_x"]}
{"id": "C144", "title": "The inertia of a track is the mass of all its parts", "statement": "When all nodes of a generated track move straight up together, the inertia of the system is the mass of the rail over its whole length plus the masses of pads, sleepers and soil at every sleeper, plus the mass of the hinge if the rail has one. As written the mass of the hinge is missing: the parts given to the system do not contain the hinge, so the inertia is right if and only if the hinge has no mass.", "quantifier": "all numbers of sleepers, elements per sleeper, distances, soil depths, track values, places, fixities and masses of the hinge", "why_tests_cant": "the mass of a hinge has no effect on static results and only a slight one on a single dynamic run; no test compares the total mass of an assembled track with the masses of its parts", "anchors": ["rose/model/model_part.py:TimoshenkoBeamElementModelPart.set_aux_mass_matrix", "rose/model/track.py:Hinge.set_aux_mass_matrix", "rose/pre_process/mesh_utils.py:create_hinge_model_part", "run_rose/demo_semi_rigid.py:create_model"]}
{"id": "C145", "title": "The static solution of a beam on two supports is its deflection under a point load", "statement": "SimpleSupportEulerStatic reports, at coordinates that go from one support to the other in equal steps not longer than the element size, the deflection of a simply supported Euler-Bernoulli beam under a point load: the only field with no deflection at the supports whose bending energy does the work of the load on every admissible virtual deflection.", "quantifier": "all element sizes, bending stiffnesses, lengths, forces and positions of the load on the beam", "why_tests_cant": "the class is itself the reference that the tests compare with; nothing in the repository compares it with the beam equation", "anchors": ["analytical_solutions/simple_supported.py:SimpleSupportEulerStatic.properties", "analytical_solutions/simple_supported.py:SimpleSupportEulerStatic.compute"]}
{"id": "C146", "title": "A static calculation of a beam on two supports gives the deflection of the beam at every node", "statement": "A beam of any number of equal elements on two supports, with a load history on one of its nodes, can be calculated with the static solver. At every time the nodes report no horizontal displacement, the exact deflection of Euler-Bernoulli theory plus the deflection by shear if a shear factor is given, and the exact slope as their rotation. Without a shear factor the vertical displacements are those of SimpleSupportEulerStatic on the same mesh.", "quantifier": "all numbers of elements, element lengths, sections, materials, loaded nodes, load histories and solvers that solve the equations", "why_tests_cant": "the benchmark compares one beam with one load within a tolerance; that the elements are exact at their nodes is a statement about all meshes", "anchors": ["tests/test_benchmark_set1.py:TestBenchmarkSet1.test_euler_beam_on_hinch_foundation_static", "rose/model/model_part.py:TimoshenkoBeamElementModelPart.set_aux_stiffness_matrix", "rose/model/global_system.py:GlobalSystem.main", "analytical_solutions/simple_supported.py:SimpleSupportEulerStatic.compute"]}
{"id": "C147", "title": "The solution of an undamped beam under a sudden load is its motion in the first n shapes", "statement": "SimpleSupportEulerNoDamping reports the motion from rest of a simply supported beam in its first n shapes after a sudden load at midspan. As written the loop uses n - 1 shapes, and with an odd number of elements the load is half an element left of midspan: the result is the motion in n - 1 shapes under a load at the node in the middle, and it is the expected one if and only if there is no load, no shape, or both n and the number of elements are even.", "quantifier": "all numbers of modes, element sizes, beams, forces, coordinates and times", "why_tests_cant": "the default values are even, and with many modes the last one is invisible in a comparison with a tolerance", "anchors": ["analytical_solutions/simple_supported.py:SimpleSupportEulerNoDamping.compute", "analytical_solutions/simple_supported.py:SimpleSupportEulerNoDamping.eigen_freq", "analytical_solutions/simple_supported.py:SimpleSupportEulerNoDamping.mode_shape"]}
{"id": "C148", "title": "The solution of a damped beam under a sudden load is its motion in the first n shapes", "statement": "SimpleSupportEulerWithDamping reports the motion from rest of a simply supported beam with damping by multiples of mass and stiffness, in its first n shapes after a sudden load at midspan. As written this has the same exceptions as without damping, and there is no result if a used shape is damped critically or more; with any stiffness damping this happens from some number of modes on.", "quantifier": "all numbers of modes, element sizes, beams, damping coefficients, forces, coordinates and times", "why_tests_cant": "tests use one lightly damped beam with few modes", "anchors": ["analytical_solutions/simple_supported.py:SimpleSupportEulerWithDamping.compute", "analytical_solutions/simple_supported.py:SimpleSupportEulerWithDamping.eigen_freq"]}
{"id": "C149", "title": "The solution of a Timoshenko beam under a sudden load is its motion", "statement": "SimpleSupportTimoshenkoNoDamping reports the motion from rest of a simply supported Timoshenko beam in its shapes after a sudden load at midspan. As written only parts of this hold: the reported velocity is the derivative of the displacement, the roots it looks for are the frequencies of Timoshenko's theory, and at midspan the amplitudes of all modes add up to the static deflection by bending and shear. The motion of a single mode is wrong for every beam and every load, because the factor for shear is the same in all modes.", "quantifier": "all numbers of modes, element sizes, beams, forces, roots, coordinates and times", "why_tests_cant": "the benchmark looks at midspan of one slender beam, where the amplitudes add up to the right value", "anchors": ["analytical_solutions/simple_supported.py:SimpleSupportTimoshenkoNoDamping.compute", "analytical_solutions/simple_supported.py:SimpleSupportTimoshenkoNoDamping.find_omega", "analytical_solutions/simple_supported.py:SimpleSupportTimoshenkoNoDamping.eigen_freq"]}
{"id": "C150", "title": "The solution for waves in a column is a motion of the column and approximates the travelling front", "statement": "The displacements, velocities and pressures that OneDimWavePropagation reports belong together (velocity and pressure are the derivatives of the displacement), satisfy the wave equation with the wave speed sqrt(K/rho), keep the bottom fixed and the pressure p0 at the top. With the displacement of the travelling wave front they agree up to an error that decreases like one over the number of Fourier terms, and they repeat after four travel times. Without given times they are reported at equally spaced times over the requested number of travel times.", "quantifier": "all densities, moduli, pressures, lengths, numbers of terms, places in the column and times", "why_tests_cant": "a benchmark compares a finite element result with the series at some points; it can not tell whether the series is the motion of the column for every column, place and time", "anchors": ["analytical_solutions/analytical_wave_prop.py:OneDimWavePropagation.solution", "analytical_solutions/analytical_wave_prop.py:OneDimWavePropagation.properties"]}
{"id": "C151", "title": "The vehicle that crosses a beam moves by the laws of motion", "statement": "TwoDofVehicle.compute reports for every time step the displacements of a beam (first mode) and of a sprung vehicle on it such that Newton's law holds for both, with accelerations by the average acceleration method. As written this holds exactly if the vehicle has no damper (or there is one step only), because the reaction of the damper on the wheel is left out; the rest holds for all vehicles.", "quantifier": "all vehicles, beams, speeds and time steps with a positive number of steps", "why_tests_cant": "the damper of the benchmark is so weak that the missing force is not seen; the laws must hold for every vehicle", "anchors": ["analytical_solutions/moving_vehicle.py:TwoDofVehicle.compute", "analytical_solutions/moving_vehicle.py:TwoDofVehicle.eigen_freq"]}
{"id": "C152", "title": "The solution of a cantilever under a sudden load at its end is its motion", "statement": "PulseLoadNoDamping (cantilever) reports the displacements and the velocities of a clamped beam in its first modes after a sudden load at its end. As written: the shapes and frequencies are those of free vibration exactly if the roots found are zeros of find_eigen; the displacements converge to the motion of the beam in its first n - 1 modes as the number of integration steps grows; the velocity is at the end of the beam at no time the derivative of the displacement.", "quantifier": "all numbers of modes and integration steps, element sizes, beams, loads, roots, places and times", "why_tests_cant": "a benchmark looks at the displacements of one beam; modes must be orthogonal and the modal mass right for every beam, and the velocities are in no test", "anchors": ["analytical_solutions/cantilever_beam.py:PulseLoadNoDamping.compute", "analytical_solutions/cantilever_beam.py:PulseLoadNoDamping.mode_shape", "analytical_solutions/cantilever_beam.py:PulseLoadNoDamping.mass_modal", "analytical_solutions/cantilever_beam.py:PulseLoadNoDamping.find_eigen"]}
{"id": "C153", "title": "The solution of a beam with a hinge is the deflection of that beam", "statement": "BeamWithHinge reports, for a load at any place of a beam that is clamped at one end, supported at the other and has an internal hinge, the largest displacement of the beam. The number it reports is for every load position the displacement at the hinge of the beam that is in equilibrium; it is the largest displacement while the load is on the part with the clamped end, and not always when the load is on the other part.", "quantifier": "all lengths of the two parts, bending stiffnesses, loads and load positions", "why_tests_cant": "the benchmark test compares one beam; a wrong coefficient in one branch or a larger displacement away from the hinge shows only at other proportions", "anchors": ["analytical_solutions/beam_with_hinge.py: BeamWithHinge.__calculate_left_part, __calculate_right_part, calculate_max_disp"]}
{"id": "C154", "title": "The solution for a moving load at a change of foundation stiffness is the motion of the beam", "statement": "MovingLoad reports the displacements of an infinite beam on an elastic foundation whose stiffness changes at the origin, under a load that moves at a constant speed below the critical one. Up to the moment the load reaches the change, the reported displacements satisfy the beam equation on both sides, continuity of displacement, slope, moment and shear force except for the jump of the shear force by the load, and rest far away. From then on they are computed from a transform; this transform satisfies the transformed beam equation with the state reached at time zero on both sides and continuity of slope, moment and shear force, but the displacement is continuous at the change if and only if the stiffness does not change.", "quantifier": "all stiffnesses of the two foundations, bending stiffnesses, masses, loads, subcritical speeds, positions and times before the transition; all regular parameters of the transform", "why_tests_cant": "the test compares the numbers with stored numbers of the same program; whether they are a motion of a beam is a statement about all positions and times", "anchors": ["analytical_solutions/winkler.py: MovingLoad.parameters, solve, time_low, time_high, coefficients_low, coefficients_bar"]}
{"id": "C155", "title": "The effective values of a signal are calibrated", "statement": "HrsmMax reports effective values as a moving average over eight metres with exponentially decaying weights. For a sampling distance that divides eight metres, a filtered signal of steady magnitude c (for the bands that are differentiated twice: whose second difference quotients have steady magnitude c) gives the overall effective value c, up to a factor between one and one plus half the sampling distance, and the same value in the middle window if the signal is long enough on both sides; no signal that stays within magnitude c (or whose second difference quotients do) gives more than that.", "quantifier": "all filtered signals, magnitudes, numbers of samples, window lengths and sampling distances that divide eight metres", "why_tests_cant": "the tests compare a few recorded signals; the normalisation of the weights is a statement about every sampling distance", "anchors": ["rose/utils/Hmax.py: HrsmMax.effective_values"]}
{"id": "C156", "title": "A static calculation of a beam with a hinge gives the deflection of the beam at the hinge", "statement": "For a beam without shear factor, clamped at its first node and held at its last, that add_semi_rigid_hinge_at_x has split at an inner node (at least two elements from the ends) with a hinge without rotational stiffness: GlobalSystem with the static solver reports at the hinge, at every output time and for every load and position of the load on the nodes, the displacement that BeamWithHinge.calculate_max_disp gives, which is the deflection of Euler-Bernoulli beam theory. The nodal forces of a moving load at an end of an element are the whole force on that node.", "quantifier": "all sections and materials, all numbers and lengths of elements, all positions of the hinge and paths of the load along the nodes, all load histories, all solvers that solve the equilibrium equations", "why_tests_cant": "The benchmark compares one beam of 100 elements with the hinge in the middle and a tolerance; that the calculation is exact for every discretisation and every position needs a proof.", "anchors": ["tests/test_benchmark_set1.py:TestBenchmarkSet1.test_point_load_on_beam_with_hinge", "analytical_solutions/beam_with_hinge.py:BeamWithHinge.calculate_max_disp", "rose/pre_process/mesh_utils.py:add_semi_rigid_hinge_at_x", "rose/model/global_system.py:GlobalSystem.main"]}
{"id": "C157", "title": "The unknowns of a combined track", "statement": "After trimming, the unknowns of a track combined from segments and fixed below are exactly: horizontal displacement, vertical displacement and rotation of every rail node except the horizontal displacement of the two rail ends, and the vertical displacement of every sleeper; no node below the soil has one. Their number plus two is three times the number of rail nodes plus the number of sleepers.", "quantifier": "all lists of segments, elements per sleeper distance, depths and admissible values, all node identities", "why_tests_cant": "the indices of all results (and of the train behind the track) depend on this count for every number of segments and sleepers", "anchors": ["rose/model/global_system.py: GlobalSystem.trim_all_global_matrices, initialise", "rose/pre_process/mesh_utils.py: combine_horizontal_tracks, add_no_displacement_boundary_to_bottom", "run_rose/demo.py: create_model"]}
{"id": "C158", "title": "Results of selected output steps", "statement": "A calculation whose solver stores only some of the time steps reports as output number i, on every node of track and train, the results of the i-th stored step; the times and velocities of the result file are those of the same steps, and the laws of motion hold for output i at the stored time step with the wheels where the train is at that step.", "quantifier": "all systems and coupled models, all lists of stored steps, all solvers", "why_tests_cant": "the tests use every step; the alignment of results, times and wheel positions must hold for every selection of steps", "anchors": ["run_rose/demo.py: create_model (output_interval), write_results", "rose/model/global_system.py: GlobalSystem.finalise", "rose/model/train_track_interaction.py: CoupledTrainTrack.main"]}
{"id": "C159", "title": "Laws of motion for trains of own design and cargo trains", "statement": "A train built by the user from carts with two bogies of two wheels each, with any masses, inertias, springs and dampers of physical size and any distances, is accepted on a combined track when its axles are more than two rail elements apart, start on the rail and stay on it; if the solver satisfies its equations, the reported motion of track and train satisfies the laws of motion at every time step. A cargo train of one locomotive and any number of wagons as returned by the builder fits these conditions.", "quantifier": "all numbers of carts, all data of carts, all places, times and velocities that meet the stated conditions; all locomotives and wagons of the builder and all numbers of wagons", "why_tests_cant": "the number of carts and their data are unbounded; the tests run one train", "anchors": ["rose/model/train_model.py: TrainModel, Cart, Bogie, Wheel", "rose/pre_process/default_trains.py: build_cargo_train", "rose/model/train_track_interaction.py: CoupledTrainTrack", "run_rose/run_optimisation.py: set_base_model"]}
{"id": "C160", "title": "What the calibration script fits", "statement": "A row of displacements_out of a coupled calculation has one entry per unknown of the track (three per rail node and one per sleeper, less two) followed by the unknowns of the train, and the entry of a body of the train is what its node reports. The shipped calibration script therefore compares the largest absolute vertical displacement of the front wheel of its cart, in the outputs 800 to 1298, with 0.8 mm, for every stiffness above zero, every damping and after every sequence of earlier evaluations; stiffness and damping are determined by two independent observations.", "quantifier": "all combined tracks and trains as in C138 and C157, all solvers, all lists of stored steps, all parameters of the soil, all histories of evaluations", "why_tests_cant": "the meaning of an index into the solution depends on all parts of track and train; the optimisation visits unboundedly many parameters", "anchors": ["run_rose/run_optimisation.py: set_base_model, main", "rose/optimisation/optimisation.py: Optimisation.residual_function", "rose/model/global_system.py: GlobalSystem.finalise"]}
{"id": "C161", "title": "A combined track with a hinge stands and its solver steps are solvable", "statement": "Segments combined to one track with a semi-rigid hinge of fixity factor above 0 up to 1 in an inner node of the rail (the model part list of the semi-rigid demo scripts): with admissible values the system is assembled, has exactly one static equilibrium under every load, and every time step of the implicit solvers has exactly one solution. The same holds for a free pin if there are three or more sleepers and one of them is behind the pin. A segment without soil values is rejected.", "quantifier": "all numbers of segments, sleepers, elements per sleeper, distances, depths, track and soil values, places and fixity factors of the hinge, node flags, loads and step factors", "why_tests_cant": "no test assembles a combined track with a hinge; that no choice of values and hinge makes the matrices singular is a statement about all of them", "anchors": ["run_rose/demo_semi_rigid.py:create_model", "run_rose/demo_semi_rigid_rf.py:create_model", "rose/pre_process/mesh_utils.py:combine_horizontal_tracks", "rose/pre_process/mesh_utils.py:add_semi_rigid_hinge_at_x", "rose/model/global_system.py:GlobalSystem"]}
{"id": "C162", "title": "A train on a combined track with a hinge moves by the laws of motion", "statement": "A train that runs over a combined track with a semi-rigid hinge, as in the semi-rigid demo scripts: the coupled calculation runs through and its results obey the laws of motion at every time step. As written this holds as long as all wheels stay in front of the hinge. A wheel past the hinge (with no other wheel close behind it) does not press on the element on which it stands; this happens for every train of the shipped scripts that can be calculated. A train that leaves the rail is refused. The shipped script stops at its second train.", "quantifier": "all segments, track and soil values, places and fixities of the hinge, trains, speeds, irregularities, time steps and solvers that solve what they are given; all values of the scripts", "why_tests_cant": "no test runs a train over a combined track with a hinge; the scripts are not run by the tests and need hours", "anchors": ["run_rose/demo_semi_rigid.py:create_model", "run_rose/demo_semi_rigid.py:main", "run_rose/demo_semi_rigid_rf.py:main", "rose/model/train_track_interaction.py:CoupledTrainTrack.initialize_wheel_loads", "rose/model/train_track_interaction.py:CoupledTrainTrack.main", "rose/model/boundary_conditions.py:MovingPointLoad"]}
{"id": "C163", "title": "The result files of the demo scripts list what they say for several segments", "statement": "The result file that demo.py (and demo_rf.py, demo_semi_rigid.py, demo_semi_rigid_rf.py) writes for a track of several segments lists: the rail nodes from left to right at their places with their vertical displacements; the rail pads and the soil springs sleeper by sleeper, each with both its ends; the displacements of the sleepers; the number of the segment of each soil spring; the force in each soil spring as the stiffness of the soil of its own segment times the displacement of its sleeper; and the shear force of every rail element from left to right. The rows of all lists about the soil belong to the same sleepers in the same order. The soil stiffness and damping matrices have exactly one diagonal entry per sleeper, the stiffness or damping of its segment at its vertical degree of freedom, and zeros elsewhere. A hinge changes none of this, although the rail is then four model parts: the rail elements are still listed from left to right, the two next to the hinge with their springs.", "quantifier": "all segments (numbers of sleepers, depths), rail nodes per sleeper, sleeper distances, track and soil values, places and fixities of the hinge, results (numbers of time steps, displacements)", "why_tests_cant": "the scripts are not run by the tests; a row shifted by one sleeper or one segment gives a plausible file", "anchors": ["run_rose/demo.py:write_results", "run_rose/demo_rf.py:write_results", "run_rose/demo_semi_rigid.py:write_results", "run_rose/demo_semi_rigid_rf.py:write_results"]}
{"id": "C164", "title": "The dynamic stiffness of the batch relates force and displacement of the same sleeper", "statement": "The dynamic stiffness that get_batch_dynamic_stiffnesses reads for a node from a result file of the batch is the largest force in the soil divided by the largest displacement of the soil at one and the same place, so for the linear springs of the batch it is the stiffness of the soil. As written it is only so for the node 0: for the node 2j the force is that of the sleeper 2j and the displacement that of the sleeper j; for an odd node the displacement is that of a fixed bottom node (division by zero); for a node number from the number of sleepers on there is an IndexError although the file has twice as many rows of displacements.", "quantifier": "all tracks of one segment, soil values, sampling intervals, results, node numbers", "why_tests_cant": "the batch scripts are not run by the tests; the values are plausible since neighbouring sleepers move alike", "anchors": ["run_rose/batch_post_process.py:get_batch_dynamic_stiffnesses", "run_rose/batch_calculation.py:write_results"]}
{"id": "C165", "title": "The soil values of the random-field demos belong to their sleepers", "statement": "In demo_rf.py and demo_semi_rigid_rf.py every sleeper gets the value of the random field of its segment at its own place (0.6 m times its number in the segment), stiffnesses are positive, and the variations of different segments and of stiffness and damping are different ones. As written the field is taken at 0.6 k n / (n - 1) (right only for the first sleeper of a segment, off by one sleeper distance at its end); the values are positive exactly if the standard normal field stays above -4; and because all fields have the same seed and places, the second half of the track repeats the variations of the first and the damping varies exactly as the stiffness. With positive values the runs obey the laws of motion as in C139.", "quantifier": "all standard fields (seeds), numbers of sleepers, mean values, trains of the scripts", "why_tests_cant": "the scripts are not run by the tests; a field sampled at shifted places looks as random as the right one", "anchors": ["rose/utils/random_field.py:create_rf", "run_rose/demo_rf.py:main", "run_rose/demo_semi_rigid_rf.py:main"]}
{"id": "C166", "title": "A calculation in several stages obeys the equations at every time", "statement": "A calculation whose time array has several step sizes is done in stages. If the solver solves each stage that has one step size, then the reported displacements, velocities and accelerations satisfy the equations of motion (or of equilibrium, for a static solver) with the loads of that time at every time from the first to the last, in track models and in models of a train on a track; a solver that is neither dynamic nor static is refused. As written the first part holds for all time arrays in which no step size returns after a different one and fails otherwise; and an unknown solver is not refused: the exception is created but not raised, and the calculation reports a system at rest under any load.", "quantifier": "all systems of horizontal elements and vertical rods, loads, time arrays with at least two times, solvers, trains on tracks", "why_tests_cant": "tests use one or two stages with fixed data and only the known solvers", "anchors": ["rose/model/global_system.py:GlobalSystem.calculate_stage", "rose/model/global_system.py:GlobalSystem.main", "rose/model/global_system.py:GlobalSystem.set_stage_time_ids", "rose/model/train_track_interaction.py:CoupledTrainTrack.calculate_stage", "rose/model/train_track_interaction.py:CoupledTrainTrack.main"]}
{"id": "C167", "title": "The forces reported for rail, pads and soil under a train balance the contact forces at every node", "statement": "When a calculation of a train on a track combined from segments has finished, every rail element, pad and soil spring reports a force for every output time. Pads and soil springs report their stiffness times their elongation. At every rail node and every sleeper the forces of the adjoining elements balance the shares of the contact forces of all wheels less the inertia and damping forces; together the soil springs of all segments carry the sum of the contact forces, and their moment, less inertia and damping of the track. As written this is shown under the conditions of C138: rails without shear deformation, wheels more than two rail elements apart, no step longer than a rail element.", "quantifier": "all lists of segments, soils, admissible track values, trains, speeds, irregularities, output times, solvers that solve the equations they are given", "why_tests_cant": "tests compare forces of a few elements at a few times with stored numbers", "anchors": ["rose/model/train_track_interaction.py:CoupledTrainTrack.finalise", "rose/model/train_track_interaction.py:CoupledTrainTrack.main", "rose/model/global_system.py:GlobalSystem.calculate_force_in_elements"]}
{"id": "C168", "title": "The Kalman filter follows a motion through time steps of varying size", "statement": "The matrices prepared for an array of time steps are, index by index, those for the step of that size, indices outside the array are refused, and a run with the prepared matrices gives the same estimates as a run that sets the matrices before every measurement. A motion with constant acceleration that is known at the start and measured exactly is reported exactly after every step, whatever errors are declared and however the step sizes vary. With independent components, no control variable and no process noise, the estimated velocity after any number of measurements is the mean of first value and measurements weighted with the inverse squared errors, with the variance of that mean; likewise the displacement for measurements at one time.", "quantifier": "all arrays of time steps, all histories of measurements, all declared errors, independent and dependent components (exactness)", "why_tests_cant": "holds for histories of any length and any sequence of step sizes", "anchors": ["rose/utils/Kalman_Filter.py::KalmanFilter.initialise_control_matrices", "rose/utils/Kalman_Filter.py::KalmanFilter.update_control_matrices_by_index", "rose/utils/Kalman_Filter.py::KalmanFilter.update_control_matrices", "rose/utils/Kalman_Filter.py::KalmanFilter.predicted_state"]}
{"id": "C169", "title": "Loads and deflections inside an element with semi-rigid ends", "statement": "A transverse force inside a rail element whose ends are attached to the nodes through rotational springs (as the two elements at a hinge) is passed on to the nodes as by a beam on these springs, and the deflection taken under a wheel is that of this beam. As written the springs are left out of the shape functions: force and deflection are right for all displacements of the nodes exactly if both ends are rigid or the place is a node. An end with fixity alpha receives 3 alpha / (4 - alpha) of the moment that the calculation puts on the node, a free hinge none; beside every hinge the claim fails at every inner place of both elements.", "quantifier": "all shear-rigid elements, all springs of non-negative stiffness, all forces, places and displacements of the nodes; all inner nodes and fixities of a hinge", "why_tests_cant": "tests place loads at nodes; the claim is about every place and every displacement", "anchors": ["rose/model/model_part.py::TimoshenkoBeamElementModelPart.set_y_shape_functions", "rose/model/boundary_conditions.py::MovingPointLoad.update_force", "rose/pre_process/mesh_utils.py::add_semi_rigid_hinge_at_x"]}
{"id": "C170", "title": "A beam element is the elastic beam between its nodes", "statement": "For given displacements and rotations of its two nodes a beam element stands for the straight elastic beam between them, without loads in between: the solution of the differential equations of Timoshenko (or of Euler and Bernoulli without a shear factor). The element forces are the end forces of that beam, the energy of the stiffness matrix is its elastic energy, the inertia of the mass matrix is its kinetic energy (with rotary inertia exactly for a shear factor), and the shape functions give its deflection at every point. If the ends are attached through rotational springs, the same holds for the beam between the springs.", "quantifier": "all materials, sections, lengths and shear factors, all displacements and rotations of the nodes, all points of the element and all non-negative springs", "why_tests_cant": "the tests compare single matrix entries; equality with the solution of differential equations for all parameters is outside their reach", "anchors": ["rose/model/model_part.py: TimoshenkoBeamElementModelPart.set_aux_stiffness_matrix", "rose/model/model_part.py: TimoshenkoBeamElementModelPart.set_aux_mass_matrix", "rose/model/model_part.py: TimoshenkoBeamElementModelPart.set_y_shape_functions"]}
{"id": "C171", "title": "Static results do not depend on the number of rail elements per sleeper", "statement": "A static calculation of a horizontal track gives the same deflections and rotations at the rail nodes shared by two meshes, and the same sleeper displacements, when only the number of rail elements per sleeper is multiplied. For loads on shared nodes this holds for every rail, and the additional nodes of the finer mesh lie on the elastic curve between the shared ones (beyond the last sleeper on a straight line). For vertical forces between the nodes it holds for a rail without a shear factor. With a shear factor the force is distributed wrongly, and the meshes agree only if elements have length one.", "quantifier": "all tracks with at least two sleepers, all numbers of elements per sleeper and refinements, all materials and sections, all load histories and output times, all solvers that solve the equations", "why_tests_cant": "a test compares one pair of meshes for one load; convergence of a mesh study says nothing about exactness", "anchors": ["rose/pre_process/mesh_utils.py: create_horizontal_track", "rose/model/track.py: Rail.calculate_length_rail", "rose/model/model_part.py: TimoshenkoBeamElementModelPart.set_aux_stiffness_matrix", "rose/model/model_part.py: TimoshenkoBeamElementModelPart.set_y_shape_functions", "rose/model/boundary_conditions.py: MovingPointLoad.update_force", "rose/model/global_system.py: GlobalSystem.main"]}
{"id": "C172", "title": "The equations of motion of a track are well posed and its vibrations never grow", "statement": "The mass, damping and stiffness matrices that the program builds for a track define a sound equation of motion: the forces determine the initial accelerations; for every load that is continuous in time and every initial displacement and velocity there is exactly one motion; its kinetic plus elastic energy changes by the power of the load minus what the damping takes, which is never negative, so without load the energy never grows. No free vibration grows; with Rayleigh damping of a positive ratio every one decays; without any damping every one goes on at a real frequency that is not zero.", "quantifier": "all generated tracks with at least two sleepers, all tracks combined from segments with different soils, also with a semi-rigid hinge or a pin in the rail; all admissible values of rail, pads, sleepers and soils with masses and dampings that are not negative (sleepers, pads and soil may have no mass); all continuous loads and initial states; all complex exponents and shapes; all earlier node flags", "why_tests_cant": "existence and uniqueness of solutions of differential equations of any size, for all values", "anchors": ["rose/model/global_system.py: GlobalSystem.initialise", "rose/model/global_system.py: GlobalSystem.trim_all_global_matrices", "rose/model/model_part.py: TimoshenkoBeamElementModelPart.set_aux_mass_matrix", "rose/pre_process/mesh_utils.py: create_horizontal_track", "run_rose/demo.py: create_model"]}
{"id": "C173", "title": "Time steps of a track calculation are stable and its results approach the motion of the track", "statement": "With a solver that takes Newmark steps, every step of a track calculation of any size has exactly one result. For the average acceleration method, and for all parameters with 1/2 <= gamma <= 2 beta, the results under a constant load stay bounded for every step size. For the average acceleration the energy changes in each step by the work of the mean load minus a damping loss that is never negative, so without load it never grows; as the step size goes to zero the displacements, velocities and accelerations approach the motion of the track at all times up to any end, and under smooth loads the difference is at most a constant times the square of the step. A whole calculation with the loads given at the times 0, dt, 2 dt, ... ends without error, and the displacements, velocities and accelerations reported at all nodes approach the one motion that balances inertia, damping, stiffness and loads in every admissible virtual displacement.", "quantifier": "all generated tracks with at least two sleepers, all tracks combined from segments with different soils, also with a semi-rigid hinge or a pin in the rail; all admissible values with masses and dampings that are not negative; all loads on nodes continuous in time; all initial states that respect the supports; all step sizes and numbers of steps; all solvers that take the steps of the method", "why_tests_cant": "stability and convergence concern all step sizes and unboundedly many steps, for systems of any size", "anchors": ["rose/model/global_system.py: GlobalSystem.initialise", "rose/model/global_system.py: GlobalSystem.update_time_step_rhs", "rose/model/global_system.py: GlobalSystem.calculate_stage", "rose/model/global_system.py: GlobalSystem.main", "rose/model/global_system.py: GlobalSystem.assign_results_to_nodes", "rose/pre_process/mesh_utils.py: create_horizontal_track", "run_rose/demo.py: create_model"]}
{"id": "C174", "title": "The time steps of a train on a track have exactly one result, contact forces included", "statement": "In a calculation of a train on a track the contact forces depend on the displacements at the end of the step, so every time step is a set of nonlinear equations that the solver iterates on. With the equations the program hands over, every step of the Newmark method of any size has exactly one solution, whatever the start of the step: there is a converged solution for all steps, and the calculation with every solver whose iterations converge ends without error and reports the same displacements, velocities and accelerations at all nodes of track and train.", "quantifier": "all generated tracks with at least two sleepers and all tracks combined from segments with different soils, also with a semi-rigid hinge in front of which the train stays; all trains that run on the rail with masses, springs and dampers that are not negative, among them all default trains except the SLT; all irregularities; all contact laws with positive coefficient and a positive power that is no integer; Newmark parameters beta, gamma >= 0; all time lists that do not run backwards; all numbers of output times and initial states; all solvers", "why_tests_cant": "uniqueness of the solution of nonlinear equations of any size for all step sizes and all solvers", "anchors": ["rose/model/train_track_interaction.py: CoupledTrainTrack.update_force_vector", "rose/model/train_track_interaction.py: CoupledTrainTrack.update_force_vector_contact", "rose/model/train_track_interaction.py: CoupledTrainTrack.calculate_wheel_rail_contact_force", "rose/model/train_track_interaction.py: CoupledTrainTrack.main", "rose/model/global_system.py: GlobalSystem.initialise", "rose/pre_process/default_trains.py: set_train"]}
{"id": "C175", "title": "Static results superpose, are reciprocal and have the least energy", "statement": "For a track on its boundaries (generated, combined from segments, with a hinge or pin in the rail), the static calculation ends for all loads on nodes of the mesh, and the displacements it reports are linear in the loads: equal loads have equal displacements at whatever time index and in whatever calculation, the displacements under two sets of loads are the sum, multiplied loads have multiplied displacements. The work of a first set of loads on the displacements of a second equals the work of the second on the displacements of the first (Betti, Maxwell). The loads do positive work on their own displacements if anything moves, and among all displacement fields that respect the supports the reported one alone has the least potential energy.", "quantifier": "all sizes, segments, soils and material values of the track, all lists of load conditions and their values over time, all time indices, all solvers that satisfy the equilibrium equations, all admissible displacement fields", "why_tests_cant": "Superposition, reciprocity and minimality relate unboundedly many calculations with arbitrary loads and arbitrary competing fields; a test compares a few.", "anchors": ["rose/model/global_system.py: GlobalSystem.initialise, update_time_step_rhs, calculate_stage, assign_results_to_nodes", "rose/model/model_part.py: TimoshenkoBeamElementModelPart.set_aux_stiffness_matrix, RodElementModelPart.set_aux_stiffness_matrix", "rose/model/utils.py", "rose/pre_process/mesh_utils.py: create_horizontal_track, combine_horizontal_tracks"]}
{"id": "C176", "title": "A track of stiffer parts never gives way more", "statement": "Take two tracks of the same geometry. If the rail of the second is at least as stiff (modulus, area and inertia not smaller, Poisson's ratio not greater, not more shear), and so are its rail pads and the soil below every segment, then under every set of loads the work of the loads on the static displacements of the second track is at least 0 and at most the work on those of the first. In particular a force on one dof of one node never moves this dof further in the second track. The parts of the first track have to be heavy and stiff enough not to be trimmed.", "quantifier": "all sizes, segments and pairs of material values, all loads over time, all nodes and directions of the force, all time indices, all solvers that satisfy the equilibrium equations", "why_tests_cant": "A monotonicity over two continuous families of structures and all loads; tests compare single pairs.", "anchors": ["rose/model/global_system.py: GlobalSystem.initialise, trim_global_matrices, calculate_stage", "rose/model/model_part.py: TimoshenkoBeamElementModelPart.calculate_timoshenko_factor, set_aux_stiffness_matrix; RodElementModelPart", "rose/pre_process/mesh_utils.py: create_horizontal_track, combine_horizontal_tracks"]}
{"id": "C177", "title": "The public helpers for rotated forces and for loads over time return what they promise", "statement": "rotate_force_vector returns the force in the axes of a two-noded element, and the force unchanged for other elements; set_load_vector_as_function_of_time of the mesh utilities returns the load at every time, zero off the track, together with the positions of the load. (The first fails for every two-noded element, because it passes nodes where coordinates are needed; the second fails for every time array that has not exactly two entries, because it unpacks one array into two results.)", "quantifier": "all elements, directions and forces; all time arrays, loads, build-up lengths, load positions and limits", "why_tests_cant": "The failures hold for all elements and all time arrays; the repository tests rotate_point_around_z_axis under the name of the first and does not call the second.", "anchors": ["rose/model/utils.py: rotate_force_vector, calculate_rotation, filter_data_outside_range", "rose/pre_process/mesh_utils.py: set_load_vector_as_function_of_time", "rose/model/geometry.py: Node"]}
{"id": "C178", "title": "A stiffer hinge never lets the track give way more", "statement": "Take a track combined from segments whose rail does not shear, with a hinge at an inner rail node. Under every set of loads the work of the loads on the static results does not grow when the fixity factor of the hinge grows, or when the hinge is left out, and a force never moves its own point further. This needs a hinge that is stiff enough for its node to keep its unknowns: with a free pin a moment on the hinge node is left out of the equations, so that the node does not turn although the rail without hinge does.", "quantifier": "all segments, rail, pad and soil values, hinge positions at least two nodes from the ends, fixity factors 0 < f <= f' <= 1, loads and output indices", "why_tests_cant": "a test compares two tracks under one load; the order has to hold for every load at every node and for every pair of fixity factors", "anchors": ["rose/model/model_part.py:TimoshenkoBeamElementModelPart.set_aux_stiffness_matrix", "rose/model/model_part.py:__set_rigid_part_stiffness_matrix", "rose/model/track.py:Hinge", "rose/pre_process/mesh_utils.py:add_semi_rigid_hinge_at_x", "rose/model/global_system.py: GlobalSystem.main, calculate_stage"]}
{"id": "C179", "title": "Dynamic results are causal, superpose and balance their energy", "statement": "A dynamic calculation of a track with average acceleration steps starts from the displacements and velocities it is given. What it reports at an output index depends only on the loads up to this index, not on later loads nor on the number of output indices. The results under two sets of loads and starts together are the sums of the two results, and a multiple of loads and start gives the same multiple of displacements, velocities and accelerations. In every time step kinetic and elastic energy change by exactly the work of the mean load on the displacement of the step, less a loss in the dampers that is never negative.", "quantifier": "every track from the mesh generator with at least two sleepers, every track combined from segments, every hinge and every pin that is held, all physical values, all loads in time on nodes of the mesh, all starts, all time steps and all numbers of steps", "why_tests_cant": "A test compares a few runs of one track under one load; that a later load never changes an earlier result, that results add up and that no energy appears must hold for all meshes, loads, starts and step sizes, and rests on properties of the assembled matrices.", "anchors": ["rose/model/global_system.py: GlobalSystem.main, initialise, calculate_stage, update_time_step_rhs, assign_results_to_nodes", "rose/model/model_part.py: assembled matrices of the parts", "rose/pre_process/mesh_utils.py: create_horizontal_track, combine_horizontal_tracks"]}
{"id": "C180", "title": "What a train does later never changes earlier results", "statement": "Two calculations of the same train on the same track whose times, speeds and irregularities are the same up to an output index, and differ afterwards in any way, also in the number of output times, both end without error and report the same displacements, velocities and accelerations on all nodes of track and train at all output indices up to this one, with every two solvers whose iterations converge.", "quantifier": "all generated tracks with at least two sleepers and all tracks combined from segments with different soils, also with a semi-rigid hinge in front of which the trains stay; all pairs of runs of a train on the rail that share a beginning of any length; all contact laws with positive coefficient and a positive power that is no integer; Newmark parameters beta, gamma >= 0; all numbers of output times, initial states and solvers", "why_tests_cant": "A test compares two runs; that nothing prepared for the whole run (positions, elements, shape functions, irregularities, contact forces) leaks into earlier steps must hold for all pairs of runs, meshes and step sizes, and rests on the uniqueness of the nonlinear steps.", "anchors": ["rose/model/train_track_interaction.py: CoupledTrainTrack.main, calculate_distance_wheels_track_nodes, update_force_vector, update_force_vector_contact", "rose/model/train_model.py: TrainModel", "rose/model/global_system.py: GlobalSystem.calculate_stage, assign_results_to_nodes"]}
{"id": "C181", "title": "A coupled model can be calculated again", "statement": "Calling main again on the same coupled train-track model gives the results of the first call: what the objects of track and train keep between two calls does not change a later calculation.", "quantifier": "for every valid ride of a train on a generated or combined track, every number of earlier calls, every generated irregularity and every solver that solves the equations", "why_tests_cant": "The state left behind depends on the train, the track and the number of earlier calls; a test calls main once on a new model and sees none of it.", "anchors": ["rose/model/train_track_interaction.py:CoupledTrainTrack.clean_model", "rose/model/train_track_interaction.py:CoupledTrainTrack.initialise", "rose/model/train_track_interaction.py:CoupledTrainTrack.initialize_wheel_loads", "rose/model/train_model.py:Bogie.calculate_total_static_load", "rose/model/train_model.py:Bogie.distribute_static_load", "rose/model/train_model.py:TrainModel.calculate_total_static_load"]}
{"id": "C182", "title": "Results do not depend on the order of nodes and model parts", "statement": "If the nodes of the mesh are listed in another order, or the model parts, the loads and the supports are listed in another order, every node has the same static displacements and the same displacements, velocities and accelerations in time: the equations are the same with the unknowns in another order.", "quantifier": "all structures and loads, all permutations of the mesh nodes, all orders of elements, model parts, loads and supports, all step sizes and numbers of steps, all initial displacements and velocities", "why_tests_cant": "A test compares one order with one other; the number of orders grows with the factorial of the number of nodes.", "anchors": ["rose/model/global_system.py:GlobalSystem.initialise", "rose/model/global_system.py:GlobalSystem.trim_all_global_matrices", "rose/model/global_system.py:GlobalSystem.assign_results_to_nodes", "rose/model/global_system.py:GlobalSystem.add_model_parts_to_global_matrices"]}
{"id": "C183", "title": "Under constant loads a damped track settles to its static results, and a sudden load at most doubles them", "statement": "Two calculations of the same track agree in the long run. When the loads stay constant from some time index on, and Rayleigh damping with a positive damping ratio is used, the displacements of a dynamic calculation come as close as wanted to those of a static calculation with the same loads, the velocities and accelerations come as close as wanted to zero, and they stay there, whatever the start and however large the time step. With or without damping, a load that is put suddenly on the track at rest and stays constant never does negative work and never more than twice the work it does in the static calculation. So a single force never moves its own dof to the other side, nor further than twice the static displacement.", "quantifier": "all generated tracks with two or more sleepers, all tracks combined of segments, with and without a hinge or a free pin in the rail; all admissible values of rail, pads, sleepers and soil; all loads, starts, tolerances and step sizes; all time indices; every solver that takes average acceleration steps", "why_tests_cant": "A limit over infinitely many time steps, for every tolerance and every step size, cannot be run. A test can only compare one calculation after a chosen number of steps.", "anchors": ["rose/model/global_system.py:GlobalSystem.main", "rose/model/global_system.py:GlobalSystem.calculate_rayleigh_damping", "rose/model/global_system.py:GlobalSystem.add_model_parts_to_global_matrices", "rose/pre_process/mesh_utils.py:combine_horizontal_tracks"]}
{"id": "C184", "title": "A train that stands still on the track has one position of rest and stays in it", "statement": "For a train without speed, over irregularities that do not change, there is one position of train and track that is an equilibrium under the weight of the train: the supports are respected, the stiffness forces of the track balance the static wheel loads at the places of the wheels, the springs of the train carry the weights of its bodies, and every wheel follows the deflection of the rail under it, less the irregularity there. A calculation that starts from this position without velocities stays in it: at every output index all nodes of track and train have these displacements, and velocities and accelerations zero. Whenever a calculation, with whatever start, reports velocities and accelerations of zero everywhere, its displacements are those of this position. (The initial state that the code itself puts together is not this position, see C113.)", "quantifier": "all generated tracks with two or more sleepers, all tracks combined of segments, with and without a hinge; all admissible values of track and soil; all trains with springs under every body and a load on every wheel, standing anywhere on the rail (before the hinge); all irregularities under the wheels; all step sizes and numbers of steps; every solver of the Newmark family for staying, every solver of the equations for uniqueness", "why_tests_cant": "Uniqueness is a statement about all calculations and solvers, with a nonlinear contact law. A test can run one train on one track and see that it moves little.", "anchors": ["rose/model/train_track_interaction.py:CoupledTrainTrack.main", "rose/model/train_track_interaction.py:CoupledTrainTrack.update_force_vector", "rose/model/train_track_interaction.py:CoupledTrainTrack.calculate_wheel_rail_contact_force", "rose/model/train_model.py:TrainModel.calculate_total_static_load"]}
{"id": "C185", "title": "A track seen from its other end", "statement": "With one rail element per sleeper, a generated track under the mirror images of loads and start (mirrored nodes, horizontal forces and moments with the other sign) reports the mirror images of the results, static and in time steps: the same vertical values, horizontal values and rotations with the other sign, at the mirrored nodes. Segments (and their soils) combined in reverse order make the mirror image of the combined track in the same sense. With more than one rail element per sleeper no generated track is its own mirror image, because the rail overhangs at one end only.", "quantifier": "all numbers of sleepers, distances, depths, segments, soil values, rail, pad and sleeper values, with and without shear deformation, masses and dampings that are not negative, Rayleigh values, loads in time, starts, step sizes and numbers of steps", "why_tests_cant": "a test compares one track with one load; a wrong sign in one entry of one element matrix, or one wrong node at a joint, breaks the symmetry only for some loads, and symmetry for all loads and tracks is a statement about the whole assembly", "anchors": ["rose/pre_process/mesh_utils.py:create_horizontal_track", "rose/pre_process/mesh_utils.py:combine_horizontal_tracks", "rose/model/model_part.py:TimoshenkoBeamElementModelPart", "rose/model/global_system.py:GlobalSystem"]}
{"id": "C186", "title": "The reported matrix of the moving load at a change of stiffness belongs to its positions and times", "statement": "MovingLoad.solve reports one row for each position and one column for each time at which the load is at a position. If the positions are given in increasing order and the last one lies behind the change of stiffness, a column of a negative time holds the displacements of the beam under the approaching load at that time, and a column of another time holds the finite cosine inversion, with the requested number of terms over a window of twice the last time, of the transforms of the displacements, the one of the near side for positions up to the change and the one of the far side behind it. If a position before the change is listed behind one that is not, some column of a negative time holds only zeros, whatever the load.", "quantifier": "all positive data, subcritical speeds, loads, numbers of terms, damping parameters and lists of positions", "why_tests_cant": "the columns are written by two loops with different numbering, and a test checks one evenly spaced list of positions against stored numbers; that each column belongs to its time and that the sum recovers the transform are statements about all positions, times and numbers of terms", "anchors": ["analytical_solutions/winkler.py: MovingLoad.solve, time_low, time_high, parameters"]}
{"id": "C187", "title": "Without damping a track vibrates for ever about its static displacements", "statement": "While the loads on a track stay constant, the energy of the vibration about the static displacements (kinetic energy plus elastic energy of the difference between the reported and the static displacements) never grows from one output index to a later one, for steps of any size. If neither Rayleigh damping nor dampers in pads and soil are given, this energy stays the same at all indices, and unless the track is at rest in its static displacements when the loads become constant, there is a distance that the reported displacements and velocities never come closer to the static state than, however long the calculation runs. With or without a hinge in the rail.", "quantifier": "all generated and combined tracks, hinges, property values, loads that become constant, start displacements and velocities, step sizes and numbers of steps", "why_tests_cant": "a test sees a finite part of one calculation; that the energy neither leaks nor grows by numerical integration concerns all steps, step sizes and tracks", "anchors": ["rose/model/global_system.py:GlobalSystem.main", "rose/model/global_system.py:GlobalSystem.calculate_rayleigh_damping", "rose/model/global_system.py:GlobalSystem.add_model_parts_to_global_matrices", "rose/pre_process/mesh_utils.py:combine_horizontal_tracks"]}
{"id": "C188", "title": "A force at one place moves another place as the same force there would move the first", "statement": "On any track built with the package (one segment, several segments, with or without a hinge or a free pin in the rail), calculated in Newmark steps of any positive size from rest: give a force any course in time. If it acts on one dof of one node, the displacement, velocity and acceleration that the result holds at a second dof are, at every output time, those that the result holds at the first dof when the same force acts on the second.", "quantifier": "every track with valid values, every time step, every pair of nodes and dofs, every course of the force, every number of steps and every output time", "why_tests_cant": "A test compares a few pairs of nodes for one force and one track. The claim is about every pair, every course of the force and every step, and rests on the symmetry of all assembled matrices together with the way the solver steps.", "anchors": ["rose/model/global_system.py:GlobalSystem.main", "rose/model/global_system.py:GlobalSystem.calculate_stage", "rose/model/model_part.py:TimoshenkoBeamElementModelPart", "rose/model/boundary_conditions.py:LoadCondition"]}
{"id": "C189", "title": "A train can be calculated on its own", "statement": "The calculation of a train without a track returns, and its results are those of its equations: a train that nothing carries falls freely, with all bodies at the acceleration of gravity and without rotation.", "quantifier": "every train, start position, gravity, time array and solver; for the fall every number of steps of the average acceleration method and every step size", "why_tests_cant": "quantifies over all trains, solvers and time arrays; no test calls it on a train alone", "anchors": ["rose/model/train_model.py:TrainModel.main", "rose/model/train_model.py:TrainModel.update", "rose/model/train_model.py:TrainModel.set_global_mass_matrix", "rose/model/global_system.py:GlobalSystem.calculate_stage", "rose/model/utils.py:delete_from_lil"]}
{"id": "C190", "title": "Results do not depend on the units of force and time", "statement": "Write all values of a track in units in which a force has alpha times and a time has tau times its former number: Young's modulus and stiffnesses times alpha, dampings times alpha tau, masses and densities times alpha tau^2, the frequencies of the Rayleigh damping divided by tau, loads times alpha, the time step times tau and the initial velocity divided by tau. The static and the dynamic calculation then report the same displacements, the velocities divided by tau and the accelerations divided by tau^2. This holds for generated tracks and for tracks of several segments if rail, sleepers and pads are above 1e-8 (the absolute threshold below which the program removes a dof) in both systems of units. It does not hold in general: for every such track there are units of force in which the program reports that nothing moves, whatever the loads are.", "quantifier": "all numbers of sleepers and elements, all valid values, all loads, all start values, all time steps and numbers of steps, all factors alpha, tau > 0", "why_tests_cant": "A test compares two systems of units for one track; the claim needs every track, every load history and every pair of units, and the violation needs that a bad unit exists for every track.", "anchors": ["rose/model/global_system.py:trim_all_global_matrices", "rose/model/global_system.py:calculate_rayleigh_damping", "rose/model/model_part.py:TimoshenkoBeamElementModelPart", "rose/model/track.py"]}
{"id": "C191", "title": "The start of a calculation is forgotten, bounded loads give bounded results and repeating loads give repeating results", "statement": "Take two dynamic calculations of the same track with the same loads and time step and different initial displacements and velocities. With or without damping, the energy of the difference of their results never grows. With Rayleigh damping of a positive ratio there are a factor c and a ratio q below 1, which depend only on the track and the time step, such that: after t steps the displacements, velocities and accelerations of the two calculations differ by at most c q^t times the difference of the starts, whatever the loads are; no result ever exceeds c times the largest force on a dof plus c q^t times the start, so there is no resonance without bound however long the calculation is; and if the loads repeat every P steps, the results at t + P and t differ by at most c q^t times the sum of start and largest load, so in the end they repeat as well.", "quantifier": "all generated tracks with at least two sleepers, all tracks of good segments, with or without a hinge or pin in the rail, all valid values, all load histories, all starts, all time steps, all numbers of steps", "why_tests_cant": "A test compares finitely many runs of finite length. The claim is about all lengths, all load histories and all starts with one bound for all of them.", "anchors": ["rose/model/global_system.py:GlobalSystem.calculate_stage", "rose/model/global_system.py:GlobalSystem.calculate_rayleigh_damping", "rose/model/global_system.py:GlobalSystem.main", "rose/pre_process/mesh_utils.py:combine_horizontal_tracks"]}
{"id": "C192", "title": "Without damping a force of limited size can shake a track without bound", "statement": "If a track has no damping at all (no Rayleigh damping and no dampers in rail pads and soil), then at every dof that takes part in the calculation, for every size of a force and for every bound, there is a history of a force on that dof that never exceeds this size and drives some displacement or velocity over the bound, from rest, in average acceleration steps of any size. So the bound of C191 needs damping, and the results of a calculation without damping are not limited by the size of the loads.", "quantifier": "all generated tracks with at least two sleepers, all tracks of good segments, with or without a hinge or pin in the rail, all valid values without damping, all dofs that are not removed, all sizes of the force, all bounds, all time steps", "why_tests_cant": "A test shows one force history on one track. The claim is that such a history exists for every track, every dof, every size and every bound.", "anchors": ["rose/model/global_system.py:GlobalSystem.main", "rose/model/global_system.py:GlobalSystem.calculate_stage", "rose/model/boundary_conditions.py:LoadCondition"]}
{"id": "C193", "title": "Delaying all loads delays the results if and only if there is no load at the first index", "statement": "A track at rest is calculated with some loads, and again with the same loads P steps later and nothing before. The second results at index t + P are the first results at index t, in displacements, velocities and accelerations, for all t, exactly if the loads do no work at their first index. If the first calculation starts under a load, its first acceleration is that of a load that is applied suddenly at index 0, and a run-in of steps without load changes the results from then on.", "quantifier": "all generated tracks with at least two sleepers, all tracks of good segments, with or without a hinge or pin in the rail, all valid values, all loads, all delays, all time steps of the average acceleration scheme", "why_tests_cant": "A test compares two runs on one track. The claim covers all tracks, loads and delays, and says exactly when the two runs differ.", "anchors": ["rose/model/global_system.py:GlobalSystem.main", "rose/model/global_system.py:GlobalSystem.calculate_stage", "rose/model/boundary_conditions.py:LoadCondition"]}
{"id": "C194", "title": "A calculation can be run backwards exactly if nothing damps", "statement": "A calculation that starts with the displacements at index T of another calculation and with the reversed velocities, under the same loads in reverse order, reports at index t the displacements and accelerations of the other calculation at index T - t and its velocities reversed, for all t up to T: this holds for all such calculations of a track exactly if no motion that its supports allow loses power in dampers or Rayleigh damping. So without damping the initial state can be recovered from any later one, and with Rayleigh damping of a positive ratio it cannot be recovered this way.", "quantifier": "all generated tracks with at least two sleepers, all tracks of good segments, with or without a hinge or pin in the rail, all valid values, all initial displacements and velocities, all loads, all numbers of steps, all time steps of the average acceleration scheme", "why_tests_cant": "A test reverses one calculation on one track. The claim covers all tracks, loads, initial states and numbers of steps.", "anchors": ["rose/model/global_system.py:GlobalSystem.main", "rose/model/global_system.py:GlobalSystem.calculate_stage"]}
{"id": "C195", "title": "The reported results approach the motion of the track as the time step decreases, with its square for smooth forces", "statement": "Under forces at the nodes that are continuous in time, a track has exactly one motion in continuous time from every start that its supports allow. A calculation from this start whose loads at index k are the forces at time k dt reports, over every period and within every tolerance, the displacements, velocities and accelerations of this motion at the times k dt, if the time step is small enough. If the forces are twice continuously differentiable, all reported values differ from the motion by at most a constant times the square of the time step.", "quantifier": "all generated tracks with at least two sleepers, all tracks of good segments, with or without a hinge or pin in the rail, all valid values, all continuous (or smooth) forces, all starts, all periods and tolerances, all small enough (or all) time steps, all numbers of steps", "why_tests_cant": "A test compares one calculation with one known solution at one time step. The claim is about the limit of the time step, for all forces and tracks, for most of which no solution is known.", "anchors": ["rose/model/global_system.py:GlobalSystem.main", "rose/model/global_system.py:GlobalSystem.calculate_stage", "rose/model/boundary_conditions.py:LoadCondition"]}
{"id": "C196", "title": "A calculation can be continued from any of its results", "statement": "Start a dynamic calculation of a track with the displacements and velocities that another calculation of the same track reports at some index, and apply the loads that the other one has from that index on. Then it reports the same displacements, velocities and accelerations as the other one from that index on. So nothing but displacements, velocities and the remaining loads carries over from one step to the next.", "quantifier": "all generated tracks with at least two sleepers and all tracks combined from segments, also with a hinge or a pin in the rail; all valid material values, step sizes, loads, starts, lengths and indices of continuation", "why_tests_cant": "A test continues one calculation at one index; the claim is about every load, start and index, and would break for a scheme with hidden state, such as an old acceleration or force that is not derived from the start.", "anchors": ["rose/model/global_system.py:GlobalSystem.calculate_stage", "rose/model/global_system.py:GlobalSystem.main"]}
{"id": "C197", "title": "The results for any force follow from the responses to two pulses", "statement": "Let a force of any course act at any dof of a track, whatever displacements and velocities it starts with. The displacements, velocities and accelerations at each index are those without the force, plus the first value of the force times the response from rest to a pulse at index 0, plus for each later value of the force that value times the response from rest to a pulse at index 1, as many indices later as the value is after index 1.", "quantifier": "all generated tracks with at least two sleepers and all tracks combined from segments, also with a hinge or a pin in the rail; all valid material values, step sizes, nodes, dofs, courses of the force, starts and numbers of steps", "why_tests_cant": "A test compares one course of the force with one sum; the claim is about every course and length, and is what a user relies on who uses a recorded impulse response of the track.", "anchors": ["rose/model/global_system.py:GlobalSystem.calculate_stage", "rose/model/global_system.py:GlobalSystem.main", "rose/model/boundary_conditions.py:LoadCondition"]}
{"id": "C198", "title": "Stiffness files are read completely, in order and under their own names", "statement": "Given a list of paths, the reader of the dynamic stiffness results returns exactly one record for each path that is a json file, in the order of the list, and opens no other file. The record carries the name of the file without directory and extension, and the first frequency, the first stiffness and the first damping listed in the file. It fails exactly if some json file cannot be loaded or lists no value for one of the three. Names of different files of one directory differ; files of different directories can share a name.", "quantifier": "all lists of paths, of any length, and all contents of the files", "why_tests_cant": "A test reads one directory; names with several dots, leading dots, no extension or files without values are unlimited in number.", "anchors": ["run_rose/read_wolf.py:read_wolf"]}
{"id": "C199", "title": "The spectrum uses all samples and has frequencies in every band", "statement": "The spectrum of a signal is taken over the least power of two that is not below the number of samples and not below 256, so that no sample is cut off. Every one-third octave band contains at least one frequency of the spectrum, so that its effective value depends on the signal.", "quantifier": "every number of samples and sampling distance", "why_tests_cant": "A test analyses one signal; whether a band contains a frequency depends on number and distance of the samples.", "anchors": ["rose/utils/Hmax.py:HrsmMax.power_spectral_density", "rose/utils/Hmax.py:HrsmMax.rms_effective"]}
