{
 "claims": [
  {
   "property": "C01",
   "status": "partial",
   "theorems": [
    "Rose.C01_earlier_kept",
    "Rose.C01_represented",
    "Rose.C01_no_duplicates_partial",
    "Rose.C01_no_coinciding_partial",
    "Rose.C01_unique_position_partial",
    "Rose.C01_violated",
    "Rose.C01_rounded_hash",
    "Rose.C01_merged_iff",
    "Rose.C01_rounded"
   ],
   "note": "Order, representation and position are proved in full; uniqueness only among nodes with equal hash (rounded coordinates): two nodes 2e-10 m apart across a rounding boundary both stay (C01_violated)."
  },
  {
   "property": "C02",
   "status": "proved",
   "theorems": [
    "Rose.C02_union",
    "Rose.C02_numbers",
    "Rose.C02_union_at_position"
   ],
   "note": "In full for the representation relation; C02_union_at_position assumes positions that are equal or farther apart than the tolerance."
  },
  {
   "property": "C03",
   "status": "partial",
   "theorems": [
    "Rose.C03_iff",
    "Rose.C03_earlier_kept",
    "Rose.C03_represented",
    "Rose.C03_no_duplicates_partial",
    "Rose.C03_violated"
   ],
   "note": "Reversed duplicates are kept (C03_violated); uniqueness proved if elements on the same nodes list them in the same order. C03_iff: for nodes told apart by their hashes no duplicates exactly if added elements on the same nodes list them in the same order."
  },
  {
   "property": "C04",
   "status": "proved",
   "theorems": [
    "Rose.C04_nodes",
    "Rose.C04_elements",
    "Rose.C04_reachable"
   ],
   "note": "Assumes that no object occurs twice in the mesh list; C04_reachable shows every mesh built by adding nodes meets it."
  },
  {
   "property": "C05",
   "status": "proved",
   "theorems": [
    "Rose.C05_closed_form",
    "Rose.C05_bijection",
    "Rose.C05_flags"
   ],
   "note": ""
  },
  {
   "property": "C06",
   "status": "proved",
   "theorems": [
    "Rose.C06_succeeds",
    "Rose.C06_sum",
    "Rose.C06_all_parts",
    "Rose.C06_all_succeed",
    "Rose.C06_order",
    "Rose.C06_unnumbered_rejected"
   ],
   "note": ""
  },
  {
   "property": "C07",
   "status": "proved",
   "theorems": [
    "Rose.C07_energy",
    "Rose.C07_symmetric",
    "Rose.C07_psd"
   ],
   "note": ""
  },
  {
   "property": "C08",
   "status": "proved",
   "theorems": [
    "Rose.C08_embedding",
    "Rose.C08_every_coefficient",
    "Rose.C08_all_active"
   ],
   "note": ""
  },
  {
   "property": "C09",
   "status": "proved",
   "theorems": [
    "Rose.C09_numbering_ordered",
    "Rose.C09_entries_surplus",
    "Rose.C09_entries",
    "Rose.C09_bijection",
    "Rose.C09_removed",
    "Rose.C09_nothing_lost"
   ],
   "note": ""
  },
  {
   "property": "C10",
   "status": "partial",
   "theorems": [
    "Rose.C10_iff",
    "Rose.C10_last_wins",
    "Rose.C10_untouched",
    "Rose.C10_accumulate_partial",
    "Rose.C10_violated"
   ],
   "note": "The code overwrites: the last constraint part wins (C10_last_wins); a later part can release an earlier support (C10_violated). C10_iff: exactly when supports accumulate at a dof."
  },
  {
   "property": "C11",
   "status": "proved",
   "theorems": [
    "Rose.C11_results",
    "Rose.C11_force_uninitialised"
   ],
   "note": ""
  },
  {
   "property": "C12",
   "status": "proved",
   "theorems": [
    "Rose.C12_control_frequencies",
    "Rose.C12_other_frequencies",
    "Rose.C12_off"
   ],
   "note": ""
  },
  {
   "property": "C13",
   "status": "partial",
   "theorems": [
    "Rose.C13_contiguous",
    "Rose.C13_uniform_iff",
    "Rose.C13_uniform_partial",
    "Rose.C13_violated"
   ],
   "note": "Contiguity in full; one step size per stage exactly if no step size recurs (C13_uniform_iff), violated otherwise."
  },
  {
   "property": "C14",
   "status": "proved",
   "theorems": [
    "Rose.C14_ramp",
    "Rose.C14_bounded",
    "Rose.C14_too_long"
   ],
   "note": ""
  },
  {
   "property": "C15",
   "status": "partial",
   "theorems": [
    "Rose.C15_exact",
    "Rose.C15_iff",
    "Rose.C15_superposition_partial",
    "Rose.C15_removed_dropped",
    "Rose.C15_violated"
   ],
   "note": "Superposition for conditions without repeated nodal dofs; violated for a condition that contains a node twice (numpy fancy += keeps the last). C15_exact: what is applied for all conditions (the last listed force per condition); C15_iff: exactly when superposition holds."
  },
  {
   "property": "C16",
   "status": "partial",
   "theorems": [
    "Rose.C16_element_iff",
    "Rose.C16_iff",
    "Rose.C16_reported",
    "Rose.C16_horizontal_partial",
    "Rose.C16_sign_violated",
    "Rose.C16_orientation_violated"
   ],
   "note": "Reported force equals stiffness times displacement rotated with the angle of the LAST element of the part; correct for horizontal parts, violated in sign and for parts with several orientations. C16_element_iff: an element is reported in its own direction exactly if it is the mirrored direction of the last one; C16_iff: all elements of a part of rods or beams exactly if all lie along the x axis pointing the same way."
  },
  {
   "property": "C17",
   "status": "proved",
   "theorems": [
    "Rose.C17_rod_stiffness_translation",
    "Rose.C17_rod_damping_translation",
    "Rose.C17_beam_translation",
    "Rose.C17_point"
   ],
   "note": ""
  },
  {
   "property": "C18",
   "status": "partial",
   "theorems": [
    "Rose.C18_rigid_rotation_iff",
    "Rose.C18_rigid_rotation_partial",
    "Rose.C18_violated"
   ],
   "note": "Exact characterisation (C18_rigid_rotation_iff): every infinitesimal rigid rotation is force free exactly if the element is shear-rigid or its end fixities are both one or both zero. C18_rigid_rotation_partial: shear-rigid elements with any springs, shear-flexible ones with rigid ends. C18_violated: a shear-flexible element with one spring. Inclined elements: see C24."
  },
  {
   "property": "C19",
   "status": "proved",
   "theorems": [
    "Rose.C19_beam_symmetric",
    "Rose.C19_rod_symmetric",
    "Rose.C19_rod_energy",
    "Rose.C19_beam_psd",
    "Rose.C19_beam_kernel"
   ],
   "note": ""
  },
  {
   "property": "C20",
   "status": "proved",
   "theorems": [
    "Rose.C20_rod_mass",
    "Rose.C20_rod_mass_pos",
    "Rose.C20_beam_translation",
    "Rose.C20_beam_rotation",
    "Rose.C20_beam_mass_symmetric",
    "Rose.C20_consistent_mass",
    "Rose.C20_point_mass",
    "Rose.C20_beam_mass_pos"
   ],
   "note": ""
  },
  {
   "property": "C21",
   "status": "proved",
   "theorems": [
    "Rose.C21_nodal_values",
    "Rose.C21_rigid_motion",
    "Rose.C21_axial",
    "Rose.C21_euler"
   ],
   "note": ""
  },
  {
   "property": "C22",
   "status": "proved",
   "theorems": [
    "Rose.C22_slope"
   ],
   "note": ""
  },
  {
   "property": "C23",
   "status": "partial",
   "theorems": [
    "Rose.C23_pure_bending_iff",
    "Rose.C23_pure_bending_partial",
    "Rose.C23_violated"
   ],
   "note": "Holds exactly for shear-rigid beams or length one; violated otherwise (the shear terms of the rotation shape functions lack the factor l)."
  },
  {
   "property": "C24",
   "status": "partial",
   "theorems": [
    "Rose.C24_horizontal_partial",
    "Rose.C24_rod_iff",
    "Rose.C24_beam_iff",
    "Rose.C24_violated"
   ],
   "note": "Exact characterisations: the congruence is a change of coordinates for rods exactly if the element lies along a global axis (C24_rod_iff), for beams with rigid ends exactly if it lies along the x-axis (C24_beam_iff); violated for a rod at an angle (rotate_aux_matrix turns in the opposite sense)."
  },
  {
   "property": "C25",
   "status": "partial",
   "theorems": [
    "Rose.C25_direction_iff",
    "Rose.C25_point_rotation_iff",
    "Rose.C25_round_trip",
    "Rose.C25_isometry",
    "Rose.C25_direction_partial",
    "Rose.C25_point_rotation_partial",
    "Rose.C25_direction_violated"
   ],
   "note": "Round trip and isometry proved in full; the direction convention only partially (violated for some orientations). C25_direction_iff, C25_point_rotation_iff: exactly which pairs of points get the right angle (nearly vertical ones do not)."
  },
  {
   "property": "C26",
   "status": "proved",
   "theorems": [
    "Rose.C26_fixity_range",
    "Rose.C26_fixity_strictMono",
    "Rose.C26_rigid_ends",
    "Rose.C26_free_ends"
   ],
   "note": ""
  },
  {
   "property": "C27",
   "status": "partial",
   "theorems": [
    "Rose.C27_end_forces_partial",
    "Rose.C27_normal_force",
    "Rose.C27_linear_violated",
    "Rose.C27_moment_error",
    "Rose.C27_shear_flexible_violated",
    "Rose.C27_iff"
   ],
   "note": "End values are exact for shear-rigid beams; interior values and shear-flexible beams violate the property. C27_iff: exactly where the interior moment is right."
  },
  {
   "property": "C28",
   "status": "proved",
   "theorems": [
    "Rose.C28_integral",
    "Rose.C28_monotone"
   ],
   "note": ""
  },
  {
   "property": "C29",
   "status": "proved",
   "theorems": [
    "Rose.C29_off_track"
   ],
   "note": ""
  },
  {
   "property": "C30",
   "status": "partial",
   "theorems": [
    "Rose.C30_step_iff",
    "Rose.C30_start_iff",
    "Rose.C30_encloses_partial",
    "Rose.C30_short_steps",
    "Rose.C30_fast_violated",
    "Rose.C30_reverse_violated",
    "Rose.C30_end_violated",
    "Rose.C30_before_start_rejected",
    "Rose.C30_loaded_nodes",
    "Rose.C30_interpolated"
   ],
   "note": "Holds for loads that start on the track before its last node, never reverse and pass at most one node per time step; fast, reversing and end-of-track loads violate it (three witnesses). Nodes loaded and interpolated position are proved too. C30_step_iff, C30_start_iff: for loads of any speed and direction, exactly when the active element is right at the start and at the next time step."
  },
  {
   "property": "C31",
   "status": "partial",
   "theorems": [
    "Rose.C31_owner_iff",
    "Rose.C31_owner_partial",
    "Rose.C31_violated"
   ],
   "note": "Exact characterisation (iff) of the histories for which the contact part owns the active element; witness for a load starting on the third part."
  },
  {
   "property": "C32",
   "status": "proved",
   "theorems": [
    "Rose.C32_local",
    "Rose.C32_global",
    "Rose.C32_scatter"
   ],
   "note": ""
  },
  {
   "property": "C33",
   "status": "partial",
   "theorems": [
    "Rose.C33_iff",
    "Rose.C33_superposition_partial",
    "Rose.C33_combined",
    "Rose.C33_violated"
   ],
   "note": "A transverse force together with a moment is not superposed: the two distributions share their arrays (C33_combined says what comes out). C33_iff: superposition holds exactly if the transverse force or the moment is zero."
  },
  {
   "property": "C34",
   "status": "proved",
   "theorems": [
    "Rose.C34_numbered_once",
    "Rose.C34_first_visit_kept",
    "Rose.C34_consecutive",
    "Rose.C34_size"
   ],
   "note": ""
  },
  {
   "property": "C35",
   "status": "partial",
   "theorems": [
    "Rose.C35_symmetric",
    "Rose.C35_translation_partial",
    "Rose.C35_raise_moment",
    "Rose.C35_violated",
    "Rose.C35_iff"
   ],
   "note": "Symmetry in full. C35_iff: raising a train gives no force if and only if the springs of every body are balanced (sum of factor times distance zero), C35_translation_partial being the 'if'. Fails for the default sprinter (C35_violated); C35_raise_moment is the exact spurious moment."
  },
  {
   "property": "C36",
   "status": "partial",
   "theorems": [
    "Rose.C36_energy_partial",
    "Rose.C36_energy_general",
    "Rose.C36_nonneg_partial",
    "Rose.C36_violated",
    "Rose.C36_iff",
    "Rose.C36_dissipation_partial"
   ],
   "note": "C36_energy_general: exact energy for every train. C36_iff: it equals the spring energy, and is never negative, if and only if the springs are balanced. C36_dissipation_partial: the dampers of a balanced train only take energy out. Negative energy for the default sprinter (C36_violated)."
  },
  {
   "property": "C37",
   "status": "proved",
   "theorems": [
    "Rose.C37_force_vector",
    "Rose.C37_total_weight"
   ],
   "note": ""
  },
  {
   "property": "C38",
   "status": "partial",
   "theorems": [
    "Rose.C38_iff",
    "Rose.C38_loads_after",
    "Rose.C38_violated",
    "Rose.C38_irregularities_partial",
    "Rose.C38_irregularities_violated"
   ],
   "note": "Static loads grow with every initialisation (C38_loads_after gives the closed form); irregularities are stable only if none are generated. C38_iff: the loads stay the same exactly if bogie and carts above the wheel have no mass."
  },
  {
   "property": "C39",
   "status": "proved",
   "theorems": [
    "Rose.C39_offsets",
    "Rose.C39_constant"
   ],
   "note": ""
  },
  {
   "property": "C40",
   "status": "partial",
   "theorems": [
    "Rose.C40_residual",
    "Rose.C40_iff",
    "Rose.C40_zero_partial",
    "Rose.C40_violated"
   ],
   "note": "The force of the prescribed displacement has the wrong sign: exact residual (C40_residual) and iff (C40_iff)."
  },
  {
   "property": "C41",
   "status": "partial",
   "theorems": [
    "Rose.C41_compression",
    "Rose.C41_separated_partial",
    "Rose.C41_odd_violated",
    "Rose.C41_even_violated",
    "Rose.C41_iff"
   ],
   "note": "Non-integer powers: proved. Integer powers: the law pushes (odd) or pulls (even) a separated wheel; negations proved. C41_iff: a separated wheel is force free exactly if the Hertz power is not an integer."
  },
  {
   "property": "C42",
   "status": "proved",
   "theorems": [
    "Rose.C42_static_balance"
   ],
   "note": "For loads pressing the wheel onto the rail."
  },
  {
   "property": "C43",
   "status": "partial",
   "theorems": [
    "Rose.C43_written_partial",
    "Rose.C43_action_reaction_partial",
    "Rose.C43_shape_sum",
    "Rose.C43_violated",
    "Rose.C43_exact"
   ],
   "note": "Holds while no two wheels share a rail dof; two wheels on one element lose a load (negation proved). C43_exact: for all wheels, also with common dofs, a dof gets the share of the last wheel touching it."
  },
  {
   "property": "C44",
   "status": "partial",
   "theorems": [
    "Rose.C44_work_partial",
    "Rose.C44_work_single",
    "Rose.C44_uniform",
    "Rose.C44_tilted",
    "Rose.C44_violated",
    "Rose.C44_iff"
   ],
   "note": "Work identity for one wheel in full and for several wheels without common dofs; rigid motions reported exactly. Two wheels on one element: the work of one wheel is lost (C44_violated). C44_iff: the work identity holds for all displacements exactly if at every dof the shares of the wheels before the last one touching it cancel."
  },
  {
   "property": "C45",
   "status": "proved",
   "theorems": [
    "Rose.C45_direct_sum",
    "Rose.C45_energy",
    "Rose.C45_shift"
   ],
   "note": ""
  },
  {
   "property": "C46",
   "status": "proved",
   "theorems": [
    "Rose.C46_check"
   ],
   "note": ""
  },
  {
   "property": "C47",
   "status": "proved",
   "theorems": [
    "Rose.C47_one_load_per_wheel"
   ],
   "note": ""
  },
  {
   "property": "C48",
   "status": "partial",
   "theorems": [
    "Rose.C48_mesh_iff",
    "Rose.C48_structure",
    "Rose.C48_mesh_partial",
    "Rose.C48_violated",
    "Rose.C48_rejects"
   ],
   "note": "Structure in full; mesh completeness if distances exceed the merging tolerance; negation for soil depth zero. C48_mesh_iff: for any soil depth the mesh holds all nodes exactly if the level of the soil nodes rounds neither to that of the sleepers nor to that of the rail."
  },
  {
   "property": "C49",
   "status": "partial",
   "theorems": [
    "Rose.C49_iff",
    "Rose.C49_chain",
    "Rose.C49_rail_spacing",
    "Rose.C49_sleepers_partial",
    "Rose.C49_violated"
   ],
   "note": "Rail: chain and equal spacing for any number of segments and rail elements per sleeper. Sleepers: one rail element per sleeper; negation for more. C49_iff: sleepers are equally spaced exactly for one rail element per sleeper (two or more segments)."
  },
  {
   "property": "C50",
   "status": "partial",
   "theorems": [
    "Rose.C50_iff",
    "Rose.C50_reject",
    "Rose.C50_split_partial",
    "Rose.C50_first_violated",
    "Rose.C50_last_violated"
   ],
   "note": "Inner nodes; negations for the first and the last node. C50_iff: the elements are kept in order exactly if the hinge is at an inner node."
  },
  {
   "property": "C51",
   "status": "partial",
   "theorems": [
    "Rose.C51_rejected_iff",
    "Rose.C51_realised_iff",
    "Rose.C51_realises_fixity",
    "Rose.C51_monotone",
    "Rose.C51_fixed",
    "Rose.C51_rejection_violated",
    "Rose.C51_half_stiffness"
   ],
   "note": "The inverse relation between fixity and rotational stiffness is proved; the rejection of a fixity outside [0,1) is not implemented as claimed (violated). C51_realised_iff: the factor is realised exactly in [0,1); C51_rejected_iff: no stiffness is set exactly below 0 and above 1.00001001."
  },
  {
   "property": "C52",
   "status": "partial",
   "theorems": [
    "Rose.C52_iff",
    "Rose.C52_per_element",
    "Rose.C52_bottom_partial",
    "Rose.C52_violated"
   ],
   "note": "One lowest node per element; exactly the bottom nodes for a single layer; negation for stacked layers. C52_iff: nothing above the bottom is fixed exactly if every element has a node at the lowest level."
  },
  {
   "property": "C53",
   "status": "proved",
   "theorems": [
    "Rose.C53_settlement_monotone"
   ],
   "note": "One node (nodes are independent). Parameters: gamma >= 0, F0 > 0, alpha >= 0, N0 >= 2. Any number of stages, trains, output steps."
  },
  {
   "property": "C54",
   "status": "partial",
   "theorems": [
    "Rose.C54_count_partial",
    "Rose.C54_violated",
    "Rose.C54_iff"
   ],
   "note": "Proved for the busiest trains; violated for all others (one passage too many, `<=` on zero-based cycle numbers). C54_iff: right exactly for trains that no other one outnumbers."
  },
  {
   "property": "C55",
   "status": "partial",
   "theorems": [
    "Rose.C55_output_step_partial",
    "Rose.C55_sum_partial",
    "Rose.C55_violated",
    "Rose.C55_iff"
   ],
   "note": "Holds for two or more outputs; violated for one output (only the first cycle is recorded). C55_iff: for a single train exactly if the output step is at most half the number of passages."
  },
  {
   "property": "C56",
   "status": "partial",
   "theorems": [
    "Rose.C56_split_partial",
    "Rose.C56_violated",
    "Rose.C56_li_selig_violated",
    "Rose.C56_li_selig_iff"
   ],
   "note": "Varandas: holds for trains with equal passage counts, fully recorded stages and start days not above the passages; violated for unequal counts. Li & Selig: violated, the continuation restarts its cycle count. C56_li_selig_iff: exactly when a split stage of Li & Selig gives the same, or a smaller, settlement."
  },
  {
   "property": "C57",
   "status": "partial",
   "theorems": [
    "Rose.C57_subsoil_partial",
    "Rose.C57_violated",
    "Rose.C57_counts_iff",
    "Rose.C57_last_iff",
    "Rose.C57_additive"
   ],
   "note": "Whole chain from soil parameters (classification, initial stress, strength, Flamant stress) to settlement. Missing: trains without passages, for which it is violated. C57_counts_iff: non-negative for all forces exactly if every train passes at least once; C57_last_iff: non-negative at all outputs exactly if at the last one."
  },
  {
   "property": "C58",
   "status": "proved",
   "theorems": [
    "Rose.C58_classes"
   ],
   "note": "Every class string and every prefix; separate parameter table."
  },
  {
   "property": "C59",
   "status": "partial",
   "theorems": [
    "Rose.C59_stage_lengths",
    "Rose.C59_aligned",
    "Rose.C59_continue_partial",
    "Rose.C59_mismatch",
    "Rose.C59_continue_violated",
    "Rose.C59_continue_exact",
    "Rose.C59_continue_iff"
   ],
   "note": "Alignment proved for every history, for both models and any nodes. Continuation proved for unchanged nodes, violated for changed nodes. C59_continue_exact: for any nodes, the history in each place of the list is continued; C59_continue_iff: a node is continued from its own history exactly if the history in its place of the new list equals its own."
  },
  {
   "property": "C60",
   "status": "proved",
   "theorems": [
    "Rose.C60_traffic"
   ],
   "note": "An empty traffic dictionary is rejected too."
  },
  {
   "property": "C61",
   "status": "partial",
   "theorems": [
    "Rose.C61_start_partial",
    "Rose.C61_violated",
    "Rose.C61_lost",
    "Rose.C61_iff"
   ],
   "note": "Holds for trains with equal passage counts and start days not above the passage count; violated otherwise. C61_iff: for a single train exactly if the start day is not above the number of passages."
  },
  {
   "property": "C62",
   "status": "partial",
   "theorems": [
    "Rose.C62_iff",
    "Rose.C62_samples_partial",
    "Rose.C62_no_double",
    "Rose.C62_count_partial",
    "Rose.C62_depth",
    "Rose.C62_short_violated",
    "Rose.C62_last_violated"
   ],
   "note": "Where a profile is produced its samples and their number are exact, except at the last sample. Violated: short tracks raise an index error; the last sample is never hit. C62_iff: a profile is produced exactly if the flat comes by at an inner sample, otherwise IndexError."
  },
  {
   "property": "C63",
   "status": "proved",
   "theorems": [
    "Rose.C63_lowest",
    "Rose.C63_contact",
    "Rose.C63_flat",
    "Rose.C63_all_points"
   ],
   "note": "Contact with vertices and segments of the polyline; lowest position and contact proved for sorted profiles with vertical steps."
  },
  {
   "property": "C64",
   "status": "proved",
   "theorems": [
    "Rose.C64_track_profile",
    "Rose.C64_spectrum"
   ],
   "note": "Random phases are a parameter depending on the seed only; all wheels use the same seed."
  },
  {
   "property": "C65",
   "status": "proved",
   "theorems": [
    "Rose.C65_couplable",
    "Rose.C65_built",
    "Rose.C65_own_bogies",
    "Rose.C65_own_bogies_cargo"
   ],
   "note": "All nine types, any number of carts."
  },
  {
   "property": "C66",
   "status": "proved",
   "theorems": [
    "Rose.C66_shared_bogies"
   ],
   "note": "Also the distribution factors of each shared bogie add up to one."
  },
  {
   "property": "C67",
   "status": "partial",
   "theorems": [
    "Rose.C67_disjoint_partial",
    "Rose.C67_violated",
    "Rose.C67_rejects",
    "Rose.C67_iff"
   ],
   "note": "C67_iff: the carts are apart exactly if there is one locomotive or no wagon; with two or more locomotives the first wagon overlaps the second locomotive."
  },
  {
   "property": "C68",
   "status": "proved",
   "theorems": [
    "Rose.C68_history_independent"
   ],
   "note": "The way the model is run is a parameter: it may change the model and may fail."
  },
  {
   "property": "C69",
   "status": "proved",
   "theorems": [
    "Rose.C69_in_bounds",
    "Rose.C69_evaluations",
    "Rose.C69_moves"
   ],
   "note": "Draws, cost and bounds arbitrary (minimum at most maximum)."
  },
  {
   "property": "C70",
   "status": "partial",
   "theorems": [
    "Rose.C70_iff",
    "Rose.C70_best_partial",
    "Rose.C70_start_partial",
    "Rose.C70_violated",
    "Rose.C70_sentinel_violated"
   ],
   "note": "Holds if no evaluated cost is -1. Violated: a best cost of -1 is taken for the initial value and replaced by any later cost (proved, with an execution). C70_iff: in every execution the result is the best exactly if no evaluated cost is -1, one is below -1, or the last one is -1."
  },
  {
   "property": "C71",
   "status": "partial",
   "theorems": [
    "Rose.C71_error_iff",
    "Rose.C71_error_partial",
    "Rose.C71_violated"
   ],
   "note": "The remembered cost is right (if no cost is -1). Violated: the remembered position is an alias of the present position, in every execution; the pull to the own best is zero. C71_error_iff: exactly when the remembered cost is the smallest of the particle's evaluations."
  },
  {
   "property": "C72",
   "status": "proved",
   "theorems": [
    "Rose.C72_step",
    "Rose.C72_history",
    "Rose.C72_optimal"
   ],
   "note": "Independent components. One step, all histories, optimality of the gain."
  },
  {
   "property": "C73",
   "status": "partial",
   "theorems": [
    "Rose.C73_iff",
    "Rose.C73_unchanged_partial",
    "Rose.C73_violated"
   ],
   "note": "Holds without conversion; C73_iff: with the default conversion only for a signal that is zero throughout."
  },
  {
   "property": "C74",
   "status": "proved",
   "theorems": [
    "Rose.C74_tiling",
    "Rose.C74_weights"
   ],
   "note": "Tiling and weights; the spectral density is a parameter."
  },
  {
   "property": "C75",
   "status": "proved",
   "theorems": [
    "Rose.C75_layers",
    "Rose.C75_thickness",
    "Rose.C75_empty"
   ],
   "note": "Conversion of numbers to strings not modelled."
  },
  {
   "property": "C76",
   "status": "proved",
   "theorems": [
    "Rose.C76_moments",
    "Rose.C76_positive"
   ],
   "note": "Marginal distribution assumed normal with the parameters handed to gstools."
  },
  {
   "property": "C77",
   "status": "proved",
   "theorems": [
    "Rose.C77_interaction"
   ],
   "note": "With the weight of the wheel on its contact dof."
  },
  {
   "property": "C78",
   "status": "partial",
   "theorems": [
    "Rose.C78_iff",
    "Rose.C78_clean_log_partial",
    "Rose.C78_invalid_rejected",
    "Rose.C78_violated"
   ],
   "note": "Exact for a process that has not logged an error before; violated after any logged error. C78_iff: validation is right for all models exactly if no error was logged before in the process."
  },
  {
   "property": "C79",
   "status": "partial",
   "theorems": [
    "Rose.C79_semi_rigid_partial",
    "Rose.C79_iff",
    "Rose.C79_violated"
   ],
   "note": "C79_iff is the exact condition: shear-rigid beam, or both ends rigid, or both ends free hinges; a shear-flexible beam with a semi-rigid end fails (C79_violated)."
  },
  {
   "property": "C80",
   "status": "partial",
   "theorems": [
    "Rose.C80_local_distance_partial",
    "Rose.C80_violated",
    "Rose.C80_iff"
   ],
   "note": "C80_iff: on a rail at one level exactly if the level is zero or the first contact element starts at position zero."
  },
  {
   "property": "C81",
   "status": "partial",
   "theorems": [
    "Rose.C81_closed_form",
    "Rose.C81_reference_partial",
    "Rose.C81_violated",
    "Rose.C81_iff",
    "Rose.C81_near"
   ],
   "note": "C81_closed_form: closed form for every exponent. C81_iff: N0 - 1 passages (the reference sum stops there) give the reference settlement exactly if alpha = 1, less for smaller alpha, more for larger. C81_near: N0 passages reproduce it within the error of the trapezoidal rule, below one percent for the default values. C81_violated: N0 passages give more for alpha = 1."
  },
  {
   "property": "C82",
   "status": "partial",
   "theorems": [
    "Rose.C82_write_partial",
    "Rose.C82_violated",
    "Rose.C82_iff"
   ],
   "note": "C82_iff: writing succeeds exactly if the name contains a slash, whatever directories exist; bare names raise."
  },
  {
   "property": "C83",
   "status": "partial",
   "theorems": [
    "Rose.C83_history",
    "Rose.C83_iff",
    "Rose.C83_first_partial",
    "Rose.C83_violated"
   ],
   "note": "C83_history: after n initialisations the generated irregularities are contained n times; C83_iff: stable exactly if they are zero."
  },
  {
   "property": "C84",
   "status": "partial",
   "theorems": [
    "Rose.C84_dict_partial",
    "Rose.C84_violated",
    "Rose.C84_iff"
   ],
   "note": "Holds for uniform trains; for a cargo train the dictionary has the locomotive only (proved). C84_iff: for a cargo train exactly if it has no wagons."
  },
  {
   "property": "C85",
   "status": "proved",
   "theorems": [
    "Rose.C85_routing",
    "Rose.C85_slots"
   ],
   "note": "Value semantics of the model stand for deep copies."
  },
  {
   "property": "C86",
   "status": "partial",
   "theorems": [
    "Rose.C86_returned_iff",
    "Rose.C86_residual_partial",
    "Rose.C86_rows_violated",
    "Rose.C86_single_violated",
    "Rose.C86_sets_violated"
   ],
   "note": "Holds for one result name at two or more positions. C86_returned_iff: exactly when a residual is returned."
  },
  {
   "property": "C87",
   "status": "partial",
   "theorems": [
    "Rose.C87_iff",
    "Rose.C87_violated",
    "Rose.C87_exact_violated"
   ],
   "note": "C87_iff: exact condition on the errors under which the variances stay non-negative; negative variances for all better measurements with equal errors; exact measurement not adopted."
  },
  {
   "property": "C88",
   "status": "proved",
   "theorems": [
    "Rose.C88_window_le",
    "Rose.C88_centred",
    "Rose.C88_defined"
   ],
   "note": "Filter external; convolution, weights, differences and window modelled."
  },
  {
   "property": "C89",
   "status": "partial",
   "theorems": [
    "Rose.C89_iff",
    "Rose.C89_first_partial",
    "Rose.C89_violated"
   ],
   "note": "C89_iff: the reported frequencies are the superposed ones exactly if there is at most one or the range is degenerate."
  },
  {
   "property": "C90",
   "status": "proved",
   "theorems": [
    "Rose.C90_layers",
    "Rose.C90_accepted"
   ],
   "note": ""
  },
  {
   "property": "C91",
   "status": "partial",
   "theorems": [
    "Rose.C91_strength_iff",
    "Rose.C91_strength_partial",
    "Rose.C91_violated"
   ],
   "note": "Exact condition (C91_strength_iff); the code multiplies the depth by the layer's own unit weight, so a light layer on a heavy one gives too high a strength (C91_violated)."
  },
  {
   "property": "C92",
   "status": "partial",
   "theorems": [
    "Rose.C92_iff",
    "Rose.C92_deep",
    "Rose.C92_shallow",
    "Rose.C92_strip_partial",
    "Rose.C92_violated"
   ],
   "note": "The maximum is taken over 100 sampled positions that skip the centre line: largest of the sampled stresses, below q/pi (partial); strictly below the true maximum at depth half the width (C92_violated). C92_iff: the stress used is the largest on the line at exactly five depths above half the width and too small at all others; C92_deep: at least 99.8 % of it from half the width downwards; C92_shallow: near the surface it goes to zero."
  },
  {
   "property": "C93",
   "status": "proved",
   "theorems": [
    "Rose.C93_distances"
   ],
   "note": ""
  },
  {
   "property": "C94",
   "status": "proved",
   "theorems": [
    "Rose.C94_defined",
    "Rose.C94_mean",
    "Rose.C94_std"
   ],
   "note": ""
  },
  {
   "property": "C95",
   "status": "partial",
   "theorems": [
    "Rose.C95_chain_partial",
    "Rose.C95_band",
    "Rose.C95_two_partial",
    "Rose.C95_violated"
   ],
   "note": "Consecutive segments in order, and any two segments: proved; from three segments on, adding at the beginning reverses coordinates but not values (C95_violated)."
  },
  {
   "property": "C96",
   "status": "proved",
   "theorems": [
    "Rose.C96_nearest",
    "Rose.C96_defined"
   ],
   "note": ""
  },
  {
   "property": "C97",
   "status": "partial",
   "theorems": [
    "Rose.C97_exact",
    "Rose.C97_first_point_partial",
    "Rose.C97_second_point_violated",
    "Rose.C97_two_points_partial",
    "Rose.C97_violated"
   ],
   "note": "Proved for segments of two points (and for consecutive segments in C95_chain_partial); the code compares the second instead of the last point (C97_violated). C97_exact: what is done for every segment of two or more points; C97_first_point_partial: right if the first point is nearest; C97_second_point_violated: wrong whenever the second point is nearest and the last one further away than the first."
  },
  {
   "property": "C98",
   "status": "partial",
   "theorems": [
    "Rose.C98_work_partial",
    "Rose.C98_force_iff",
    "Rose.C98_moment_iff",
    "Rose.C98_violated"
   ],
   "note": "Shear-rigid elements: proved; exact conditions for shear-flexible ones (C98_force_iff, C98_moment_iff); transverse force and moment at once: see C33."
  },
  {
   "property": "C99",
   "status": "partial",
   "theorems": [
    "Rose.C99_accept",
    "Rose.C99_elements_partial",
    "Rose.C99_equal_partial",
    "Rose.C99_generated",
    "Rose.C99_violated"
   ],
   "note": "Holds if the nodes of the rail part are listed along the rail, in particular for every generated track; fails for another order (C99_violated)."
  },
  {
   "property": "C100",
   "status": "proved",
   "theorems": [
    "Rose.C100_diagonal",
    "Rose.C100_kinetic_energy",
    "Rose.C100_weight"
   ],
   "note": ""
  },
  {
   "property": "C101",
   "status": "proved",
   "theorems": [
    "Rose.C101_mesh",
    "Rose.C101_places"
   ],
   "note": "For trains in which bodies of the same kind do not start at the same place."
  },
  {
   "property": "C102",
   "status": "partial",
   "theorems": [
    "Rose.C102_iff",
    "Rose.C102_trimmed_partial",
    "Rose.C102_violated"
   ],
   "note": "C102_iff: no unknown is lost exactly if every body has mass and stiffness above 1e-8; fails for the default wheel mass 0 (C102_violated)."
  },
  {
   "property": "C103",
   "status": "partial",
   "theorems": [
    "Rose.C103_exact",
    "Rose.C103_iff",
    "Rose.C103_contact_partial",
    "Rose.C103_indices_partial",
    "Rose.C103_violated"
   ],
   "note": "Same condition as C102. C103_exact: for all trains the contact dofs are those of the wheels above the threshold, in order; C103_iff: one per wheel exactly if every wheel has mass and stiffness above the threshold."
  },
  {
   "property": "C104",
   "status": "partial",
   "theorems": [
    "Rose.C104_residual",
    "Rose.C104_static_iff",
    "Rose.C104_static_partial",
    "Rose.C104_violated"
   ],
   "note": "Exact residual; holds if the removed dofs are undisplaced or uncoupled; fails for massless layers in series (C104_violated)."
  },
  {
   "property": "C105",
   "status": "partial",
   "theorems": [
    "Rose.C105_fixity",
    "Rose.C105_iff",
    "Rose.C105_realised_partial",
    "Rose.C105_violated"
   ],
   "note": "Exact realised fixity; holds exactly for one rail element per sleeper (C105_iff)."
  },
  {
   "property": "C106",
   "status": "partial",
   "theorems": [
    "Rose.C106_succeeds",
    "Rose.C106_work_mirrored",
    "Rose.C106_work_partial",
    "Rose.C106_load_partial",
    "Rose.C106_unknowns_partial",
    "Rose.C106_representable",
    "Rose.C106_violated"
   ],
   "note": "Composition of numbering, assembly, trimming and damping. Full for horizontal elements and vertical rods; for all structures with the mirrored axes (C106_work_mirrored); fails for inclined elements (C106_violated, same cause as C24)."
  },
  {
   "property": "C107",
   "status": "proved",
   "theorems": [
    "Rose.C107_same",
    "Rose.C107_iterated"
   ],
   "note": "initialiseTimes starts each repetition from the dof flags left in the node objects."
  },
  {
   "property": "C108",
   "status": "partial",
   "theorems": [
    "Rose.C108_iff",
    "Rose.C108_fresh_partial",
    "Rose.C108_violated"
   ],
   "note": "C108_iff is the exact condition; a support that is removed keeps its dof locked (C108_violated)."
  },
  {
   "property": "C109",
   "status": "proved",
   "theorems": [
    "Rose.C109_history",
    "Rose.C109_forces"
   ],
   "note": "Invariant over all schedules of time steps and iterations; C109_forces gives the values."
  },
  {
   "property": "C110",
   "status": "partial",
   "theorems": [
    "Rose.C110_second",
    "Rose.C110_partial",
    "Rose.C110_violated",
    "Rose.C110_iff"
   ],
   "note": "The coupled force vector is changed in place: C110_second gives the exact difference. C110_iff: repeating changes nothing exactly if no wheel has a contact force."
  },
  {
   "property": "C111",
   "status": "partial",
   "theorems": [
    "Rose.C111_iff",
    "Rose.C111_initial_partial",
    "Rose.C111_violated"
   ],
   "note": "LoadCondition.initialize leaves the force vectors zero; only moving loads call update_force(0). C111_iff is the exact condition."
  },
  {
   "property": "C112",
   "status": "proved",
   "theorems": [
    "Rose.C112_schedule",
    "Rose.C112_staged"
   ],
   "note": "The solver is abstract: any solver that advances step by step."
  },
  {
   "property": "C113",
   "status": "partial",
   "theorems": [
    "Rose.C113_unbalanced",
    "Rose.C113_iff",
    "Rose.C113_violated"
   ],
   "note": "Violated: impose_displacement adds the force of the wheel displacements instead of subtracting it (C113_violated). C113_unbalanced gives the exact residual at every dof, C113_iff the exact condition for a symmetric train."
  },
  {
   "property": "C114",
   "status": "partial",
   "theorems": [
    "Rose.C114_forces_iff",
    "Rose.C114_balanced_iff",
    "Rose.C114_forces",
    "Rose.C114_spring_forces_partial",
    "Rose.C114_reactions_partial",
    "Rose.C114_violated"
   ],
   "note": "C114_forces: exact forces of every train, with the term unbalanced springs add. C114_spring_forces_partial: balanced springs. C114_reactions_partial: carts on two symmetric bogies, bogies on two symmetric wheels. Violated for carts that do not stand symmetrically (C114_violated) and for the default SLT (C122_slt_loads_violated). C114_forces_iff, C114_balanced_iff: the spring forces are right exactly for balanced springs."
  },
  {
   "property": "C115",
   "status": "proved",
   "theorems": [
    "Rose.C115_static",
    "Rose.C115_energy",
    "Rose.C115_sides_needed",
    "Rose.C115_two_sleepers_needed"
   ],
   "note": "C115_static and C115_energy for all sizes and values; C115_sides_needed and C115_two_sleepers_needed show that both boundary conditions are necessary. Numbers are exact reals; a single homogeneous segment (one soil part)."
  },
  {
   "property": "C116",
   "status": "proved",
   "theorems": [
    "Rose.C116_unknowns"
   ],
   "note": "Presence of the rail dofs is expressed by the diagonal entries of the rail's local matrices (RailPresent)."
  },
  {
   "property": "C117",
   "status": "proved",
   "theorems": [
    "Rose.C117_steps"
   ],
   "note": "Exact reals; the condition of the matrix in floating point is not modelled."
  },
  {
   "property": "C118",
   "status": "proved",
   "theorems": [
    "Rose.C118_accepts",
    "Rose.C118_counts",
    "Rose.C118_split",
    "Rose.C118_traffic",
    "Rose.C118_outputs"
   ],
   "note": "Counts are natural numbers and days integers; a period that ends before it starts is excluded from C118_accepts and C118_counts. Floating point rounding in linspace is not modelled."
  },
  {
   "property": "C119",
   "status": "proved",
   "theorems": [
    "Rose.C119_cantilever",
    "Rose.C119_unique"
   ],
   "note": "Rigid ends; semi-rigid ends are the subject of C26 and C79."
  },
  {
   "property": "C120",
   "status": "proved",
   "theorems": [
    "Rose.C120_plane",
    "Rose.C120_resultants"
   ],
   "note": "Continuous width functions; the internal forces themselves are the subject of C27."
  },
  {
   "property": "C121",
   "status": "partial",
   "theorems": [
    "Rose.C121_motion_partial",
    "Rose.C121_static_partial",
    "Rose.C121_track",
    "Rose.C121_violated"
   ],
   "note": "Horizontal elements and vertical rods (all generated tracks); fails for inclined elements (C121_violated, cause C24)."
  },
  {
   "property": "C122",
   "status": "partial",
   "theorems": [
    "Rose.C122_sheet",
    "Rose.C122_apart",
    "Rose.C122_behaviour",
    "Rose.C122_cargo",
    "Rose.C122_cargo_behaviour_partial",
    "Rose.C122_slt",
    "Rose.C122_slt_apart",
    "Rose.C122_slt_violated",
    "Rose.C122_slt_loads_violated"
   ],
   "note": "C122_sheet, C122_apart, C122_behaviour: all types except the SLT, every number of carts. C122_cargo: measures and weights of cargo trains; C122_cargo_behaviour_partial: behaviour of cargo trains. C122_slt, C122_slt_apart: measures and reported loads of the SLT. C122_slt_violated, C122_slt_loads_violated: its matrices give a moment when the train is raised, negative energies, and reactions that differ from the reported loads."
  },
  {
   "property": "C123",
   "status": "partial",
   "theorems": [
    "Rose.C123_slt",
    "Rose.C123_default",
    "Rose.C123_rest_partial",
    "Rose.C123_steps_partial",
    "Rose.C123_rest_violated",
    "Rose.C123_steps_violated",
    "Rose.C123_steps_iff",
    "Rose.C123_slt_steps_violated"
   ],
   "note": "C123_rest_partial, C123_steps_partial: balanced trains; C123_default: all default trains except the SLT; C123_slt: position of rest of the SLT. Unbalanced trains violate it: C123_rest_violated, C123_steps_violated, C123_slt_steps_violated. C123_steps_iff is the exact condition for time steps (balanced springs)."
  },
  {
   "property": "C124",
   "status": "partial",
   "theorems": [
    "Rose.C124_bodies_partial",
    "Rose.C124_power_partial",
    "Rose.C124_violated",
    "Rose.C124_motion_partial"
   ],
   "note": "C124_motion_partial: at times when no two wheels are on elements with a common node; C124_bodies_partial, C124_power_partial: also no track load on nodes under a wheel, balanced train, no Rayleigh damping of the coupled system. C124_violated: a track load on a node under a wheel is lost. Missing: wheels on neighbouring elements (C43), inclined elements (C121)."
  },
  {
   "property": "C125",
   "status": "partial",
   "theorems": [
    "Rose.C125_solvable",
    "Rose.C125_default",
    "Rose.C125_motion_partial",
    "Rose.C125_wheel_loads"
   ],
   "note": "C125_motion_partial: for every valid ride on a generated track the reported results obey the laws of motion at the positions of the wheels with Hertz contact; C125_default: every default train other than the SLT with any number of carts is a valid ride; C125_solvable: the condition on the solver can be met for every valid ride. Missing: wheels less than two elements apart (C43), steps of more than an element (C30), rails with shear (C21), integer powers (C41), unbalanced bogies (C114), combined tracks."
  },
  {
   "property": "C126",
   "status": "proved",
   "theorems": [
    "Rose.C126_static",
    "Rose.C126_motion"
   ],
   "note": "C126_static for every track with at least two sleepers and any correct static solver, C126_motion for any solver whose results satisfy the equations of motion. The sign convention of vertical springs is tension positive (compare C16). The rail, sleepers and pads must be heavy and stiff enough not to be trimmed (C116)."
  },
  {
   "property": "C127",
   "status": "partial",
   "theorems": [
    "Rose.C127_pads_iff",
    "Rose.C127_rail_soil_partial",
    "Rose.C127_pads_violated",
    "Rose.C127_soil_matrices_partial"
   ],
   "note": "Rail shear forces, soil forces and soil matrices are right (C127_rail_soil_partial, C127_soil_matrices_partial). The pad forces are zero for every track, load and solver because the script reads the second column (C127_pads_violated). C127_pads_iff: the pad forces are right exactly if every sleeper moves as the rail node above it."
  },
  {
   "property": "C128",
   "status": "partial",
   "theorems": [
    "Rose.C128_last_run",
    "Rose.C128_weighted_partial",
    "Rose.C128_weighted_iff",
    "Rose.C128_data_partial",
    "Rose.C128_mean_partial",
    "Rose.C128_succeeds",
    "Rose.C128_violated",
    "Rose.C128_settlement_partial",
    "Rose.C128_stiffness_partial"
   ],
   "note": "Holds exactly if the files of a segment are listed one after the other (C128_weighted_iff for positive weighted values); otherwise the sum restarts and earlier scenarios are lost (C128_violated). What is computed in general is C128_last_run."
  },
  {
   "property": "C129",
   "status": "partial",
   "theorems": [
    "Rose.C129_rows",
    "Rose.C129_complete_iff",
    "Rose.C129_violated",
    "Rose.C129_scenarios"
   ],
   "note": "Every row is right (C129_rows); the table is complete iff the segments are listed in the order of the soil data (C129_complete_iff), C129_violated otherwise."
  },
  {
   "property": "C130",
   "status": "partial",
   "theorems": [
    "Rose.C130_parse_iff",
    "Rose.C130_parse_error",
    "Rose.C130_underscore_violated",
    "Rose.C130_distinct",
    "Rose.C130_found_iff",
    "Rose.C130_found_violated",
    "Rose.C130_outName",
    "Rose.C130_settlement_partial",
    "Rose.C130_settlement_violated"
   ],
   "note": "Exact condition for the names of results (C130_parse_iff) and for finding them by train (C130_found_iff); the files batch_calculation writes are not found by the later scripts (C130_found_violated). Settlement files under sufficient conditions."
  },
  {
   "property": "C131",
   "status": "partial",
   "theorems": [
    "Rose.C131_same_result_iff",
    "Rose.C131_same_result_violated",
    "Rose.C131_output_violated"
   ],
   "note": "Exact condition for accumulating the trains of one result together (C131_same_result_iff), violated for other listings; no settlements are written at all because of missing members (C131_output_violated; the members of the class are listed by hand in the model)."
  },
  {
   "property": "C132",
   "status": "proved",
   "theorems": [
    "Rose.C132_layering",
    "Rose.C132_succeeds"
   ],
   "note": "On top of C75 for one layering; reading and writing files is outside the model."
  },
  {
   "property": "C133",
   "status": "proved",
   "theorems": [
    "Rose.C133_result_file",
    "Rose.C133_velocity",
    "Rose.C133_sampled"
   ],
   "note": "The calculation and the content of the file are arbitrary functions of the model; deepcopy gives an independent copy (trusted)."
  },
  {
   "property": "C134",
   "status": "partial",
   "theorems": [
    "Rose.C134_formula",
    "Rose.C134_distance_partial",
    "Rose.C134_distance_violated",
    "Rose.C134_iff"
   ],
   "note": "C134_formula says what is shown for all inputs; it is the travelled distance for constant velocity, C134_distance_violated otherwise. C134_iff: the shown distance is right exactly if in each output step the distance travelled is end velocity times length of the step."
  },
  {
   "property": "C135",
   "status": "partial",
   "theorems": [
    "Rose.C135_weighted",
    "Rose.C135_repeat",
    "Rose.C135_table_partial",
    "Rose.C135_table_violated",
    "Rose.C135_table_iff"
   ],
   "note": "Weighted values for all inputs (C135_weighted, C135_repeat); the table needs keys nothing collects (C135_table_violated, for all inputs). C135_table_iff: the table can be written exactly if all four values are present."
  },
  {
   "property": "C136",
   "status": "proved",
   "theorems": [
    "Rose.C136_structure"
   ],
   "note": "For all lists of segments with positive numbers of sleepers, at least two sleepers in all, and distances and depths above the merging tolerance (smaller depths merge nodes, C48_violated). The spacing of sleepers at joints is the subject of C49."
  },
  {
   "property": "C137",
   "status": "proved",
   "theorems": [
    "Rose.C137_steps",
    "Rose.C137_rejects"
   ],
   "note": "Static equilibrium is the case a = b = 0. Without the x constraint at the rail ends the system is singular, C115_sides_needed."
  },
  {
   "property": "C138",
   "status": "partial",
   "theorems": [
    "Rose.C138_motion_partial",
    "Rose.C138_solvable",
    "Rose.C138_default"
   ],
   "note": "Missing, as in C125: rails with shear deformation, wheels closer than two rail elements and steps longer than a rail element, for which the code violates the law (see the violated theorems of C66 and C124). C138_default shows that all default trains with two bogies per cart meet the conditions; C138_solvable that a solver exists."
  },
  {
   "property": "C139",
   "status": "partial",
   "theorems": [
    "Rose.C139_time",
    "Rose.C139_position",
    "Rose.C139_motion_partial",
    "Rose.C139_solvable",
    "Rose.C139_shipped",
    "Rose.C139_shipped_rf",
    "Rose.C139_script_violated"
   ],
   "note": "Times, positions and motion are proved for all values that keep the train on the rail (partial as C138: no SLT train), and the values shipped with demo.py and demo_rf.py are shown to meet the conditions for five of their six trains. Violated: set_train is called with its default of one cart, which the SLT train refuses, so both scripts stop at their second train after writing one file. Results are modelled for every step; the scripts keep every seventh."
  },
  {
   "property": "C140",
   "status": "partial",
   "theorems": [
    "Rose.C140_start_iff",
    "Rose.C140_before_partial",
    "Rose.C140_start_violated",
    "Rose.C140_passed_violated",
    "Rose.C140_end_violated"
   ],
   "note": "Proved for wheels that stay before the last node in front of the hinge (right element, no failure). Violated at the hinge and beyond it: initialize_wheel_loads computes the indices of the unique nodes but does not use them, so three nodes are listed twice (C140_start_violated, C140_passed_violated: third element after the right one; C140_end_violated: exception within three elements of the end). C140_start_iff: at its start a wheel gets an element on which it stands exactly if it starts in front of the last node before the hinge."
  },
  {
   "property": "C141",
   "status": "partial",
   "theorems": [
    "Rose.C141_semi_rigid",
    "Rose.C141_pinned_iff",
    "Rose.C141_pinned_stands",
    "Rose.C141_mechanism_violated"
   ],
   "note": "C141_semi_rigid: one static equilibrium and one solution of every time step for every fixity factor in (0, 1]. C141_pinned_iff: with a free pin in a rail without shear flexibility, one equilibrium exactly if there are three sleepers and one of them is behind the pin. C141_pinned_stands: the same direction for every rail and for time steps. C141_mechanism_violated: with shear flexibility the computed track has one equilibrium even where it is a mechanism, because an element with a pin resists rigid rotation (C18). Hypotheses: the hinge is on a rail node with two rail nodes on either side and the node is told apart from its neighbours by np.isclose."
  },
  {
   "property": "C142",
   "status": "partial",
   "theorems": [
    "Rose.C142_motion_partial",
    "Rose.C142_solvable",
    "Rose.C142_shipped",
    "Rose.C142_script_partial",
    "Rose.C142_script_violated",
    "Rose.C142_types"
   ],
   "note": "partial: the SLT cannot be calculated with one cart (C139); the script itself asks for a type of train that does not exist, so it stops on loading (C142_script_violated); with any other type name the script theorem holds."
  },
  {
   "property": "C143",
   "status": "partial",
   "theorems": [
    "Rose.C143_motion_partial",
    "Rose.C143_solvable",
    "Rose.C143_rejects",
    "Rose.C143_passed_violated",
    "Rose.C143_passed_solvable"
   ],
   "note": "Proved for trains in front of the hinge (C143_motion_partial), with existence of a solver (C143_solvable). A train that leaves the rail is refused (C143_rejects). For a wheel past the hinge the laws hold only if the wheel carries nothing (C143_passed_violated, with C143_passed_solvable showing its solver condition can be met). Missing: trains whose wheel is on the two elements around the hinge, where the nodal loads are not those of elements with springs (C169)."
  },
  {
   "property": "C144",
   "status": "partial",
   "theorems": [
    "Rose.C144_track",
    "Rose.C144_hinge_partial",
    "Rose.C144_hinge_violated"
   ],
   "note": "Proved without hinge (C144_track). With a hinge the code drops the hinge's mass: C144_hinge_partial gives the exact condition (mass zero), C144_hinge_violated the inertia that is missing."
  },
  {
   "property": "C145",
   "status": "proved",
   "theorems": [
    "Rose.C145_static"
   ],
   "note": ""
  },
  {
   "property": "C146",
   "status": "proved",
   "theorems": [
    "Rose.C146_deflection",
    "Rose.C146_benchmark"
   ],
   "note": ""
  },
  {
   "property": "C147",
   "status": "partial",
   "theorems": [
    "Rose.C147_motion_partial",
    "Rose.C147_iff",
    "Rose.C147_violated"
   ],
   "note": "C147_motion_partial is the motion in n - 1 shapes with the load at the middle node; C147_iff says exactly when it is the expected motion; C147_violated is a loaded beam with the result zero."
  },
  {
   "property": "C148",
   "status": "partial",
   "theorems": [
    "Rose.C148_motion_partial",
    "Rose.C148_iff",
    "Rose.C148_overdamped_violated"
   ],
   "note": "C148_motion_partial needs damping below critical in the used shapes; C148_iff as for C147; C148_overdamped_violated: with stiffness damping the square root of a negative number is taken from some mode on."
  },
  {
   "property": "C149",
   "status": "partial",
   "theorems": [
    "Rose.C149_velocity",
    "Rose.C149_frequency",
    "Rose.C149_violated",
    "Rose.C149_midspan"
   ],
   "note": "The full statement fails for all inputs (C149_violated). Proved of it: velocity, frequencies and the sum of the amplitudes at midspan (even number of elements)."
  },
  {
   "property": "C150",
   "status": "proved",
   "theorems": [
    "Rose.C150_motion",
    "Rose.C150_front",
    "Rose.C150_time"
   ],
   "note": "Complete. The loop uses one term less than asked for; the error bound is stated with that number."
  },
  {
   "property": "C151",
   "status": "partial",
   "theorems": [
    "Rose.C151_passage_partial",
    "Rose.C151_iff",
    "Rose.C151_violated"
   ],
   "note": "The full statement holds exactly without damper or with a single step (C151_iff) and fails for the vehicle of the script (C151_violated); C151_passage_partial is the part that holds for all."
  },
  {
   "property": "C152",
   "status": "partial",
   "theorems": [
    "Rose.C152_mode",
    "Rose.C152_motion_partial",
    "Rose.C152_velocity_violated"
   ],
   "note": "The displacement part is complete as a limit in the number of integration steps; n - 1 instead of n modes are used; the velocity part fails for all inputs (C152_velocity_violated)."
  },
  {
   "property": "C153",
   "status": "partial",
   "theorems": [
    "Rose.C153_hinge",
    "Rose.C153_max_partial",
    "Rose.C153_max_violated",
    "Rose.C153_max_iff"
   ],
   "note": "Partial because of the code: the reported number is always the displacement at the hinge (C153_hinge, every load position), and it is the largest displacement for loads on the clamped part (C153_max_partial); C153_max_violated gives a beam with the load on the other part where a larger displacement occurs. C153_max_iff: with the load on the other part the hinge moves most exactly if b (b^2 - r^2) <= 2 a^3."
  },
  {
   "property": "C154",
   "status": "partial",
   "theorems": [
    "Rose.C154_approach",
    "Rose.C154_transform_partial",
    "Rose.C154_transform_iff"
   ],
   "note": "C154_approach is the full property for all times before the load reaches the change. After it, C154_transform_partial proves equation, initial state, slope, moment, shear force and decay of the transform; C154_transform_iff proves that the displacement of the transform is continuous exactly when the two stiffnesses are equal: one sign in the code (winkler.py:181, the third term of ZZ1) differs from every other denominator of its kind. Complex arithmetic is exact; the truncated numerical inversion of the transform is modelled but not compared with the motion."
  },
  {
   "property": "C155",
   "status": "proved",
   "theorems": [
    "Rose.C155_bounded",
    "Rose.C155_steady",
    "Rose.C155_curvature_bounded",
    "Rose.C155_curvature_steady"
   ],
   "note": "The band-pass filter is outside the model: the theorems are about every filtered signal. C155_bounded and C155_steady are about the bands that are not differentiated, C155_curvature_bounded and C155_curvature_steady about the bands that are differentiated twice, with at least three weights in eight metres."
  },
  {
   "property": "C156",
   "status": "proved",
   "theorems": [
    "Rose.C156_benchmark",
    "Rose.C156_hinge",
    "Rose.C156_load"
   ],
   "note": "Path of the load along the nodes only: between the nodes of the elements at the hinge the shape functions of the load are not those of a pinned element."
  },
  {
   "property": "C157",
   "status": "proved",
   "theorems": [
    "Rose.C157_unknowns"
   ],
   "note": ""
  },
  {
   "property": "C158",
   "status": "partial",
   "theorems": [
    "Rose.C158_rows",
    "Rose.C158_coupled",
    "Rose.C158_column_iff",
    "Rose.C158_motion_partial"
   ],
   "note": "Partial like C138: the motion theorem needs the conditions of C138 on the ride. The list of stored steps (chosen by the external solver from output_interval) is a parameter."
  },
  {
   "property": "C159",
   "status": "partial",
   "theorems": [
    "Rose.C159_motion_partial",
    "Rose.C159_solvable",
    "Rose.C159_cargo"
   ],
   "note": "Partial as C138: for trains of carts with two bogies of two wheels, axles at least 1 m and more than two rail elements apart, rail modelled without negative kappa, and a solver that satisfies its equations. Cargo trains with one locomotive: further locomotives overlap the wagons (C122)."
  },
  {
   "property": "C160",
   "status": "partial",
   "theorems": [
    "Rose.C160_columns",
    "Rose.C160_layout",
    "Rose.C160_fits",
    "Rose.C160_front",
    "Rose.C160_residual",
    "Rose.C160_identifiable_violated"
   ],
   "note": "The layout of displacements_out and what the script compares are proved. The last part fails: the script observes the same entry twice, so its two residuals are equal for all parameters (C160_identifiable_violated). The solver and scipy least_squares are parameters or left out."
  },
  {
   "property": "C161",
   "status": "proved",
   "theorems": [
    "Rose.C161_semi_rigid",
    "Rose.C161_pinned",
    "Rose.C161_rejects"
   ],
   "note": ""
  },
  {
   "property": "C162",
   "status": "partial",
   "theorems": [
    "Rose.C162_motion_partial",
    "Rose.C162_solvable",
    "Rose.C162_rejects",
    "Rose.C162_passed_violated",
    "Rose.C162_passed_solvable",
    "Rose.C162_demo_violated",
    "Rose.C162_demo_solvable",
    "Rose.C162_shipped",
    "Rose.C162_shipped_rf",
    "Rose.C162_script_violated"
   ],
   "note": "Violated by the code: a wheel past the hinge presses on a wrong element (C162_passed_violated, C162_demo_violated for all trains of the shipped scripts that can be calculated), and the shipped script stops at its second train (C162_script_violated). C162_motion_partial proves the laws of motion as long as all wheels stay in front of the hinge. Missing: wheels on the two elements around the hinge, where the nodal loads are not those of elements with springs (C169)."
  },
  {
   "property": "C163",
   "status": "proved",
   "theorems": [
    "Rose.C163_demo",
    "Rose.C163_semi_rigid",
    "Rose.C163_soil_matrices",
    "Rose.C163_hinged_soil_matrices",
    "Rose.C163_script"
   ],
   "note": "The pad forces in the files are always zero (the scripts read the transverse column of a vertical rod; C127 has the violation); that is stated in the theorems and not counted as part of this claim. C163_script states the same for whole runs of demo.py with trains that can be built (not the SLT, C139)."
  },
  {
   "property": "C164",
   "status": "partial",
   "theorems": [
    "Rose.C164_read",
    "Rose.C164_first_partial",
    "Rose.C164_dynamic_violated",
    "Rose.C164_zero_violated",
    "Rose.C164_script_violated"
   ],
   "note": "As written true only for node 0 (C164_first_partial); C164_dynamic_violated: for node 2j right exactly if the sleepers j and 2j have the same peak; C164_zero_violated: results with value 0 although the soil is pressed; C164_script_violated: what the shipped batch reads. Odd nodes divide by zero (numpy inf, not modelled), nodes from the number of sleepers on raise IndexError."
  },
  {
   "property": "C165",
   "status": "partial",
   "theorems": [
    "Rose.C165_values",
    "Rose.C165_place_violated",
    "Rose.C165_positive_iff",
    "Rose.C165_copies_violated",
    "Rose.C165_runs_partial"
   ],
   "note": "Exact values and places (C165_values), positivity (C165_positive_iff), runs (C165_runs_partial, partial as C139: not the SLT). Violated: places (C165_place_violated) and independent variations (C165_copies_violated). gstools is trusted to give mean + sqrt(variance) times a field that depends on seed, length scale, angle and place only."
  },
  {
   "property": "C166",
   "status": "partial",
   "theorems": [
    "Rose.C166_motion_partial",
    "Rose.C166_statics_partial",
    "Rose.C166_coupled_partial",
    "Rose.C166_unrecognised_violated",
    "Rose.C166_return_violated"
   ],
   "note": "Holds for all time arrays without a returning step size (C166_motion_partial, C166_statics_partial, C166_coupled_partial). Fails for returning step sizes (C166_return_violated, stages from set_stage_time_ids, global_system.py:441-449) and for unknown solver types (C166_unrecognised_violated, global_system.py:541: Exception(...) without raise)."
  },
  {
   "property": "C167",
   "status": "partial",
   "theorems": [
    "Rose.C167_forces_partial"
   ],
   "note": "Partial because it uses C138_motion_partial (conditions of C125: bending rails, wheel spacing, step length; the violations are proved in C30, C34, C66). Given the equation of motion, the balance itself has no further condition than that no unknown of rail or sleepers is dropped (KeptValues, C157) and held rail ends."
  },
  {
   "property": "C168",
   "status": "proved",
   "theorems": [
    "Rose.C168_matrices",
    "Rose.C168_runs",
    "Rose.C168_tracks",
    "Rose.C168_mean"
   ],
   "note": ""
  },
  {
   "property": "C169",
   "status": "partial",
   "theorems": [
    "Rose.C169_loads_iff",
    "Rose.C169_deflection_iff",
    "Rose.C169_moment",
    "Rose.C169_hinge_violated"
   ],
   "note": "C169_loads_iff and C169_deflection_iff are the exact conditions; C169_moment gives the right share of the moment. Violated beside every hinge (C169_hinge_violated): set_y_shape_functions does not know the springs."
  },
  {
   "property": "C170",
   "status": "partial",
   "theorems": [
    "Rose.C170_unique",
    "Rose.C170_forces",
    "Rose.C170_energy",
    "Rose.C170_inertia",
    "Rose.C170_deflection_iff",
    "Rose.C170_springs_forces",
    "Rose.C170_springs_inertia_iff",
    "Rose.C170_violated"
   ],
   "note": "Forces, elastic energy and inertia: proved for all elements with rigid ends; forces also for shear-rigid elements on springs (for shear-flexible ones see C79). The deflection between the nodes is right exactly for shear-rigid elements and elements of one metre (C170_deflection_iff), the inertia of elements on springs exactly if the springs are rigid (C170_springs_inertia_iff): C170_violated."
  },
  {
   "property": "C171",
   "status": "partial",
   "theorems": [
    "Rose.C171_refine",
    "Rose.C171_forces_partial",
    "Rose.C171_force_iff",
    "Rose.C171_violated"
   ],
   "note": "C171_refine: loads on shared nodes, every shear factor, any load history; results agree at shared nodes and sleepers, and additional nodes lie on the elastic curve. C171_forces_partial: any list of vertical forces between nodes, for a rail without a shear factor (kappa = 0). C171_force_iff: for a force on an additional node agreement holds exactly if the force is zero, kappa = 0 or the coarse elements have length one: the shear terms of the shape functions used by update_force lack a factor of the element length (see C23). C171_violated is a concrete track of 3 sleepers. Vertical loads and moments only; a track in order means the conditions of TwoMeshes (parts not trimmed away as negligible, solver solves the equations)."
  },
  {
   "property": "C172",
   "status": "proved",
   "theorems": [
    "Rose.C172_track",
    "Rose.C172_combined",
    "Rose.C172_hinged",
    "Rose.C172_pinned"
   ],
   "note": "C172_track, C172_combined, C172_hinged, C172_pinned: the conclusion MovesWell lists unique accelerations, well-posedness, energy law, decay without load, and free vibrations. Exact real arithmetic; the time integration of these equations is the subject of C117, C137 and the integrator claims. The pinned case needs three sleepers and one of them behind the pin, as in C161."
  },
  {
   "property": "C173",
   "status": "proved",
   "theorems": [
    "Rose.C173_track",
    "Rose.C173_combined",
    "Rose.C173_hinged",
    "Rose.C173_pinned",
    "Rose.C173_reported",
    "Rose.C173_reported_combined",
    "Rose.C173_reported_hinged",
    "Rose.C173_reported_pinned"
   ],
   "note": ""
  },
  {
   "property": "C174",
   "status": "proved",
   "theorems": [
    "Rose.C174_track",
    "Rose.C174_combined",
    "Rose.C174_hinged"
   ],
   "note": ""
  },
  {
   "property": "C175",
   "status": "proved",
   "theorems": [
    "Rose.C175_track",
    "Rose.C175_combined",
    "Rose.C175_hinged",
    "Rose.C175_pinned"
   ],
   "note": ""
  },
  {
   "property": "C176",
   "status": "proved",
   "theorems": [
    "Rose.C176_combined",
    "Rose.C176_track"
   ],
   "note": ""
  },
  {
   "property": "C177",
   "status": "partial",
   "theorems": [
    "Rose.C177_rotate_iff",
    "Rose.C177_rotate_violated",
    "Rose.C177_rows",
    "Rose.C177_load_violated",
    "Rose.C177_load_two"
   ],
   "note": "Both helpers are broken in the code as it is: exact iff for rotate_force_vector (works for no two-noded element), failure of the load helper for every time array of a length other than two, and its value for two times. Neither is called by the calculations."
  },
  {
   "property": "C178",
   "status": "partial",
   "theorems": [
    "Rose.C178_hinge_partial",
    "Rose.C178_pin_violated"
   ],
   "note": "C178_hinge_partial: rails without shear deformation (kappa = 0); hinge stiff enough to keep the unknowns of its node. C178_pin_violated: a free pin drops moments on its node. For kappa > 0 the elements at the hinge resist even a turn of the whole element, so that the comparison of energies fails; no statement there."
  },
  {
   "property": "C179",
   "status": "proved",
   "theorems": [
    "Rose.C179_track",
    "Rose.C179_combined",
    "Rose.C179_hinged",
    "Rose.C179_pinned"
   ],
   "note": "Solvers are a parameter: any that takes average acceleration steps (beta 1/4, gamma 1/2) whenever there are such steps. Loads may act on all nodes of the mesh. Tracks need sleepers, masses, dampings and Rayleigh values as for C173."
  },
  {
   "property": "C180",
   "status": "proved",
   "theorems": [
    "Rose.C180_track",
    "Rose.C180_combined",
    "Rose.C180_hinged"
   ],
   "note": "Solvers are a parameter: any two whose steps satisfy the Newmark equations of the program in every step. Conditions on tracks and trains as for C174; only the first ride needs non-negative springs, dampers and time steps."
  },
  {
   "property": "C181",
   "status": "partial",
   "theorems": [
    "Rose.C181_loads",
    "Rose.C181_first",
    "Rose.C181_motion_partial",
    "Rose.C181_new_train_partial",
    "Rose.C181_violated",
    "Rose.C181_from_rest_violated"
   ],
   "note": "Violated: the static loads of bogies and wheels accumulate, so call number k (from 0) has wheel loads larger by k bogie weights and k(k+3)/2 cart shares (C181_loads) and its results differ wherever a wheel touches the rail, in particular at the first output of every run from rest (C181_violated, C181_from_rest_violated). What holds: each call obeys the laws of motion with its own loads (C181_motion_partial), the first call is the calculation of a new model (C181_first), and a new train on the used track gives exactly the results of a new model (C181_new_train_partial)."
  },
  {
   "property": "C182",
   "status": "partial",
   "theorems": [
    "Rose.C182_supports_iff",
    "Rose.C182_results_partial",
    "Rose.C182_track",
    "Rose.C182_combined",
    "Rose.C182_hinged",
    "Rose.C182_violated",
    "Rose.C182_equations_partial"
   ],
   "note": "Proved for generated, combined and hinged tracks and for every structure whose supports agree on shared nodes and whose load conditions list no node twice; C182_violated: with two different supports on one node the last one listed counts, so their order changes the result. C182_supports_iff: the order of the supports does not matter exactly if supports on a common node leave the same dofs free."
  },
  {
   "property": "C183",
   "status": "proved",
   "theorems": [
    "Rose.C183_track",
    "Rose.C183_combined",
    "Rose.C183_hinged",
    "Rose.C183_pinned"
   ],
   "note": "Proved for generated, combined, hinged and pinned tracks. Average acceleration steps and the static solution are specifications of the external solvers. The approach to the static results needs Rayleigh damping with a positive ratio; the bound of a sudden load does not."
  },
  {
   "property": "C184",
   "status": "proved",
   "theorems": [
    "Rose.C184_track",
    "Rose.C184_combined",
    "Rose.C184_hinged"
   ],
   "note": "Newmark's and the other time integration methods are external; they enter by the steps they make. The initial state that the code computes is not this position (C113)."
  },
  {
   "property": "C185",
   "status": "proved",
   "theorems": [
    "Rose.C185_combined",
    "Rose.C185_track",
    "Rose.C185_overhang"
   ],
   "note": ""
  },
  {
   "property": "C186",
   "status": "proved",
   "theorems": [
    "Rose.C186_columns",
    "Rose.C186_unordered"
   ],
   "note": ""
  },
  {
   "property": "C187",
   "status": "proved",
   "theorems": [
    "Rose.C187_track",
    "Rose.C187_combined",
    "Rose.C187_hinged",
    "Rose.C187_pinned"
   ],
   "note": ""
  },
  {
   "property": "C188",
   "status": "proved",
   "theorems": [
    "Rose.C188_track",
    "Rose.C188_combined",
    "Rose.C188_hinged",
    "Rose.C188_pinned"
   ],
   "note": ""
  },
  {
   "property": "C189",
   "status": "partial",
   "theorems": [
    "Rose.C189_violated",
    "Rose.C189_sparse",
    "Rose.C189_falls_iff",
    "Rose.C189_default_partial"
   ],
   "note": "Full statement: the calculation of every train alone returns, and returns the free fall. C189_violated: for every train and solver main ends in an error as soon as there is a time step. C189_sparse: the storage of the matrices is the cause, with sparse matrices the stage loop returns. C189_falls_iff: the steps on the matrices and forces a train hands to its solver allow a free fall exactly if the springs of all bodies are balanced. C189_default_partial: these steps are a free fall for every default train but the SLT; missing is that main comes to them."
  },
  {
   "property": "C190",
   "status": "partial",
   "theorems": [
    "Rose.C190_track_partial",
    "Rose.C190_violated",
    "Rose.C190_combined_partial",
    "Rose.C190_hinged_partial"
   ],
   "note": "Full statement: results are the same in all units of force and time. C190_track_partial and C190_combined_partial need values above the absolute 1e-8 threshold in both systems of units. C190_violated: without this the claim is false, for every track there are units of force in which nothing moves. C190_hinged_partial: the same with a hinge of fixity factor below one in a slender rail (a factor of one stands for 10^30 in all units)."
  },
  {
   "property": "C191",
   "status": "proved",
   "theorems": [
    "Rose.C191_track",
    "Rose.C191_combined",
    "Rose.C191_hinged",
    "Rose.C191_pinned"
   ],
   "note": ""
  },
  {
   "property": "C192",
   "status": "proved",
   "theorems": [
    "Rose.C192_track",
    "Rose.C192_combined",
    "Rose.C192_hinged",
    "Rose.C192_pinned"
   ],
   "note": ""
  },
  {
   "property": "C193",
   "status": "proved",
   "theorems": [
    "Rose.C193_track",
    "Rose.C193_combined",
    "Rose.C193_hinged",
    "Rose.C193_pinned"
   ],
   "note": ""
  },
  {
   "property": "C194",
   "status": "proved",
   "theorems": [
    "Rose.C194_track",
    "Rose.C194_combined",
    "Rose.C194_hinged",
    "Rose.C194_pinned"
   ],
   "note": ""
  },
  {
   "property": "C195",
   "status": "proved",
   "theorems": [
    "Rose.C195_track",
    "Rose.C195_combined",
    "Rose.C195_hinged",
    "Rose.C195_pinned"
   ],
   "note": ""
  },
  {
   "property": "C196",
   "status": "proved",
   "theorems": [
    "Rose.C196_track",
    "Rose.C196_combined",
    "Rose.C196_hinged",
    "Rose.C196_pinned"
   ],
   "note": ""
  },
  {
   "property": "C197",
   "status": "proved",
   "theorems": [
    "Rose.C197_track",
    "Rose.C197_combined",
    "Rose.C197_hinged",
    "Rose.C197_pinned"
   ],
   "note": ""
  },
  {
   "property": "C198",
   "status": "proved",
   "theorems": [
    "Rose.C198_json_iff",
    "Rose.C198_records_iff",
    "Rose.C198_accept_iff",
    "Rose.C198_names_differ",
    "Rose.C198_names_coincide"
   ],
   "note": "C198_json_iff, C198_records_iff, C198_accept_iff, C198_names_differ; C198_names_coincide shows that across directories names can coincide. Opening and parsing a json file is a parameter; posix paths."
  },
  {
   "property": "C199",
   "status": "partial",
   "theorems": [
    "Rose.C199_samples",
    "Rose.C199_filled_partial",
    "Rose.C199_empty_violated"
   ],
   "note": "C199_samples: number of samples in full. C199_filled_partial: all bands have frequencies if the padded signal spans 50 m. C199_empty_violated: for at most 256 samples at 0.1 m the first band has none and its value is zero for every signal."
  }
 ]
}