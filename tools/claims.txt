C01 | proved | overlap_symmetric overlap_bounds overlap_pos_iff overlap_eq_volume | 
C02 | proved | hull_is_smallest intersects_iff cell_box_exact | 
C03 | proved | cell_id_round_trip cell_id_injective gap_id_reads_uninitialised empty_rank_overflows | round trip and bounds for every non-empty id set; the last two theorems are findings outside the claim (ids in gaps, rank without cells)
C04 | proved | cell_to_exp_consistent cell_to_exp_missing | 
C05 | proved | store_behaves_as_map default_zero set_frame mk1_holds mk2_second_wins | 
C06 | proved | linear_index_bijective cell_contains_point cell_in_range cells_tile | exact arithmetic
C17 | proved | pad_least global_size_least global_size_zero | 
C43 | proved | field_index field_index_duplicate | 
C44 | partial | find_owning_geom_partial find_owning_geom_sound find_owning_geom_misses_owner | the full claim is false of the code: find_owning_geom_misses_owner is a counterexample
C45 | proved | uniform_within_elements_exact uniform_within_elements_total first_accepted given_up_iff | 
C46 | proved | line_points_partition sampler_partition | 
C47 | partial | rsequence_in_extents_partial golden_table_ok golden_digits golden_unique rsequence_negative_seed rsequence_ndim_limit | false for negative seeds and for more than ten dimensions (both proved)
C48 | partial | steps_hold_their_values_partial first_step_kept global_first_kept default_names failure_never_reported repeated_step_lost outside_step | error detection is false of the code (proved); step naming and contents proved for all programs with distinct keys within a step (of steps with the same name the first one is kept)
C49 | proved | callbacks_once_in_order calls_independent_of_effects | 
C50 | proved | flatten_round_trip residual_formula matrix_free_exact matrix_free_zero_vector array_norm_formula | exact arithmetic; matrix_free_zero_vector records the division by zero for a zero vector
C51 | proved | boris_solves_implicit_equation implicit_equation_unique boris_conserves_energy boris_reversible | exact arithmetic
C07 | proved | local_collapsed_local_3d collapsed_local_collapsed_3d round_trips_2d dispatch_selects_shape | exact arithmetic
C08 | proved | element_has_unit_collapsed_3d unit_collapsed_near_element_3d element_iff_unit_collapsed_3d element_unit_collapsed_2d element_round_trip_error | exact arithmetic
C09 | partial | clamp_one clamp_two_partial clamp_three_partial clamp_skips_later_coordinates | the full claim is false of the code: later coordinates are not clamped (proved)
C10 | proved | jacobi_is_jacobi_polynomial jacobi_never_divides_by_zero tables_give_recursion host_evaluate_is_jacobi_polynomial host_evaluate_eq_jacobi minimum_error_iff | Exact arithmetic; integer overflow of the int products not modelled.
C11 | partial | mod_A_is_reference mod_B_is_reference_partial mod_C_is_reference_partial mod_PyrC_is_reference_partial mod_B_not_finite_at_one mod_C_not_finite_at_one mod_PyrC_not_finite_at_one mod_B_differs_from_reference | the full claim is false at z = 1: the powers start with 1/0 (proved); exact for every other point
C12 | partial | basis_total_num_modes shape_total_num_modes tables_cover_kernels kernels_in_bounds_partial mod_A_single_mode_overruns max_n_exact max_alpha_exact | full for two or more modes; mod_A with one mode writes a second slot (proved)
C13 | partial | evaluate_is_reference_partial evaluate_at_reference_position_partial evaluate_all eval_modes_is_basis evaluate_not_finite_triangle_vertex evaluate_not_finite_tet_edge | exact for two or more modes off the collapsed end; there the value is not finite (proved)
C14 | partial | projection_is_transpose_partial projection_at_reference_position_partial projection_all apply_adds_total projection_order_independent deposit_conserves | order independence and conservation proved in full; the transpose off the collapsed end, where both sides are not finite (see C13)
C15 | proved | evaluate_2d_exact evaluate_3d_exact evaluate_2d_is_interpolant evaluate_3d_is_interpolant evaluate_2d_at_node evaluate_3d_at_node weights_sum_to_one dir_0_exact | exact arithmetic; weights are barycentric weights up to a common factor
C16 | proved | block_weights_equal_scalar interlaced_template_2d_equals_scalar interlaced_2d_equals_scalar interlaced_template_3d_equals_scalar interlaced_3d_equals_scalar dispatch_2d_equals_scalar dispatch_3d_equals_scalar block_evaluation_equals_scalar | exact arithmetic on doubles with a non-finite value
C18 | proved | unpack_one unpack_packRemotes unpack_packGeoms | for every number of geometries, with any bytes following the message
C19 | partial | truncated_read_out_of_bounds wrong_type_out_of_bounds unpack_one_in_bounds_partial truncated_never_accepted_partial | the full claim is false of the code: a set without its last one to four bytes is read out of bounds, and a triangle read as a quadrilateral too (both proved); a single triangle is read within its buffer and no truncated set is accepted
C21 | partial | round_trip too_large_refused too_small_overrun wrong_size_refused curved_refused | round trip and exact size are proved in full; the refusal of a too small buffer is false of the code (it is overrun first, proved)
C23 | proved | requested_cells_exact offset_limits wide_stencil_fails | one to three dimensions, any grid and any set of owned and claimed cells; wide_stencil_fails shows why the limit on the offset is needed
C24 | proved | claimed_cells largest_weight order_independent reference_weight_order_dependent | for all sequences of calls; only the floating point reference weight depends on the order of equal claims
C25 | proved | split_exact split_injective split_surjective cell_index_bijective | for all grids
C26 | proved | map_exact map_padded_exact claimed_iff claim_weights_bounded geom_map_exact flat_box_claims_nothing | exact arithmetic; the MeshHierarchy index functions are modelled by their contract
C20 | proved | reconstruct_iff round_trip missing_face_refused per_rank_faces messages_in_order exchange_round_trip | for every number of geometries, ranks and order of arrival; MPI delivery per (source, tag) is the contract
C22 | proved | kind_unique container_is_partition other_shape_refused pushAll_spec all_elements get_element assigned | for every mesh with distinct element ids and every list of remote geometries; pushAll_spec covers every history of push_back
C27 | partial | wrap_in_domain_partial wrap_in_domain_iff wrap_same_modulo wrap_fixes_domain wrap_idempotent_partial kernel_in_domain_partial kernel_wraps_each wrap_leaves_domain | the full claim is false of the code for periods below one (wrap_leaves_domain); wrap_in_domain_iff says exactly when it holds; exact arithmetic
C28 | partial | extents_exact_partial negative_domain_wrong | the full claim is false of the code for meshes with no positive coordinate (negative_domain_wrong, for every such mesh)
C30 | proved | intersection_exact in_plane_reported_at_start normal_spec triangle_in_plane quad_in_plane triangle_crossing_found segment_normal | exact arithmetic; over the reals for the normals
C31 | proved | hull_near hull_near_constructed radius_attained average_in_hull | exact arithmetic
C29 | proved | after_any_history order_independent nothing_lost lookup_exact groups_exact given_exact composites_wrong_shape touching_cell_meets | All histories of collective requests on any number of ranks: exact set of cells, one collection per cell with exact contents, normals and lookup maps; which geometries are given for a cell; boundary groups.
C33 | partial | find_cells_exact examined_exact examined_collected_partial outside_not_collected step_examined | For all particle sets and all orders of the atomic operations. The full claim is false for a particle whose previous position is outside of the grid (outside_not_collected); proved for previous positions in the grid.
C32 | proved | find_intersections_nearest get_intersections_exact crossing_is_hit | 2D and 3D, all candidate lists, particles and passes; closer than the greatest REAL; Newton's method and line_segment_intersection_2d are functions given by Tests
C34 | partial | lookup_exact candidate_listed_partial upper_bound_missed mapperArrays_exact gridCounts_spec scaling_ok | For all boxes the lists of all grid cells are exact. A point that lies on the upper bound of a box and on the lower bound of its grid cell is not given that box (upper_bound_missed); boxes of zero width are never listed.
C35 | partial | device_index_partial device_reads_host_cell inside_fits far_position_undefined | Proved for all positions whose scaled value fits in int, which includes all positions in the mesh; false for positions farther away (undefined conversion).
C36 | proved | newton_inverse_sound accepted_sound accepted_final_sound rejected_final accepted_exact failure_means_no_iterate startGrid_covers | For all maps, measures, starting points and iteration limits: an accepted reference position is one whose residual was measured within tolerance; a failed inversion means no iterate met it.
C37 | partial | residual_norm_2d_partial residual_norm_3d_partial residual_bounds_distance negative_jacobian_negative negative_measure_accepts scalingDir_pos | A non-negative norm for a positive average Jacobian; false for a negative average Jacobian, since the scaling is taken without absolute value: then any iterate is accepted.
C55 | proved | map2D_correct map3D_correct mapped_untouched position_untouched kernel_sound kernel_first_accepting host_sound host_complete other_cells_checked | All particle sets, cells and stages that assign only accepted cells; the device and host stages are shown to be such stages. Observation: the final 3D check is over all cells.
C38 | proved | newton_f_exact newton_step_exact newton_step_exact_quad map_of_vertex map_of_reference weights_sum jacobian_exists | All vertices and reference points (pyramid: off the plane of its apex, where the generated code divides by zero): generated residual is X(xi)-P for the shape-function map and the generated step is the Newton step with its true Jacobian. The embedded quad is in C41.
C39 | proved | one_step_exact one_step_exact_quad tet_affine affine_map inverse_of_one_step affine_point_accepted affine_point_accepted_pyr pyr_apex_accepted | All affine elements and positions: one step from any start reaches the exact inverse, and the mapping accepts it.
C40 | proved | regular_2d regular_3d regular_3d_exact xi2_iff xi3_iff host_device_agree vertices_2d vertices_3d excess_le tolerance_2d tolerance_3d | All non-degenerate affine elements, points, tolerances: points of the element are accepted, accepted points are in the element enlarged by a fixed multiple of the tolerances, and the stored position maps back exactly (exact arithmetic; degenerate elements give NaN which the 3D test accepts, outside the hypotheses).
C41 | proved | tri_initial_exact tri_initial_projects tri_initial_unique tri_point_accepted tri_accepted_sound quad_residual_exact quad_surface quad_step_exact plane_normal_exists quad_det_pos quad_parallelogram_one_step quad_accepted_sound | All non-degenerate triangles and quadrilaterals in 3D.
C42 | proved | linear_box_contains get_bounding_box_contains box_contains box_of_samples box_tight pad_enlarges linear_multi_affine reference_covered impl_maps settings_valid samples_on_boundary corner_mem | Elements whose map is affine in each collapsed coordinate are contained for every order of the atomics and every accepted setting; curved elements are only sampled (box_of_samples states exactly what holds). get_next_multiple is external (rounds up).
C52 | proved | parse_iff nameValue_unique | For all strings shorter than npos.
C53 | partial | parameters_spec first_text queries_agree load_int load_size_partial load_size_absent load_size_negative info_spec get_info_partial get_info_fails get_info_not_case_insensitive | get_info is not case-insensitive (searches the unconverted name: proved for all documents that no name with a lower-case letter is ever found); loading size_t goes through int, so -1 becomes 2^64-1. Everything else is proved in full.
C54 | partial | read_particles_spec regions_spec conditions_spec duplicate_rejected reactions_spec undeclared_rejected species_spec entries_spec stoi_iff split_spec all_species_unreachable only_first_species read_particles_accepted fromFirst_iff split_iff pValueOk_iff conditions_accepted regions_accepted entries_accepted functions_accepted species_accepted reactions_accepted entry_domains entry_vars entry_evars first_iff later_sections_ignored later_info_ignored boundaries_kept | The clause 'all species when no SPECIES attribute is given' is false of the code (all_species_unreachable), as is the use of lists of species in one condition (only_first_species). The rest is proved. XML parsing and the expression interpreter are external.
C56 | proved | ring_spec ring_all_others ring_completes ring_terminates sources_perm | MPI semantics is the one of Model/Mpi.lean (external); the Allreduce is taken as the maximum.
C57 | proved | halos2d_spec halos2d_cover halos2d_completes halos2d_terminates cells_split neighbourRanks_spec neighbours | MPI semantics is the one of Model/Mpi.lean (external). Exact arithmetic. Every claimed cell has an owner which all of the ranks agree on (MeshHierarchy, external); the sizes of the buffers fit in an int.
C58 | proved | interface_spec interface_cover interface_completes interface_terminates offset_limits | 2D meshes. MPI semantics is the one of Model/Mpi.lean (external). Exact arithmetic; the bounding box is a function of the geometry; every cell met by an element has an owner all of the ranks agree on; sizes of buffers and the number of cells fit in an int.
C59 | proved | accepted_inside quad_point_accepted from_collapsed_in | Straight-sided quadrilaterals, hexahedra, prisms, pyramids and tetrahedra (triangles and the regular mapping are C40). At the apex of a pyramid (reference position with third coordinate 1) only the first half (the reference position is in the enlarged reference element) is stated. Exact arithmetic.
C60 | proved | halos3d_spec halos3d_cover halos3d_completes halos3d_terminates neighbours3d neighbourRanks3d_spec cells_split3 | MPI semantics is the one of Model/Mpi.lean (external). Exact arithmetic. Every claimed cell has an owner which all of the ranks agree on (MeshHierarchy, external); elements are well formed with their faces in the mesh of the rank; the sizes of the buffers fit in an int.
C61 | proved | interface3_spec interface3_cover interface3_completes interface3_terminates offset_limits3 | MPI semantics is the one of Model/Mpi.lean (external). Exact arithmetic. Owners, grid and sizes of buffers as for C60; the number of cells is an int. Offsets larger than the mesh fail (offset_limits3).
C62 | proved | expint_positive rate_formula rate_positive sol_ionised dr_ionised finite_iff weight_range negative_density_grows exhausted_iff sol_momentum_energy expint_formula removed_id | Exact arithmetic (double as reals). Weights stay in [0, old] for a non-negative plasma density; for a negative density (field undershoot) negative_density_grows is the finding.
C63 | proved | steps_cover loop_performs integrateSOL_eq integrateDR_eq steps_equal fluid_step_SOL fluid_step_DR fluid_step_added fewer_than_lines_adds_none run_SOL | Exact arithmetic (double as reals; rounding may add one tiny last sub step). Finding: with fewer particles than source lines the SimpleSOL system never creates a particle.
C64 | partial | sol_step sol_history sol_error_zero_partial dr_step dr_history dr_error_zero_partial sol_gain_is_last dr_gain_is_last dr_substeps_lose_mass sol_runs dr_runs dr_moves sol_moves | Proved for one particle sub step per fluid step. False for more: sol_gain_is_last / dr_gain_is_last (the fluid only sees the last sub step) and dr_substeps_lose_mass (every fluid step destroys mass in a uniform plasma). The projection and the fluid solver (external) are assumed to preserve the integral of the deposits.
C65 | proved | setup_number setup_weight setup_charge charge_uninitialised no_particles_not_finite coupling_volume coupling_exact neutral field_memoryless neutral_bound coefficients_overwritten projection_total | Exact arithmetic. The transforms, the Poisson solver and the quadrature of Nektar++ are arbitrary functions (external); neutral needs a space which represents constants, neutral_bound does not. Findings: uninitialised charge density, division by zero without particles, coefficients of the forcing overwritten.
C66 | proved | step_eq reversible stormer momentum_conserved first_step_free start_not_reversible verlet_iff integrator_check_vacuous integrator_choice | Exact arithmetic; sides of the domain at least one (C27). Findings: the first step ignores the initial field (first_step_free, start_not_reversible); the assertion on the integrator type is vacuous.
C67 | partial | mean_spec fieldEnergy_spec fieldEnergy_shift fieldEnergy_nonneg potentialEnergy_spec potentialEnergy_shift kineticEnergy_partial kineticEnergy_ignores_mass samplePoints_spec samplePoints_inside positions_in_domain streams_in_domain square_partial square_outside square_onto streams_band | The kinetic energy is proved for particles of equal mass; kineticEnergy_ignores_mass is the counterexample for others. The square of distribution 0 is proved for domains starting at zero; square_outside is the counterexample.
C68 | partial | total_wins per_cell undefined_iff distribution_free output_iff output_count file_contents no_file evenDecomp_contract dr_ids dr_unique charged_ids sol_count sol_unique_iff sol_not_unique | Identities are unique for the DriftReduced and the electrostatic solver; for SimpleSOL sol_unique_iff gives the exact condition and sol_not_unique the counterexample. undefined_iff: the number of particles is not assigned if neither parameter is positive. get_decomp_1d of NESO-Particles is a contract.
C69 | partial | start_spec doSolve_spec timeInit_iff reads_own_iff blob_reads_own rogersRicci_reads_own hw_reads_own_partial lapd_reads_own_partial hw_swapped hw_out_of_bounds hw_accepts rogersRicci_no_particles sol_reads_own_partial sol_swapped sources_spec missing_source_throws hw_sources sol_session | Proved for Blob2D and Rogers-Ricci; for Hasegawa-Wakatani, LAPD and SimpleSOL exactly for sessions which list the integrated fields first (reads_own_iff), other accepted sessions read wrong fields (hw_swapped, sol_swapped) or out of bounds (hw_out_of_bounds). Findings: missing source fields stop the run; Rogers-Ricci cannot run with particles.
C70 | partial | bmag_sq bmag_eq_zero exb_3d exb_2d drift_properties loadB_iff zero_field bUnit_spec advVel_spec parVel_spec pdVel_partial pdVel_negative normal_flux flux_spec exb_potential | Exact arithmetic. The polarisation drift velocity is right for positive Bxy only (pdVel_negative); with two space dimensions the magnetic field is written out of bounds (loadB_iff); zero magnetic field is accepted although the drift is not finite (zero_field).
C71 | partial | drift_along_contours energy_rate enstrophy_rate hw2_energy hw2_energy_partial hw2_enstrophy hw2_stale hw3_energy hw3_enstrophy gammaA_nonneg record_spec line_consistent line_parallel hw2_stale_grows lapd_momentum lapd_friction lapd_log_iff lapd_density rr_source rr_source_scale rr_radius rr_sheath rr_floating lapd_forces | Exact arithmetic, operators of Nektar++ under the conditions of `Consistent` (met by `line`). Findings: the 2D right hand side uses the density of the start of the step instead of that of the stage (hw2_stale, hw2_stale_grows), so the 2D energy balance is proved for stages at which both agree; the recorder ignores particle sources (hw2_energy, hw3_energy give the exact extra term); recording step zero divides by zero (record_spec).
C72 | partial | bHat_unit tensor_spec tensor_eigen tensor_pos tensor_symmetries coeffs_spec collection_spec backward_euler stable conserves operator_dissipates two_solves two_dissipates couple_partial sender_matrixFree receiver_first default_tensor | Exact arithmetic, HelmSolve as contract `Solves`. The coupling is proved for senders without matrix-free collections; with them the sender writes out of bounds (sender_matrixFree).
C73 | partial | drift_spec drift_incompressible flux_consistent flux_upstream flux_dissipative orientation_partial orientation_zero sheath_cancels sheath_sign charge_conserved potential_spec default_parameters | Exact arithmetic. Orientation independence is proved where the normal velocity is not zero; orientation_zero gives the exact condition otherwise (it fails if the density jumps).
C74 | proved | flux_spec flux_symm flux_rotation coord_spec sources_symm sources_direction gaussian_total total_width_free mask_zero balance total_values momentum_ratio default_sources | Exact arithmetic; equation of state and advection operator of Nektar++ are arbitrary. Which fields are read is property C69.
C75 | proved | global_box_hull same_for_every_partition hierarchy_covers coarse_cells constructs_iff point_in_cell point_in_claimed_cell | Exact arithmetic, coordinates below half of the largest double; MPI_Allreduce and the constructor of MeshHierarchy by contract.
C76 | partial | matchingOrder_least offset_added order_least order_mono no_subdivision fine_cells_le order_too_small hierarchy_order hierarchy_not_too_fine does_not_match | Finding: the natural logarithm is used instead of the logarithm to base two, so the claim that the offset 0 matches the number of elements is false (does_not_match: too coarse by any factor). Proved: what the order is, that it is monotonic, and that it is never too fine.
C77 | proved | point_sound point_found_iff point_of_convex | Exact arithmetic; ContainsPoint of Nektar++ is arbitrary in point_sound, and true for vertices in point_found_iff.
C78 | partial | regions_disjoint rhs_is_weighted_sum rhs_is_weighted_sum_partial rhs_not_finite host_rhs_is_weighted_sum host_equals_device_partial host_stops_with_extra_coordinates project_fields rhs_pairing projected_field_weak_form missing_geometry | project_fields characterises all calls: with the collapsed coordinates that the code computes (C07), and the finding that the call stops iff a selected particle is exactly at a collapsed end (rhs_not_finite). Missing for particles within the tolerance of a collapsed edge or vertex: the coordinates are not those of the position. Findings: the host implementation stops for two dimensional meshes with a third reference coordinate; a cell without expansion silently uses expansion 0 on the device. Solver of the mass matrix by contract.
C79 | partial | evaluation_stores_values evaluation_stores_values_partial evaluation_adjoint_to_projection dot_eq_valueAt | evaluation_stores_values covers all positions, with the collapsed coordinates that the code computes (C07), and the finding that the value is not a number exactly at a collapsed end; evaluation_adjoint_to_projection is proved in full. Missing: within the tolerance of a collapsed edge or vertex the coordinates are not those of the position.
C80 | partial | constructor_lengths constructor_exact constructor_checks evaluation_stores_values isValueAt_unique isValueAt_collapsed derivative_stores_gradient_partial | evaluation_stores_values covers all positions with the collapsed coordinates of C07; missing for derivative_stores_gradient_partial: positions within the tolerance of a collapsed edge or vertex. PhysDeriv of Nektar++ and matrix_transpose of NESO-Particles by contract.
C81 | proved | write_data_succeeds write_data_checks residual_exact step_exact newton_on_polynomial_element inverse_sound | The values and derivatives at the quadrature points (GetXmap, PhysDeriv, BwdTrans of Nektar++) by contract; NaN and infinities are one value, rounding is not modelled.
C82 | proved | host_inverse host_inverse_curved x_curved x_linear inverse_of_x_affine inverse_of_x_affine_pyr | x_linear is for hexahedra, prisms and tetrahedra; for pyramids see C38 and C39.
C83 | partial | vertices_are_corners edges_exact ids_distinct corners cornersOf_unique faces_exact_partial wrong_faces facesClaim_false slow_first_direction edge_vertices_shared | Vertices, edges, ids and the faces 0, 2, 3, 5 are proved; false for the faces 1 and 4 (map_face_to_vertices has two vertices of face 1 exchanged and a wrong vertex in face 4), and the first direction is slow on every face although the comment says x fastest.
C84 | proved | mapper_correct inRange_of_bounds map2D_complete map3D_complete region_with_room every_particle_found_2d every_particle_found_3d region2_closed region3_closed regular_mesh_2d regular_mesh_3d | End-to-end: constructors, lookup, kernels and the order of the calls. every_particle_found_* hold for any mix of mappers whose tests accept the closed elements; regular_mesh_* instantiate them for the regular mappers. Exact arithmetic.
C85 | proved | cell_element inCell_floor regular_found_2d regular_found_3d known_spec known3_spec distributed_2d distributed_3d | End-to-end composition of C18, C26, C34, C40, C55, C57, C60, C84. The owner of a cell is any function of the cell; a position on the upper boundary of the domain needs its cell to meet the interior of the domain. Meshes without deformed elements, exact arithmetic.
C86 | proved | vertex_modes constant_modes valueAt_vertexField exists_vertexField evaluate_constant evaluate_vertex_field total_charge moments element_charge projection_conserves | Composition of C78/C79 with the partition of unity of the vertex modes, for all shapes and orders. The solver of the mass matrix is a contract; the space of a continuous field is assumed to contain the constant (or the coordinate).
C87 | partial | trajectory energy_file particle_writes field_writes line_writes printed_lines callback_calls verlet_trajectory diagnostics_consistent_partial boris_diagnostics_lag diagnostics_consistent_fails boris_step boris_kinetic_energy printed_energies_current_fails bernstein_requires_all bernstein_b energy_file_opened two_stream_b | The clause that the recorded potential is that of the recorded particles holds for velocity Verlet (diagnostics_consistent_partial) and is false for the Boris integrator (diagnostics_consistent_fails): the potential is that of the positions before the move. Printed energies are those computed last, not the current ones (printed_energies_current_fails).
C88 | partial | read_back_partial property_of_last_push cell_types edge_without_two owned owned_three halo properties_of_objects_fails cell_types_3d | read_back_partial needs that all objects are two dimensional or none is; for mixed collections the statement is false of the code (properties_of_objects_fails): an object of another dimension adds a property without a cell, so the later cells carry the properties of other objects.
C89 | partial | recorded_lines error_zero_iff other_ranks same_collectives disabled initial_once initial_of_disabled works_without_particles_fails lines_determined_fails | All clauses are proved but the last sentence, which is false of the code: defining mass_recording_step in a DriftReduced simulation without particles dereferences a null pointer (works_without_particles_fails), and compute before compute_initial_fluid_mass writes a value that depends on an uninitialised member (lines_determined_fails; the solvers never do that, recorded_lines). A disabled DriftReduced recorder does not compute the initial mass (initial_of_disabled).
C90 | proved | transfer_correct steps_correct ranks_not_observable parallel_2d parallel_3d | The composition of C03, C27, C55, C57, C60, C84 and C85. hybrid_move and cell_move are contracts of NESO-Particles. Exact arithmetic; positions of the domain have to be within 2^31 cells of the lookup of every rank. C90_Example shows a mesh on two ranks with all hypotheses.
C91 | proved | step_correct simulation energies_file kinetic_energy potential_energy labels_kept projected_charge ranks_not_observable timeStep_eq same_integrators pic_2d verlet_ok boris_ok verlet_keeps boris_keeps | The composition of C87, C90 and the integrators of C13-C16 (same_integrators: the kernels are those of Model/Boris). Basis functions, potential and solve are parameters. ranks_not_observable needs functions that are single-valued on shared edges (a gradient of a C0 space is not, and then a particle exactly on an edge can get the field of either element). C91_Mesh: meshes of C85 and C90 meet the hypotheses, and an example on one and two ranks with all hypotheses.
C92 | proved | evaluators_agree interpolation_consistent interpolation_reproduces host_value host_derivative linear_value linear_functions_exact isValueAt_of_agrees pyramid_evaluators_differ | Composition of C79, C80 and C86 with the host functions. Contracts of Nektar++ (transforms, GetExpIndex, GetLocCoords, StdPhysEvaluate, PhysDeriv, GetCoords) are in Spec/HostField.lean. The proof that enough nodes represent the modes is Lemmas/ModalDegree.lean (degrees of the modified basis in collapsed coordinates).
C93 | proved | call_spec history_inside speed_kept time_rewound config_not_passed intersection_uses_config contained_tol_default newton_tol_ignored | The composition of C29, C32 and C33. BoundaryReflection (NESO-Particles) by contract (ReflectOk). The tests of the kernels have to find a wall that is met (WallsOk.complete; for planes C30, C31). Finding (config_not_passed, newton_tol_ignored): the configuration given to the reflection is documented to be passed to the intersection routines but is not.
C94 | partial | mappers_3d partition_3d meant_for_one mappers_2d_partial partition_2d newton_settings_partial grid_size_forced grid_size_max_ignored grid_size_max_not_respected deformed_triangle_unused all_elements_2d_fails unaccepted_particle_fatal unknown_type_refused other_dimension_refused | Full in 3D except one setting. False of the code: the upper end of the grid size is read from the key grid_size_min, so grid_size_max is ignored and setting grid_size_min fixes the size (grid_size_max_ignored, grid_size_max_not_respected, grid_size_forced); deformed triangles are given to no 2D mapper (all_elements_2d_fails), and a particle only in such an element stops the program (unaccepted_particle_fatal).
C95 | partial | wrap_in_domain_partial wrap_error periods_bounds periods_upper wrap_exact inside_particle_moved upper_end_reached upper_end_reached_by_default nearest_even_rounds_up modes_are_roundings default_mode_exists rounds_up_exists | In the closed domain for every rounding mode if the extent is at least one or the particle is not below the origin (for smaller extents the exact kernel already fails, C27). False of the code: a particle that is already in the domain should not be moved, but for any rounding mode there is a domain and a particle strictly inside that is moved by more than a quarter (inside_particle_moved); and the upper end itself, outside of the half open domain, can be reached (upper_end_reached).
C96 | proved | sub_steps sub_steps_unique near_end loop_stuck | Condition: the particle time step is at least four units of rounding of the end time; loop_stuck shows that without a condition of this kind the loop does not end.
C97 | proved | lookup_rounded cell_bounds cellOf_spec cellOf_mono overlapF_pos gridCountsF_spec root_ok double_scale square_input large_coordinates_stop empty_grid_refused | Under the stated conditions on sizes. large_coordinates_stop shows that the condition on the coordinates is needed: with coordinates of 2^53 the constructor stops at an assertion. Points within 32 units of rounding of the bounding box of their element may be missed, as on grid lines in exact arithmetic (C34).
C98 | proved | construct_iff construct_single construct_none same_as_alone project_each same_expansions different_modes_refused surface_fields_fail | For fields whose expansions have a basis for each coordinate. surface_fields_fail shows that on surface meshes in three dimensions the comparison reads a basis that does not exist.
C99 | partial | solver_exit_status stops_at_first_failure runPhases_spec electrostatic_exit_status_partial thrown_string_is_success silent_failure solver_success_ran electrostatic_success_ran | The solver programs are covered in full. Electrostatic2D3V returns zero after a thrown string, so the claim is false of it; electrostatic_exit_status_partial says exactly when it returns zero.
C100 | proved | exact_at_point_1d exact_at_point_2d exact_at_point_3d error_1d error_2d error_3d polynomial_1d interpolant_polynomial weights_in_range overflow_next_to_point | Overflow is not modelled; weights_in_range shows that the weights stay in the range. overflow_next_to_point is the finding: within 2^-1074 of a quadrature point at zero a quotient exceeds the range of double.
C101 | partial | identities total_number in_domain_partial key0_outside species total_charge positions_independent_of_ranks key0_independent_of_ranks velocities_depend_on_ranks succeeds rejects maxwellian_can_throw maxwellian_succeeds ring_speed | in_domain_partial has the conditions on the box for the keys 0 and 1, without which the claim is false (key0_outside). Independence of the ranks is proved for the positions of the keys 0, 2, 3, 5 with Sobol numbers and the same seed on all ranks, and for the whole state for key 0; it is false for the velocities (velocities_depend_on_ranks). The random engines are parameters with their documented ranges.
C102 | partial | units_consistent boltzmann_agree ion_mass weight_total weight_cases region_volume_DR region_volume_SOL region_density_partial default_sources number_of_lines line_shape shifts_balance shifts_distinct rotate_isometry walls_keep_sources_partial rotated_removed lines_outside centreDR_partial centreDR_offset | The walls test the first coordinate also in rotated domains: walls_keep_sources_partial is for theta = 0 and sources between the walls, rotated_removed and lines_outside show that both conditions are needed. centreDR_partial: the source is in the middle exactly if the domain starts at zero. region_density_partial: with two source regions (the default) the density in them is half of the one in the session, since the volume of one region is used. erf_inv is any odd function increasing on (-1,1).
C103 | proved | global_size global_size_fails padding basis_launch launches_are_work_items regular_launch scratch_disjoint block_regions interleaving_has_no_effect schedules_agree | launches_are_work_items connects the launches with the lists of work items with which C78 and C79 describe projection and evaluation. The steps of a work item are any functions of its registers and its part of the local memory; writes to the particle and atomics are C78/C79.
C104 | partial | direct frequencies one_frequency_ignored other_frequency_ignored fails_iff alpha_physical alpha_pos_iff larmor_eq kappa_value kappa_partial kappa_default_field | kappa_value: kappa is sqrt(B) times the Larmor radius over the scale length, so kappa_partial: it is the documented value exactly for B = 1; kappa_default_field: not for the default field. Temperatures in electron volts, as in the code.
C105 | partial | weight_nonneg weight_nonincreasing marked_iff marked_partial zero_marked balance balance_steps sources_nonneg balance_unbounded unmarked_zero exact_call | marked_partial: without the hypothesis on the compiler only one direction holds, unmarked_zero shows a particle that loses all its weight unmarked if only the sum of the test is fused (zero_marked: it is marked by the next call). balance_unbounded: the bound must grow with the number of calls, since a weight change below the rounding unit leaves the weight but is given to the plasma. exact_call: without rounding the model is the one of C62.
C106 | proved | step_error position_error speed_step speed_steps speed_drift neutral_unchanged | Overflow is not modelled; Sizes says that the scaled field components are zero or at least 2^-1000 and at most 2^400 and that the speed is at least 2^-900.
C107 | partial | quad_found triangle_found_partial accepted triangle_lost program_stops | Near the collapsed vertex of triangles the claim is false: triangle_lost gives a position strictly inside a triangle which neither that triangle nor its neighbour accepts with the default tolerances and rounding to nearest, and program_stops shows that the program then stops. Overflow is not modelled.
C108 | proved | points_distributed particles_at_points line_2d | parallel_advection_initialisation is modelled by the transfer of hybrid_move; get_decomp_1d is any partition of the indices into intervals; add_particles_local puts particles in the cell of their cell id.
C109 | proved | components_fit line_file line_values solver_files line_box derivative_mean_shift | derivative_mean_shift is a finding: with derivative and mean_shift together (not used by the solvers) only the first derivative is shifted, and by the mean of the field. FieldEvaluate, FieldMean and H5Part by contract (C67, C78-C80).
C110 | proved | integrate_edges substep_correct integrate_correct project_correct pre_integrate_correct init_good mass_balance projected_mass mass_conserved serial time_steps_correct simulation sol_2d | Exact arithmetic. Fields and basis functions are functions of the element and reference position (C78-C80). One sub step for the mass: with more it is not conserved (finding C64).
C111 | proved | integrate_edges walls_rejected addParticles_correct new_ids new_drawn initial forwardEuler_correct ionise_correct substep_correct integrate_correct pre_integrate_correct time_steps_correct ids_unique mass_conserved drift_reduced_3d | Exact arithmetic. Density and basis functions are functions of the element and reference position (C78-C80). parallel_advection_* are external: arbitrary positions, restored at the end. One sub step for the mass: with more it is not conserved (finding C64).
C112 | partial | step_across_axis_noticed axis_wall_not_passed face_across_axis face_not_passed clear_step_noticed wall_not_passed_partial normal_bounded face_bounded any_face_not_passed_partial reported_near reported_on_wall wall_at_angle_passed_unnoticed not_all_walls_noticed | False of the code for walls at an angle: wall_at_angle_passed_unnoticed gives a rectangle in the plane 3x+4y=0 and a trajectory of doubles through it which no step reports. Partial: such walls, for trajectories away from the plane. Overflow is not modelled.
C113 | partial | owned_cell_examined setup_exact reached_examined walls_of_all_ranks spread_does_not_matter from_the_wall_not_reported | Proved for steps that are inside of the box of an element before they reach the wall there. False of the code for a particle that starts on an upper boundary which is also a cell boundary: from_the_wall_not_reported. Element and face shapes are boxes here as in the code's claims; HitsGeom is the code's own test (C31, C112 relate it to geometry). MPI and the container are contracts.
C114 | partial | evaluation_error projection_error orders_differ_little error_size computed_exists order_matters not_the_same_in_every_order | The error bounds are proved in full for given errors of the one dimensional basis values. That results are the same in every order is false of the code: order_matters. Not included: the rounding in the recurrences that compute the one dimensional values (they enter as the bound delta), overflow, and positions at the collapsed end (C13).
C115 | proved | tables_error host_evaluate_error mod_A_error stored_computed stored_exists quad_hex_evaluation_error quad_hex_projection_error accurate_size | The bounds grow like (alpha+3)^n because the recursion is bounded step by step; the actual errors are smaller. Triangles, prisms, pyramids and tetrahedra, with mod_B, mod_C, mod_PyrC and the collapsed coordinates in doubles, are C116.
C116 | partial | collapse_error inside_near inside_position basis_error stored_computed stored_exists evaluation_error projection_error modB_not_finite tet_not_finite | For five of the six shapes the claim is proved as stated. For tetrahedra tet_not_finite shows that it is false, and inside_position needs the distance 2^-46 from the collapsed edge.
C117 | proved | constant_evaluated charge_deposited total_charge | Composition of the error bounds of C116 with the exact partition of unity of C86. The bounds grow with the number of modes as in C116. The overflow of doubles is not modelled.
C118 | proved | accepted_inside_double accepted_final_inside_double | The floating point version of C59. The scalings of the residual are the stored doubles; how they are computed is not part of this claim (exactly: C37). Overflow of finite doubles is not modelled; the position of the particle is finite.
C119 | partial | nan_position_bound nan_accepted all_nan_rejected_partial accepted_directions_partial nan_bound_regular_3d nan_contained_2d nan_rejected_regular_2d_partial regular_3d_of_numbers | False of the code: sycl::fmax returns the other argument if one is NaN, so the measure of the residual ignores the NaN direction. A quadrilateral accepts a particle at (NaN, y) with reference position (0, 0) if y is within the tolerance of the y coordinate of its centre (nan_accepted, nan_position_bound). Proved: a particle that is NaN in all directions is rejected, and an accepted particle satisfies the tolerance in all directions in which the residual is a number. Regular elements: the test in three dimensions and contains_point_2d on the host accept every NaN position, with a NaN reference position, because the distance is computed with comparisons that are false (nan_bound_regular_3d, nan_contained_2d); the device test in two dimensions rejects all of them. Hexahedra under Newton use a macro of NESO-Particles for the maximum and are not covered; whether the element is a candidate depends on the conversion of NaN to int, which is undefined in C++.
C120 | partial | local_coordinates hex_found found_partial accepted_computed accepted runs hex_missed | False of the code for the default tolerance 0 (hex_missed): of two boxes that share a face neither accepts a position (three doubles) strictly inside the first, for round to nearest, however products are fused and for all tolerances below 2^-52; the host mapper, which is tried last, is not covered here. Proved: all hexahedra find all their points if the tolerance is at least 500 relative errors; the other shapes find points away from the singular edge or vertex (found_partial; missing: points near it, where already triangles fail, C107); what is stored and accepted for all shapes; a run always exists. sycl::dot and sycl::cross are taken to be the textbook formulas; overflow is not modelled.
C121 | proved | line_normal face_normal computed_unit reflection reflections | The reflection itself is done by NESO-Particles and is taken to be exact here, as in its contract (Spec/Reflection.lean); what is proved is the effect of the rounding in the normals. Overflow is not modelled.
C122 | partial | contract_met solved documented_2d documented_3d_partial default_3d_iff wave_default default_3d_wrong lapd_3d drift_plane | True in two dimensions, for the drift plane and in three dimensions with d22 = 0 in the session. Missing, because it is false: in three dimensions d22 defaults to one and is not documented, so a session without it solves the full Laplacian instead of equation (3) of examples/DriftReduced/README.md; default_3d_wrong: not the documented equation for any wave that varies along the field; wave_default: the potential is too small by (qx^2+qy^2)/(qx^2+qy^2+qz^2). HelmSolve is a contract (contract_met: it can be met). Exact arithmetic.
C123 | proved | kinetic_error kinetic_nonneg potential_error mass_error mass_runs recorded_error conserving light_particles_lost order_matters | The bound grows with the number of additions that follow one another, and it must: light_particles_lost gives any number of particles whose mass is lost in one order, order_matters two orders with different results. The potential at the particles, its mean and the integral of the density are taken as computed (C100, C116 bound the evaluation). Overflow is not modelled.
C124 | partial | line_between line_in_domain_partial line_error line_first line_monotone inclined_line_leaves probe_in_domain | Proved in full for domains that are boxes, with ends anywhere in them or on their boundary. Missing, because it is false: domains with inclined boundaries; inclined_line_leaves gives a line along such a boundary, one of whose points is outside for every rounding mode. The distance of the ends is zero or above 2^-900; overflow is not modelled.
C125 | proved | verlet_is_kernel run_error trajectory_reverse reversal_error free_velocity | The fields at the particle are taken as computed (their error is that of the evaluation, C115 and others). The boundary condition after a move is C95 and not part of these steps. Overflow is not modelled.
C126 | proved | bounded energy_bounded harmonic unbounded | About states whose stored field is that of the positions, which is every state after the first step (the first step ignores the field, a finding of C66). Exact arithmetic; rounding over n steps is C125. The field is a given function of the positions that is linear at the particle in question.
C127 | proved | velocity gyration drifting | Exact arithmetic (rounding: C106). Positions are those before the periodic boundary condition, which changes them by periods (C27).
C128 | partial | same_positions_partial boris_bounded first_step start_differs | same_positions_partial: the trajectories are the same if Boris is started with the velocities of half a step earlier. Missing, because it is false of the programs: both integrators are started with the same velocities, and velocity Verlet with a stored field of zero; in the first step Verlet moves a particle without the field and Boris with twice the displacement dt^2/2 a of the second order formula (first_step), so from the same initial state the positions differ (start_differs). Exact arithmetic; masses are not zero.
C129 | partial | uniform_partial neutral start_lags | Proved from states whose stored field is that of the positions (every state after the first step). False of the programs from their start: the stored field is zero there, so the velocity lags by a dt / 2 for ever and the position by a dt / 2 times the time (start_lags, for all initial states, fields and numbers of steps). Exact arithmetic.
C130 | proved | program volume_preserved | Exact arithmetic. program: n steps of the modelled program from the state of a point of phase space give the state of the point to which the flow takes it. Positions in phase space are not reduced to the periodic domain; sides of the domain of at least one (C27); states whose stored field is that of the positions (every state after the first step).
C131 | proved | program volume_preserved | Exact arithmetic. program: n time steps of the main loop keep the particles at the points to which the flow takes the initial point. Positions in phase space are not reduced to the periodic domain; sides of the domain of at least one (C27); masses are not zero.
