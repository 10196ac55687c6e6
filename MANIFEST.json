{
 "claims": [
  {
   "property": "C01",
   "status": "proved",
   "theorems": [
    "Verif.Props.C01.overlap_symmetric",
    "Verif.Props.C01.overlap_bounds",
    "Verif.Props.C01.overlap_pos_iff",
    "Verif.Props.C01.overlap_eq_volume"
   ],
   "note": ""
  },
  {
   "property": "C02",
   "status": "proved",
   "theorems": [
    "Verif.Props.C02.hull_is_smallest",
    "Verif.Props.C02.intersects_iff",
    "Verif.Props.C02.cell_box_exact"
   ],
   "note": ""
  },
  {
   "property": "C03",
   "status": "proved",
   "theorems": [
    "Verif.Props.C03.cell_id_round_trip",
    "Verif.Props.C03.cell_id_injective",
    "Verif.Props.C03.gap_id_reads_uninitialised",
    "Verif.Props.C03.empty_rank_overflows"
   ],
   "note": "round trip and bounds for every non-empty id set; the last two theorems are findings outside the claim (ids in gaps, rank without cells)"
  },
  {
   "property": "C04",
   "status": "proved",
   "theorems": [
    "Verif.Props.C04.cell_to_exp_consistent",
    "Verif.Props.C04.cell_to_exp_missing"
   ],
   "note": ""
  },
  {
   "property": "C05",
   "status": "proved",
   "theorems": [
    "Verif.Props.C05.store_behaves_as_map",
    "Verif.Props.C05.default_zero",
    "Verif.Props.C05.set_frame",
    "Verif.Props.C05.mk1_holds",
    "Verif.Props.C05.mk2_second_wins"
   ],
   "note": ""
  },
  {
   "property": "C06",
   "status": "proved",
   "theorems": [
    "Verif.Props.C06.linear_index_bijective",
    "Verif.Props.C06.cell_contains_point",
    "Verif.Props.C06.cell_in_range",
    "Verif.Props.C06.cells_tile"
   ],
   "note": "exact arithmetic"
  },
  {
   "property": "C17",
   "status": "proved",
   "theorems": [
    "Verif.Props.C17.pad_least",
    "Verif.Props.C17.global_size_least",
    "Verif.Props.C17.global_size_zero"
   ],
   "note": ""
  },
  {
   "property": "C43",
   "status": "proved",
   "theorems": [
    "Verif.Props.C43.field_index",
    "Verif.Props.C43.field_index_duplicate"
   ],
   "note": ""
  },
  {
   "property": "C44",
   "status": "partial",
   "theorems": [
    "Verif.Props.C44.find_owning_geom_partial",
    "Verif.Props.C44.find_owning_geom_sound",
    "Verif.Props.C44.find_owning_geom_misses_owner"
   ],
   "note": "the full claim is false of the code: find_owning_geom_misses_owner is a counterexample"
  },
  {
   "property": "C45",
   "status": "proved",
   "theorems": [
    "Verif.Props.C45.uniform_within_elements_exact",
    "Verif.Props.C45.uniform_within_elements_total",
    "Verif.Props.C45.first_accepted",
    "Verif.Props.C45.given_up_iff"
   ],
   "note": ""
  },
  {
   "property": "C46",
   "status": "proved",
   "theorems": [
    "Verif.Props.C46.line_points_partition",
    "Verif.Props.C46.sampler_partition"
   ],
   "note": ""
  },
  {
   "property": "C47",
   "status": "partial",
   "theorems": [
    "Verif.Props.C47.rsequence_in_extents_partial",
    "Verif.Props.C47.golden_table_ok",
    "Verif.Props.C47.golden_digits",
    "Verif.Props.C47.golden_unique",
    "Verif.Props.C47.rsequence_negative_seed",
    "Verif.Props.C47.rsequence_ndim_limit"
   ],
   "note": "false for negative seeds and for more than ten dimensions (both proved)"
  },
  {
   "property": "C48",
   "status": "partial",
   "theorems": [
    "Verif.Props.C48.steps_hold_their_values_partial",
    "Verif.Props.C48.first_step_kept",
    "Verif.Props.C48.global_first_kept",
    "Verif.Props.C48.default_names",
    "Verif.Props.C48.failure_never_reported",
    "Verif.Props.C48.repeated_step_lost",
    "Verif.Props.C48.outside_step"
   ],
   "note": "error detection is false of the code (proved); step naming and contents proved for all programs with distinct keys within a step (of steps with the same name the first one is kept)"
  },
  {
   "property": "C49",
   "status": "proved",
   "theorems": [
    "Verif.Props.C49.callbacks_once_in_order",
    "Verif.Props.C49.calls_independent_of_effects"
   ],
   "note": ""
  },
  {
   "property": "C50",
   "status": "proved",
   "theorems": [
    "Verif.Props.C50.flatten_round_trip",
    "Verif.Props.C50.residual_formula",
    "Verif.Props.C50.matrix_free_exact",
    "Verif.Props.C50.matrix_free_zero_vector",
    "Verif.Props.C50.array_norm_formula"
   ],
   "note": "exact arithmetic; matrix_free_zero_vector records the division by zero for a zero vector"
  },
  {
   "property": "C51",
   "status": "proved",
   "theorems": [
    "Verif.Props.C51.boris_solves_implicit_equation",
    "Verif.Props.C51.implicit_equation_unique",
    "Verif.Props.C51.boris_conserves_energy",
    "Verif.Props.C51.boris_reversible"
   ],
   "note": "exact arithmetic"
  },
  {
   "property": "C07",
   "status": "proved",
   "theorems": [
    "Verif.Props.C07.local_collapsed_local_3d",
    "Verif.Props.C07.collapsed_local_collapsed_3d",
    "Verif.Props.C07.round_trips_2d",
    "Verif.Props.C07.dispatch_selects_shape"
   ],
   "note": "exact arithmetic"
  },
  {
   "property": "C08",
   "status": "proved",
   "theorems": [
    "Verif.Props.C08.element_has_unit_collapsed_3d",
    "Verif.Props.C08.unit_collapsed_near_element_3d",
    "Verif.Props.C08.element_iff_unit_collapsed_3d",
    "Verif.Props.C08.element_unit_collapsed_2d",
    "Verif.Props.C08.element_round_trip_error"
   ],
   "note": "exact arithmetic"
  },
  {
   "property": "C09",
   "status": "partial",
   "theorems": [
    "Verif.Props.C09.clamp_one",
    "Verif.Props.C09.clamp_two_partial",
    "Verif.Props.C09.clamp_three_partial",
    "Verif.Props.C09.clamp_skips_later_coordinates"
   ],
   "note": "the full claim is false of the code: later coordinates are not clamped (proved)"
  },
  {
   "property": "C10",
   "status": "proved",
   "theorems": [
    "Verif.Props.C10.jacobi_is_jacobi_polynomial",
    "Verif.Props.C10.jacobi_never_divides_by_zero",
    "Verif.Props.C10.tables_give_recursion",
    "Verif.Props.C10.host_evaluate_is_jacobi_polynomial",
    "Verif.Props.C10.host_evaluate_eq_jacobi",
    "Verif.Props.C10.minimum_error_iff"
   ],
   "note": "Exact arithmetic; integer overflow of the int products not modelled."
  },
  {
   "property": "C11",
   "status": "partial",
   "theorems": [
    "Verif.Props.C11.mod_A_is_reference",
    "Verif.Props.C11.mod_B_is_reference_partial",
    "Verif.Props.C11.mod_C_is_reference_partial",
    "Verif.Props.C11.mod_PyrC_is_reference_partial",
    "Verif.Props.C11.mod_B_not_finite_at_one",
    "Verif.Props.C11.mod_C_not_finite_at_one",
    "Verif.Props.C11.mod_PyrC_not_finite_at_one",
    "Verif.Props.C11.mod_B_differs_from_reference"
   ],
   "note": "the full claim is false at z = 1: the powers start with 1/0 (proved); exact for every other point"
  },
  {
   "property": "C12",
   "status": "partial",
   "theorems": [
    "Verif.Props.C12.basis_total_num_modes",
    "Verif.Props.C12.shape_total_num_modes",
    "Verif.Props.C12.tables_cover_kernels",
    "Verif.Props.C12.kernels_in_bounds_partial",
    "Verif.Props.C12.mod_A_single_mode_overruns",
    "Verif.Props.C12.max_n_exact",
    "Verif.Props.C12.max_alpha_exact"
   ],
   "note": "full for two or more modes; mod_A with one mode writes a second slot (proved)"
  },
  {
   "property": "C13",
   "status": "partial",
   "theorems": [
    "Verif.Props.C13.evaluate_is_reference_partial",
    "Verif.Props.C13.evaluate_at_reference_position_partial",
    "Verif.Props.C13.evaluate_all",
    "Verif.Props.C13.eval_modes_is_basis",
    "Verif.Props.C13.evaluate_not_finite_triangle_vertex",
    "Verif.Props.C13.evaluate_not_finite_tet_edge"
   ],
   "note": "exact for two or more modes off the collapsed end; there the value is not finite (proved)"
  },
  {
   "property": "C14",
   "status": "partial",
   "theorems": [
    "Verif.Props.C14.projection_is_transpose_partial",
    "Verif.Props.C14.projection_at_reference_position_partial",
    "Verif.Props.C14.projection_all",
    "Verif.Props.C14.apply_adds_total",
    "Verif.Props.C14.projection_order_independent",
    "Verif.Props.C14.deposit_conserves"
   ],
   "note": "order independence and conservation proved in full; the transpose off the collapsed end, where both sides are not finite (see C13)"
  },
  {
   "property": "C15",
   "status": "proved",
   "theorems": [
    "Verif.Props.C15.evaluate_2d_exact",
    "Verif.Props.C15.evaluate_3d_exact",
    "Verif.Props.C15.evaluate_2d_is_interpolant",
    "Verif.Props.C15.evaluate_3d_is_interpolant",
    "Verif.Props.C15.evaluate_2d_at_node",
    "Verif.Props.C15.evaluate_3d_at_node",
    "Verif.Props.C15.weights_sum_to_one",
    "Verif.Props.C15.dir_0_exact"
   ],
   "note": "exact arithmetic; weights are barycentric weights up to a common factor"
  },
  {
   "property": "C16",
   "status": "proved",
   "theorems": [
    "Verif.Props.C16.block_weights_equal_scalar",
    "Verif.Props.C16.interlaced_template_2d_equals_scalar",
    "Verif.Props.C16.interlaced_2d_equals_scalar",
    "Verif.Props.C16.interlaced_template_3d_equals_scalar",
    "Verif.Props.C16.interlaced_3d_equals_scalar",
    "Verif.Props.C16.dispatch_2d_equals_scalar",
    "Verif.Props.C16.dispatch_3d_equals_scalar",
    "Verif.Props.C16.block_evaluation_equals_scalar"
   ],
   "note": "exact arithmetic on doubles with a non-finite value"
  },
  {
   "property": "C18",
   "status": "proved",
   "theorems": [
    "Verif.Props.C18.unpack_one",
    "Verif.Props.C18.unpack_packRemotes",
    "Verif.Props.C18.unpack_packGeoms"
   ],
   "note": "for every number of geometries, with any bytes following the message"
  },
  {
   "property": "C19",
   "status": "partial",
   "theorems": [
    "Verif.Props.C19.truncated_read_out_of_bounds",
    "Verif.Props.C19.wrong_type_out_of_bounds",
    "Verif.Props.C19.unpack_one_in_bounds_partial",
    "Verif.Props.C19.truncated_never_accepted_partial"
   ],
   "note": "the full claim is false of the code: a set without its last one to four bytes is read out of bounds, and a triangle read as a quadrilateral too (both proved); a single triangle is read within its buffer and no truncated set is accepted"
  },
  {
   "property": "C21",
   "status": "partial",
   "theorems": [
    "Verif.Props.C21.round_trip",
    "Verif.Props.C21.too_large_refused",
    "Verif.Props.C21.too_small_overrun",
    "Verif.Props.C21.wrong_size_refused",
    "Verif.Props.C21.curved_refused"
   ],
   "note": "round trip and exact size are proved in full; the refusal of a too small buffer is false of the code (it is overrun first, proved)"
  },
  {
   "property": "C23",
   "status": "proved",
   "theorems": [
    "Verif.Props.C23.requested_cells_exact",
    "Verif.Props.C23.offset_limits",
    "Verif.Props.C23.wide_stencil_fails"
   ],
   "note": "one to three dimensions, any grid and any set of owned and claimed cells; wide_stencil_fails shows why the limit on the offset is needed"
  },
  {
   "property": "C24",
   "status": "proved",
   "theorems": [
    "Verif.Props.C24.claimed_cells",
    "Verif.Props.C24.largest_weight",
    "Verif.Props.C24.order_independent",
    "Verif.Props.C24.reference_weight_order_dependent"
   ],
   "note": "for all sequences of calls; only the floating point reference weight depends on the order of equal claims"
  },
  {
   "property": "C25",
   "status": "proved",
   "theorems": [
    "Verif.Props.C25.split_exact",
    "Verif.Props.C25.split_injective",
    "Verif.Props.C25.split_surjective",
    "Verif.Props.C25.cell_index_bijective"
   ],
   "note": "for all grids"
  },
  {
   "property": "C26",
   "status": "proved",
   "theorems": [
    "Verif.Props.C26.map_exact",
    "Verif.Props.C26.map_padded_exact",
    "Verif.Props.C26.claimed_iff",
    "Verif.Props.C26.claim_weights_bounded",
    "Verif.Props.C26.geom_map_exact",
    "Verif.Props.C26.flat_box_claims_nothing"
   ],
   "note": "exact arithmetic; the MeshHierarchy index functions are modelled by their contract"
  },
  {
   "property": "C20",
   "status": "proved",
   "theorems": [
    "Verif.Props.C20.reconstruct_iff",
    "Verif.Props.C20.round_trip",
    "Verif.Props.C20.missing_face_refused",
    "Verif.Props.C20.per_rank_faces",
    "Verif.Props.C20.messages_in_order",
    "Verif.Props.C20.exchange_round_trip"
   ],
   "note": "for every number of geometries, ranks and order of arrival; MPI delivery per (source, tag) is the contract"
  },
  {
   "property": "C22",
   "status": "proved",
   "theorems": [
    "Verif.Props.C22.kind_unique",
    "Verif.Props.C22.container_is_partition",
    "Verif.Props.C22.other_shape_refused",
    "Verif.Props.C22.pushAll_spec",
    "Verif.Props.C22.all_elements",
    "Verif.Props.C22.get_element",
    "Verif.Props.C22.assigned"
   ],
   "note": "for every mesh with distinct element ids and every list of remote geometries; pushAll_spec covers every history of push_back"
  },
  {
   "property": "C27",
   "status": "partial",
   "theorems": [
    "Verif.Props.C27.wrap_in_domain_partial",
    "Verif.Props.C27.wrap_in_domain_iff",
    "Verif.Props.C27.wrap_same_modulo",
    "Verif.Props.C27.wrap_fixes_domain",
    "Verif.Props.C27.wrap_idempotent_partial",
    "Verif.Props.C27.kernel_in_domain_partial",
    "Verif.Props.C27.kernel_wraps_each",
    "Verif.Props.C27.wrap_leaves_domain"
   ],
   "note": "the full claim is false of the code for periods below one (wrap_leaves_domain); wrap_in_domain_iff says exactly when it holds; exact arithmetic"
  },
  {
   "property": "C28",
   "status": "partial",
   "theorems": [
    "Verif.Props.C28.extents_exact_partial",
    "Verif.Props.C28.negative_domain_wrong"
   ],
   "note": "the full claim is false of the code for meshes with no positive coordinate (negative_domain_wrong, for every such mesh)"
  },
  {
   "property": "C30",
   "status": "proved",
   "theorems": [
    "Verif.Props.C30.intersection_exact",
    "Verif.Props.C30.in_plane_reported_at_start",
    "Verif.Props.C30.normal_spec",
    "Verif.Props.C30.triangle_in_plane",
    "Verif.Props.C30.quad_in_plane",
    "Verif.Props.C30.triangle_crossing_found",
    "Verif.Props.C30.segment_normal"
   ],
   "note": "exact arithmetic; over the reals for the normals"
  },
  {
   "property": "C31",
   "status": "proved",
   "theorems": [
    "Verif.Props.C31.hull_near",
    "Verif.Props.C31.hull_near_constructed",
    "Verif.Props.C31.radius_attained",
    "Verif.Props.C31.average_in_hull"
   ],
   "note": "exact arithmetic"
  },
  {
   "property": "C29",
   "status": "proved",
   "theorems": [
    "Verif.Props.C29.after_any_history",
    "Verif.Props.C29.order_independent",
    "Verif.Props.C29.nothing_lost",
    "Verif.Props.C29.lookup_exact",
    "Verif.Props.C29.groups_exact",
    "Verif.Props.C29.given_exact",
    "Verif.Props.C29.composites_wrong_shape",
    "Verif.Props.C29.touching_cell_meets"
   ],
   "note": "All histories of collective requests on any number of ranks: exact set of cells, one collection per cell with exact contents, normals and lookup maps; which geometries are given for a cell; boundary groups."
  },
  {
   "property": "C33",
   "status": "partial",
   "theorems": [
    "Verif.Props.C33.find_cells_exact",
    "Verif.Props.C33.examined_exact",
    "Verif.Props.C33.examined_collected_partial",
    "Verif.Props.C33.outside_not_collected",
    "Verif.Props.C33.step_examined"
   ],
   "note": "For all particle sets and all orders of the atomic operations. The full claim is false for a particle whose previous position is outside of the grid (outside_not_collected); proved for previous positions in the grid."
  },
  {
   "property": "C32",
   "status": "proved",
   "theorems": [
    "Verif.Props.C32.find_intersections_nearest",
    "Verif.Props.C32.get_intersections_exact",
    "Verif.Props.C32.crossing_is_hit"
   ],
   "note": "2D and 3D, all candidate lists, particles and passes; closer than the greatest REAL; Newton's method and line_segment_intersection_2d are functions given by Tests"
  },
  {
   "property": "C34",
   "status": "partial",
   "theorems": [
    "Verif.Props.C34.lookup_exact",
    "Verif.Props.C34.candidate_listed_partial",
    "Verif.Props.C34.upper_bound_missed",
    "Verif.Props.C34.mapperArrays_exact",
    "Verif.Props.C34.gridCounts_spec",
    "Verif.Props.C34.scaling_ok"
   ],
   "note": "For all boxes the lists of all grid cells are exact. A point that lies on the upper bound of a box and on the lower bound of its grid cell is not given that box (upper_bound_missed); boxes of zero width are never listed."
  },
  {
   "property": "C35",
   "status": "partial",
   "theorems": [
    "Verif.Props.C35.device_index_partial",
    "Verif.Props.C35.device_reads_host_cell",
    "Verif.Props.C35.inside_fits",
    "Verif.Props.C35.far_position_undefined"
   ],
   "note": "Proved for all positions whose scaled value fits in int, which includes all positions in the mesh; false for positions farther away (undefined conversion)."
  },
  {
   "property": "C36",
   "status": "proved",
   "theorems": [
    "Verif.Props.C36.newton_inverse_sound",
    "Verif.Props.C36.accepted_sound",
    "Verif.Props.C36.accepted_final_sound",
    "Verif.Props.C36.rejected_final",
    "Verif.Props.C36.accepted_exact",
    "Verif.Props.C36.failure_means_no_iterate",
    "Verif.Props.C36.startGrid_covers"
   ],
   "note": "For all maps, measures, starting points and iteration limits: an accepted reference position is one whose residual was measured within tolerance; a failed inversion means no iterate met it."
  },
  {
   "property": "C37",
   "status": "partial",
   "theorems": [
    "Verif.Props.C37.residual_norm_2d_partial",
    "Verif.Props.C37.residual_norm_3d_partial",
    "Verif.Props.C37.residual_bounds_distance",
    "Verif.Props.C37.negative_jacobian_negative",
    "Verif.Props.C37.negative_measure_accepts",
    "Verif.Props.C37.scalingDir_pos"
   ],
   "note": "A non-negative norm for a positive average Jacobian; false for a negative average Jacobian, since the scaling is taken without absolute value: then any iterate is accepted."
  },
  {
   "property": "C55",
   "status": "proved",
   "theorems": [
    "Verif.Props.C55.map2D_correct",
    "Verif.Props.C55.map3D_correct",
    "Verif.Props.C55.mapped_untouched",
    "Verif.Props.C55.position_untouched",
    "Verif.Props.C55.kernel_sound",
    "Verif.Props.C55.kernel_first_accepting",
    "Verif.Props.C55.host_sound",
    "Verif.Props.C55.host_complete",
    "Verif.Props.C55.other_cells_checked"
   ],
   "note": "All particle sets, cells and stages that assign only accepted cells; the device and host stages are shown to be such stages. Observation: the final 3D check is over all cells."
  },
  {
   "property": "C38",
   "status": "proved",
   "theorems": [
    "Verif.Props.C38.newton_f_exact",
    "Verif.Props.C38.newton_step_exact",
    "Verif.Props.C38.newton_step_exact_quad",
    "Verif.Props.C38.map_of_vertex",
    "Verif.Props.C38.map_of_reference",
    "Verif.Props.C38.weights_sum",
    "Verif.Props.C38.jacobian_exists"
   ],
   "note": "All vertices and reference points (pyramid: off the plane of its apex, where the generated code divides by zero): generated residual is X(xi)-P for the shape-function map and the generated step is the Newton step with its true Jacobian. The embedded quad is in C41."
  },
  {
   "property": "C39",
   "status": "proved",
   "theorems": [
    "Verif.Props.C39.one_step_exact",
    "Verif.Props.C39.one_step_exact_quad",
    "Verif.Props.C39.tet_affine",
    "Verif.Props.C39.affine_map",
    "Verif.Props.C39.inverse_of_one_step",
    "Verif.Props.C39.affine_point_accepted",
    "Verif.Props.C39.affine_point_accepted_pyr",
    "Verif.Props.C39.pyr_apex_accepted"
   ],
   "note": "All affine elements and positions: one step from any start reaches the exact inverse, and the mapping accepts it."
  },
  {
   "property": "C40",
   "status": "proved",
   "theorems": [
    "Verif.Props.C40.regular_2d",
    "Verif.Props.C40.regular_3d",
    "Verif.Props.C40.regular_3d_exact",
    "Verif.Props.C40.xi2_iff",
    "Verif.Props.C40.xi3_iff",
    "Verif.Props.C40.host_device_agree",
    "Verif.Props.C40.vertices_2d",
    "Verif.Props.C40.vertices_3d",
    "Verif.Props.C40.excess_le",
    "Verif.Props.C40.tolerance_2d",
    "Verif.Props.C40.tolerance_3d"
   ],
   "note": "All non-degenerate affine elements, points, tolerances: points of the element are accepted, accepted points are in the element enlarged by a fixed multiple of the tolerances, and the stored position maps back exactly (exact arithmetic; degenerate elements give NaN which the 3D test accepts, outside the hypotheses)."
  },
  {
   "property": "C41",
   "status": "proved",
   "theorems": [
    "Verif.Props.C41.tri_initial_exact",
    "Verif.Props.C41.tri_initial_projects",
    "Verif.Props.C41.tri_initial_unique",
    "Verif.Props.C41.tri_point_accepted",
    "Verif.Props.C41.tri_accepted_sound",
    "Verif.Props.C41.quad_residual_exact",
    "Verif.Props.C41.quad_surface",
    "Verif.Props.C41.quad_step_exact",
    "Verif.Props.C41.plane_normal_exists",
    "Verif.Props.C41.quad_det_pos",
    "Verif.Props.C41.quad_parallelogram_one_step",
    "Verif.Props.C41.quad_accepted_sound"
   ],
   "note": "All non-degenerate triangles and quadrilaterals in 3D."
  },
  {
   "property": "C42",
   "status": "proved",
   "theorems": [
    "Verif.Props.C42.linear_box_contains",
    "Verif.Props.C42.get_bounding_box_contains",
    "Verif.Props.C42.box_contains",
    "Verif.Props.C42.box_of_samples",
    "Verif.Props.C42.box_tight",
    "Verif.Props.C42.pad_enlarges",
    "Verif.Props.C42.linear_multi_affine",
    "Verif.Props.C42.reference_covered",
    "Verif.Props.C42.impl_maps",
    "Verif.Props.C42.settings_valid",
    "Verif.Props.C42.samples_on_boundary",
    "Verif.Props.C42.corner_mem"
   ],
   "note": "Elements whose map is affine in each collapsed coordinate are contained for every order of the atomics and every accepted setting; curved elements are only sampled (box_of_samples states exactly what holds). get_next_multiple is external (rounds up)."
  },
  {
   "property": "C52",
   "status": "proved",
   "theorems": [
    "Verif.Props.C52.parse_iff",
    "Verif.Props.C52.nameValue_unique"
   ],
   "note": "For all strings shorter than npos."
  },
  {
   "property": "C53",
   "status": "partial",
   "theorems": [
    "Verif.Props.C53.parameters_spec",
    "Verif.Props.C53.first_text",
    "Verif.Props.C53.queries_agree",
    "Verif.Props.C53.load_int",
    "Verif.Props.C53.load_size_partial",
    "Verif.Props.C53.load_size_absent",
    "Verif.Props.C53.load_size_negative",
    "Verif.Props.C53.info_spec",
    "Verif.Props.C53.get_info_partial",
    "Verif.Props.C53.get_info_fails",
    "Verif.Props.C53.get_info_not_case_insensitive"
   ],
   "note": "get_info is not case-insensitive (searches the unconverted name: proved for all documents that no name with a lower-case letter is ever found); loading size_t goes through int, so -1 becomes 2^64-1. Everything else is proved in full."
  },
  {
   "property": "C54",
   "status": "partial",
   "theorems": [
    "Verif.Props.C54.read_particles_spec",
    "Verif.Props.C54.regions_spec",
    "Verif.Props.C54.conditions_spec",
    "Verif.Props.C54.duplicate_rejected",
    "Verif.Props.C54.reactions_spec",
    "Verif.Props.C54.undeclared_rejected",
    "Verif.Props.C54.species_spec",
    "Verif.Props.C54.entries_spec",
    "Verif.Props.C54.stoi_iff",
    "Verif.Props.C54.split_spec",
    "Verif.Props.C54.all_species_unreachable",
    "Verif.Props.C54.only_first_species",
    "Verif.Props.C54.read_particles_accepted",
    "Verif.Props.C54.fromFirst_iff",
    "Verif.Props.C54.split_iff",
    "Verif.Props.C54.pValueOk_iff",
    "Verif.Props.C54.conditions_accepted",
    "Verif.Props.C54.regions_accepted",
    "Verif.Props.C54.entries_accepted",
    "Verif.Props.C54.functions_accepted",
    "Verif.Props.C54.species_accepted",
    "Verif.Props.C54.reactions_accepted",
    "Verif.Props.C54.entry_domains",
    "Verif.Props.C54.entry_vars",
    "Verif.Props.C54.entry_evars",
    "Verif.Props.C54.first_iff",
    "Verif.Props.C54.later_sections_ignored",
    "Verif.Props.C54.later_info_ignored",
    "Verif.Props.C54.boundaries_kept"
   ],
   "note": "The clause 'all species when no SPECIES attribute is given' is false of the code (all_species_unreachable), as is the use of lists of species in one condition (only_first_species). The rest is proved. XML parsing and the expression interpreter are external."
  },
  {
   "property": "C56",
   "status": "proved",
   "theorems": [
    "Verif.Props.C56.ring_spec",
    "Verif.Props.C56.ring_all_others",
    "Verif.Props.C56.ring_completes",
    "Verif.Props.C56.ring_terminates",
    "Verif.Props.C56.sources_perm"
   ],
   "note": "MPI semantics is the one of Model/Mpi.lean (external); the Allreduce is taken as the maximum."
  },
  {
   "property": "C57",
   "status": "proved",
   "theorems": [
    "Verif.Props.C57.halos2d_spec",
    "Verif.Props.C57.halos2d_cover",
    "Verif.Props.C57.halos2d_completes",
    "Verif.Props.C57.halos2d_terminates",
    "Verif.Props.C57.cells_split",
    "Verif.Props.C57.neighbourRanks_spec",
    "Verif.Props.C57.neighbours"
   ],
   "note": "MPI semantics is the one of Model/Mpi.lean (external). Exact arithmetic. Every claimed cell has an owner which all of the ranks agree on (MeshHierarchy, external); the sizes of the buffers fit in an int."
  },
  {
   "property": "C58",
   "status": "proved",
   "theorems": [
    "Verif.Props.C58.interface_spec",
    "Verif.Props.C58.interface_cover",
    "Verif.Props.C58.interface_completes",
    "Verif.Props.C58.interface_terminates",
    "Verif.Props.C58.offset_limits"
   ],
   "note": "2D meshes. MPI semantics is the one of Model/Mpi.lean (external). Exact arithmetic; the bounding box is a function of the geometry; every cell met by an element has an owner all of the ranks agree on; sizes of buffers and the number of cells fit in an int."
  },
  {
   "property": "C59",
   "status": "proved",
   "theorems": [
    "Verif.Props.C59.accepted_inside",
    "Verif.Props.C59.quad_point_accepted",
    "Verif.Props.C59.from_collapsed_in"
   ],
   "note": "Straight-sided quadrilaterals, hexahedra, prisms, pyramids and tetrahedra (triangles and the regular mapping are C40). At the apex of a pyramid (reference position with third coordinate 1) only the first half (the reference position is in the enlarged reference element) is stated. Exact arithmetic."
  },
  {
   "property": "C60",
   "status": "proved",
   "theorems": [
    "Verif.Props.C60.halos3d_spec",
    "Verif.Props.C60.halos3d_cover",
    "Verif.Props.C60.halos3d_completes",
    "Verif.Props.C60.halos3d_terminates",
    "Verif.Props.C60.neighbours3d",
    "Verif.Props.C60.neighbourRanks3d_spec",
    "Verif.Props.C60.cells_split3"
   ],
   "note": "MPI semantics is the one of Model/Mpi.lean (external). Exact arithmetic. Every claimed cell has an owner which all of the ranks agree on (MeshHierarchy, external); elements are well formed with their faces in the mesh of the rank; the sizes of the buffers fit in an int."
  },
  {
   "property": "C61",
   "status": "proved",
   "theorems": [
    "Verif.Props.C61.interface3_spec",
    "Verif.Props.C61.interface3_cover",
    "Verif.Props.C61.interface3_completes",
    "Verif.Props.C61.interface3_terminates",
    "Verif.Props.C61.offset_limits3"
   ],
   "note": "MPI semantics is the one of Model/Mpi.lean (external). Exact arithmetic. Owners, grid and sizes of buffers as for C60; the number of cells is an int. Offsets larger than the mesh fail (offset_limits3)."
  },
  {
   "property": "C62",
   "status": "proved",
   "theorems": [
    "Verif.Props.C62.expint_positive",
    "Verif.Props.C62.rate_formula",
    "Verif.Props.C62.rate_positive",
    "Verif.Props.C62.sol_ionised",
    "Verif.Props.C62.dr_ionised",
    "Verif.Props.C62.finite_iff",
    "Verif.Props.C62.weight_range",
    "Verif.Props.C62.negative_density_grows",
    "Verif.Props.C62.exhausted_iff",
    "Verif.Props.C62.sol_momentum_energy",
    "Verif.Props.C62.expint_formula",
    "Verif.Props.C62.removed_id"
   ],
   "note": "Exact arithmetic (double as reals). Weights stay in [0, old] for a non-negative plasma density; for a negative density (field undershoot) negative_density_grows is the finding."
  },
  {
   "property": "C63",
   "status": "proved",
   "theorems": [
    "Verif.Props.C63.steps_cover",
    "Verif.Props.C63.loop_performs",
    "Verif.Props.C63.integrateSOL_eq",
    "Verif.Props.C63.integrateDR_eq",
    "Verif.Props.C63.steps_equal",
    "Verif.Props.C63.fluid_step_SOL",
    "Verif.Props.C63.fluid_step_DR",
    "Verif.Props.C63.fluid_step_added",
    "Verif.Props.C63.fewer_than_lines_adds_none",
    "Verif.Props.C63.run_SOL"
   ],
   "note": "Exact arithmetic (double as reals; rounding may add one tiny last sub step). Finding: with fewer particles than source lines the SimpleSOL system never creates a particle."
  },
  {
   "property": "C64",
   "status": "partial",
   "theorems": [
    "Verif.Props.C64.sol_step",
    "Verif.Props.C64.sol_history",
    "Verif.Props.C64.sol_error_zero_partial",
    "Verif.Props.C64.dr_step",
    "Verif.Props.C64.dr_history",
    "Verif.Props.C64.dr_error_zero_partial",
    "Verif.Props.C64.sol_gain_is_last",
    "Verif.Props.C64.dr_gain_is_last",
    "Verif.Props.C64.dr_substeps_lose_mass",
    "Verif.Props.C64.sol_runs",
    "Verif.Props.C64.dr_runs",
    "Verif.Props.C64.dr_moves",
    "Verif.Props.C64.sol_moves"
   ],
   "note": "Proved for one particle sub step per fluid step. False for more: sol_gain_is_last / dr_gain_is_last (the fluid only sees the last sub step) and dr_substeps_lose_mass (every fluid step destroys mass in a uniform plasma). The projection and the fluid solver (external) are assumed to preserve the integral of the deposits."
  },
  {
   "property": "C65",
   "status": "proved",
   "theorems": [
    "Verif.Props.C65.setup_number",
    "Verif.Props.C65.setup_weight",
    "Verif.Props.C65.setup_charge",
    "Verif.Props.C65.charge_uninitialised",
    "Verif.Props.C65.no_particles_not_finite",
    "Verif.Props.C65.coupling_volume",
    "Verif.Props.C65.coupling_exact",
    "Verif.Props.C65.neutral",
    "Verif.Props.C65.field_memoryless",
    "Verif.Props.C65.neutral_bound",
    "Verif.Props.C65.coefficients_overwritten",
    "Verif.Props.C65.projection_total"
   ],
   "note": "Exact arithmetic. The transforms, the Poisson solver and the quadrature of Nektar++ are arbitrary functions (external); neutral needs a space which represents constants, neutral_bound does not. Findings: uninitialised charge density, division by zero without particles, coefficients of the forcing overwritten."
  },
  {
   "property": "C66",
   "status": "proved",
   "theorems": [
    "Verif.Props.C66.step_eq",
    "Verif.Props.C66.reversible",
    "Verif.Props.C66.stormer",
    "Verif.Props.C66.momentum_conserved",
    "Verif.Props.C66.first_step_free",
    "Verif.Props.C66.start_not_reversible",
    "Verif.Props.C66.verlet_iff",
    "Verif.Props.C66.integrator_check_vacuous",
    "Verif.Props.C66.integrator_choice"
   ],
   "note": "Exact arithmetic; sides of the domain at least one (C27). Findings: the first step ignores the initial field (first_step_free, start_not_reversible); the assertion on the integrator type is vacuous."
  },
  {
   "property": "C67",
   "status": "partial",
   "theorems": [
    "Verif.Props.C67.mean_spec",
    "Verif.Props.C67.fieldEnergy_spec",
    "Verif.Props.C67.fieldEnergy_shift",
    "Verif.Props.C67.fieldEnergy_nonneg",
    "Verif.Props.C67.potentialEnergy_spec",
    "Verif.Props.C67.potentialEnergy_shift",
    "Verif.Props.C67.kineticEnergy_partial",
    "Verif.Props.C67.kineticEnergy_ignores_mass",
    "Verif.Props.C67.samplePoints_spec",
    "Verif.Props.C67.samplePoints_inside",
    "Verif.Props.C67.positions_in_domain",
    "Verif.Props.C67.streams_in_domain",
    "Verif.Props.C67.square_partial",
    "Verif.Props.C67.square_outside",
    "Verif.Props.C67.square_onto",
    "Verif.Props.C67.streams_band"
   ],
   "note": "The kinetic energy is proved for particles of equal mass; kineticEnergy_ignores_mass is the counterexample for others. The square of distribution 0 is proved for domains starting at zero; square_outside is the counterexample."
  },
  {
   "property": "C68",
   "status": "partial",
   "theorems": [
    "Verif.Props.C68.total_wins",
    "Verif.Props.C68.per_cell",
    "Verif.Props.C68.undefined_iff",
    "Verif.Props.C68.distribution_free",
    "Verif.Props.C68.output_iff",
    "Verif.Props.C68.output_count",
    "Verif.Props.C68.file_contents",
    "Verif.Props.C68.no_file",
    "Verif.Props.C68.evenDecomp_contract",
    "Verif.Props.C68.dr_ids",
    "Verif.Props.C68.dr_unique",
    "Verif.Props.C68.charged_ids",
    "Verif.Props.C68.sol_count",
    "Verif.Props.C68.sol_unique_iff",
    "Verif.Props.C68.sol_not_unique"
   ],
   "note": "Identities are unique for the DriftReduced and the electrostatic solver; for SimpleSOL sol_unique_iff gives the exact condition and sol_not_unique the counterexample. undefined_iff: the number of particles is not assigned if neither parameter is positive. get_decomp_1d of NESO-Particles is a contract."
  },
  {
   "property": "C69",
   "status": "partial",
   "theorems": [
    "Verif.Props.C69.start_spec",
    "Verif.Props.C69.doSolve_spec",
    "Verif.Props.C69.timeInit_iff",
    "Verif.Props.C69.reads_own_iff",
    "Verif.Props.C69.blob_reads_own",
    "Verif.Props.C69.rogersRicci_reads_own",
    "Verif.Props.C69.hw_reads_own_partial",
    "Verif.Props.C69.lapd_reads_own_partial",
    "Verif.Props.C69.hw_swapped",
    "Verif.Props.C69.hw_out_of_bounds",
    "Verif.Props.C69.hw_accepts",
    "Verif.Props.C69.rogersRicci_no_particles",
    "Verif.Props.C69.sol_reads_own_partial",
    "Verif.Props.C69.sol_swapped",
    "Verif.Props.C69.sources_spec",
    "Verif.Props.C69.missing_source_throws",
    "Verif.Props.C69.hw_sources",
    "Verif.Props.C69.sol_session"
   ],
   "note": "Proved for Blob2D and Rogers-Ricci; for Hasegawa-Wakatani, LAPD and SimpleSOL exactly for sessions which list the integrated fields first (reads_own_iff), other accepted sessions read wrong fields (hw_swapped, sol_swapped) or out of bounds (hw_out_of_bounds). Findings: missing source fields stop the run; Rogers-Ricci cannot run with particles."
  },
  {
   "property": "C70",
   "status": "partial",
   "theorems": [
    "Verif.Props.C70.bmag_sq",
    "Verif.Props.C70.bmag_eq_zero",
    "Verif.Props.C70.exb_3d",
    "Verif.Props.C70.exb_2d",
    "Verif.Props.C70.drift_properties",
    "Verif.Props.C70.loadB_iff",
    "Verif.Props.C70.zero_field",
    "Verif.Props.C70.bUnit_spec",
    "Verif.Props.C70.advVel_spec",
    "Verif.Props.C70.parVel_spec",
    "Verif.Props.C70.pdVel_partial",
    "Verif.Props.C70.pdVel_negative",
    "Verif.Props.C70.normal_flux",
    "Verif.Props.C70.flux_spec",
    "Verif.Props.C70.exb_potential"
   ],
   "note": "Exact arithmetic. The polarisation drift velocity is right for positive Bxy only (pdVel_negative); with two space dimensions the magnetic field is written out of bounds (loadB_iff); zero magnetic field is accepted although the drift is not finite (zero_field)."
  },
  {
   "property": "C71",
   "status": "partial",
   "theorems": [
    "Verif.Props.C71.drift_along_contours",
    "Verif.Props.C71.energy_rate",
    "Verif.Props.C71.enstrophy_rate",
    "Verif.Props.C71.hw2_energy",
    "Verif.Props.C71.hw2_energy_partial",
    "Verif.Props.C71.hw2_enstrophy",
    "Verif.Props.C71.hw2_stale",
    "Verif.Props.C71.hw3_energy",
    "Verif.Props.C71.hw3_enstrophy",
    "Verif.Props.C71.gammaA_nonneg",
    "Verif.Props.C71.record_spec",
    "Verif.Props.C71.line_consistent",
    "Verif.Props.C71.line_parallel",
    "Verif.Props.C71.hw2_stale_grows",
    "Verif.Props.C71.lapd_momentum",
    "Verif.Props.C71.lapd_friction",
    "Verif.Props.C71.lapd_log_iff",
    "Verif.Props.C71.lapd_density",
    "Verif.Props.C71.rr_source",
    "Verif.Props.C71.rr_source_scale",
    "Verif.Props.C71.rr_radius",
    "Verif.Props.C71.rr_sheath",
    "Verif.Props.C71.rr_floating",
    "Verif.Props.C71.lapd_forces"
   ],
   "note": "Exact arithmetic, operators of Nektar++ under the conditions of `Consistent` (met by `line`). Findings: the 2D right hand side uses the density of the start of the step instead of that of the stage (hw2_stale, hw2_stale_grows), so the 2D energy balance is proved for stages at which both agree; the recorder ignores particle sources (hw2_energy, hw3_energy give the exact extra term); recording step zero divides by zero (record_spec)."
  },
  {
   "property": "C72",
   "status": "partial",
   "theorems": [
    "Verif.Props.C72.bHat_unit",
    "Verif.Props.C72.tensor_spec",
    "Verif.Props.C72.tensor_eigen",
    "Verif.Props.C72.tensor_pos",
    "Verif.Props.C72.tensor_symmetries",
    "Verif.Props.C72.coeffs_spec",
    "Verif.Props.C72.collection_spec",
    "Verif.Props.C72.backward_euler",
    "Verif.Props.C72.stable",
    "Verif.Props.C72.conserves",
    "Verif.Props.C72.operator_dissipates",
    "Verif.Props.C72.two_solves",
    "Verif.Props.C72.two_dissipates",
    "Verif.Props.C72.couple_partial",
    "Verif.Props.C72.sender_matrixFree",
    "Verif.Props.C72.receiver_first",
    "Verif.Props.C72.default_tensor"
   ],
   "note": "Exact arithmetic, HelmSolve as contract `Solves`. The coupling is proved for senders without matrix-free collections; with them the sender writes out of bounds (sender_matrixFree)."
  },
  {
   "property": "C73",
   "status": "partial",
   "theorems": [
    "Verif.Props.C73.drift_spec",
    "Verif.Props.C73.drift_incompressible",
    "Verif.Props.C73.flux_consistent",
    "Verif.Props.C73.flux_upstream",
    "Verif.Props.C73.flux_dissipative",
    "Verif.Props.C73.orientation_partial",
    "Verif.Props.C73.orientation_zero",
    "Verif.Props.C73.sheath_cancels",
    "Verif.Props.C73.sheath_sign",
    "Verif.Props.C73.charge_conserved",
    "Verif.Props.C73.potential_spec",
    "Verif.Props.C73.default_parameters"
   ],
   "note": "Exact arithmetic. Orientation independence is proved where the normal velocity is not zero; orientation_zero gives the exact condition otherwise (it fails if the density jumps)."
  },
  {
   "property": "C74",
   "status": "proved",
   "theorems": [
    "Verif.Props.C74.flux_spec",
    "Verif.Props.C74.flux_symm",
    "Verif.Props.C74.flux_rotation",
    "Verif.Props.C74.coord_spec",
    "Verif.Props.C74.sources_symm",
    "Verif.Props.C74.sources_direction",
    "Verif.Props.C74.gaussian_total",
    "Verif.Props.C74.total_width_free",
    "Verif.Props.C74.mask_zero",
    "Verif.Props.C74.balance",
    "Verif.Props.C74.total_values",
    "Verif.Props.C74.momentum_ratio",
    "Verif.Props.C74.default_sources"
   ],
   "note": "Exact arithmetic; equation of state and advection operator of Nektar++ are arbitrary. Which fields are read is property C69."
  },
  {
   "property": "C75",
   "status": "proved",
   "theorems": [
    "Verif.Props.C75.global_box_hull",
    "Verif.Props.C75.same_for_every_partition",
    "Verif.Props.C75.hierarchy_covers",
    "Verif.Props.C75.coarse_cells",
    "Verif.Props.C75.constructs_iff",
    "Verif.Props.C75.point_in_cell",
    "Verif.Props.C75.point_in_claimed_cell"
   ],
   "note": "Exact arithmetic, coordinates below half of the largest double; MPI_Allreduce and the constructor of MeshHierarchy by contract."
  },
  {
   "property": "C76",
   "status": "partial",
   "theorems": [
    "Verif.Props.C76.matchingOrder_least",
    "Verif.Props.C76.offset_added",
    "Verif.Props.C76.order_least",
    "Verif.Props.C76.order_mono",
    "Verif.Props.C76.no_subdivision",
    "Verif.Props.C76.fine_cells_le",
    "Verif.Props.C76.order_too_small",
    "Verif.Props.C76.hierarchy_order",
    "Verif.Props.C76.hierarchy_not_too_fine",
    "Verif.Props.C76.does_not_match"
   ],
   "note": "Finding: the natural logarithm is used instead of the logarithm to base two, so the claim that the offset 0 matches the number of elements is false (does_not_match: too coarse by any factor). Proved: what the order is, that it is monotonic, and that it is never too fine."
  },
  {
   "property": "C77",
   "status": "proved",
   "theorems": [
    "Verif.Props.C77.point_sound",
    "Verif.Props.C77.point_found_iff",
    "Verif.Props.C77.point_of_convex"
   ],
   "note": "Exact arithmetic; ContainsPoint of Nektar++ is arbitrary in point_sound, and true for vertices in point_found_iff."
  },
  {
   "property": "C78",
   "status": "partial",
   "theorems": [
    "Verif.Props.C78.regions_disjoint",
    "Verif.Props.C78.rhs_is_weighted_sum",
    "Verif.Props.C78.rhs_is_weighted_sum_partial",
    "Verif.Props.C78.rhs_not_finite",
    "Verif.Props.C78.host_rhs_is_weighted_sum",
    "Verif.Props.C78.host_equals_device_partial",
    "Verif.Props.C78.host_stops_with_extra_coordinates",
    "Verif.Props.C78.project_fields",
    "Verif.Props.C78.rhs_pairing",
    "Verif.Props.C78.projected_field_weak_form",
    "Verif.Props.C78.missing_geometry"
   ],
   "note": "project_fields characterises all calls: with the collapsed coordinates that the code computes (C07), and the finding that the call stops iff a selected particle is exactly at a collapsed end (rhs_not_finite). Missing for particles within the tolerance of a collapsed edge or vertex: the coordinates are not those of the position. Findings: the host implementation stops for two dimensional meshes with a third reference coordinate; a cell without expansion silently uses expansion 0 on the device. Solver of the mass matrix by contract."
  },
  {
   "property": "C79",
   "status": "partial",
   "theorems": [
    "Verif.Props.C79.evaluation_stores_values",
    "Verif.Props.C79.evaluation_stores_values_partial",
    "Verif.Props.C79.evaluation_adjoint_to_projection",
    "Verif.Props.C79.dot_eq_valueAt"
   ],
   "note": "evaluation_stores_values covers all positions, with the collapsed coordinates that the code computes (C07), and the finding that the value is not a number exactly at a collapsed end; evaluation_adjoint_to_projection is proved in full. Missing: within the tolerance of a collapsed edge or vertex the coordinates are not those of the position."
  },
  {
   "property": "C80",
   "status": "partial",
   "theorems": [
    "Verif.Props.C80.constructor_lengths",
    "Verif.Props.C80.constructor_exact",
    "Verif.Props.C80.constructor_checks",
    "Verif.Props.C80.evaluation_stores_values",
    "Verif.Props.C80.isValueAt_unique",
    "Verif.Props.C80.isValueAt_collapsed",
    "Verif.Props.C80.derivative_stores_gradient_partial"
   ],
   "note": "evaluation_stores_values covers all positions with the collapsed coordinates of C07; missing for derivative_stores_gradient_partial: positions within the tolerance of a collapsed edge or vertex. PhysDeriv of Nektar++ and matrix_transpose of NESO-Particles by contract."
  },
  {
   "property": "C81",
   "status": "proved",
   "theorems": [
    "Verif.Props.C81.write_data_succeeds",
    "Verif.Props.C81.write_data_checks",
    "Verif.Props.C81.residual_exact",
    "Verif.Props.C81.step_exact",
    "Verif.Props.C81.newton_on_polynomial_element",
    "Verif.Props.C81.inverse_sound"
   ],
   "note": "The values and derivatives at the quadrature points (GetXmap, PhysDeriv, BwdTrans of Nektar++) by contract; NaN and infinities are one value, rounding is not modelled."
  },
  {
   "property": "C82",
   "status": "proved",
   "theorems": [
    "Verif.Props.C82.host_inverse",
    "Verif.Props.C82.host_inverse_curved",
    "Verif.Props.C82.x_curved",
    "Verif.Props.C82.x_linear",
    "Verif.Props.C82.inverse_of_x_affine",
    "Verif.Props.C82.inverse_of_x_affine_pyr"
   ],
   "note": "x_linear is for hexahedra, prisms and tetrahedra; for pyramids see C38 and C39."
  },
  {
   "property": "C83",
   "status": "partial",
   "theorems": [
    "Verif.Props.C83.vertices_are_corners",
    "Verif.Props.C83.edges_exact",
    "Verif.Props.C83.ids_distinct",
    "Verif.Props.C83.corners",
    "Verif.Props.C83.cornersOf_unique",
    "Verif.Props.C83.faces_exact_partial",
    "Verif.Props.C83.wrong_faces",
    "Verif.Props.C83.facesClaim_false",
    "Verif.Props.C83.slow_first_direction",
    "Verif.Props.C83.edge_vertices_shared"
   ],
   "note": "Vertices, edges, ids and the faces 0, 2, 3, 5 are proved; false for the faces 1 and 4 (map_face_to_vertices has two vertices of face 1 exchanged and a wrong vertex in face 4), and the first direction is slow on every face although the comment says x fastest."
  },
  {
   "property": "C84",
   "status": "proved",
   "theorems": [
    "Verif.Props.C84.mapper_correct",
    "Verif.Props.C84.inRange_of_bounds",
    "Verif.Props.C84.map2D_complete",
    "Verif.Props.C84.map3D_complete",
    "Verif.Props.C84.region_with_room",
    "Verif.Props.C84.every_particle_found_2d",
    "Verif.Props.C84.every_particle_found_3d",
    "Verif.Props.C84.region2_closed",
    "Verif.Props.C84.region3_closed",
    "Verif.Props.C84.regular_mesh_2d",
    "Verif.Props.C84.regular_mesh_3d"
   ],
   "note": "End-to-end: constructors, lookup, kernels and the order of the calls. every_particle_found_* hold for any mix of mappers whose tests accept the closed elements; regular_mesh_* instantiate them for the regular mappers. Exact arithmetic."
  },
  {
   "property": "C85",
   "status": "proved",
   "theorems": [
    "Verif.Props.C85.cell_element",
    "Verif.Props.C85.inCell_floor",
    "Verif.Props.C85.regular_found_2d",
    "Verif.Props.C85.regular_found_3d",
    "Verif.Props.C85.known_spec",
    "Verif.Props.C85.known3_spec",
    "Verif.Props.C85.distributed_2d",
    "Verif.Props.C85.distributed_3d"
   ],
   "note": "End-to-end composition of C18, C26, C34, C40, C55, C57, C60, C84. The owner of a cell is any function of the cell; a position on the upper boundary of the domain needs its cell to meet the interior of the domain. Meshes without deformed elements, exact arithmetic."
  },
  {
   "property": "C86",
   "status": "proved",
   "theorems": [
    "Verif.Props.C86.vertex_modes",
    "Verif.Props.C86.constant_modes",
    "Verif.Props.C86.valueAt_vertexField",
    "Verif.Props.C86.exists_vertexField",
    "Verif.Props.C86.evaluate_constant",
    "Verif.Props.C86.evaluate_vertex_field",
    "Verif.Props.C86.total_charge",
    "Verif.Props.C86.moments",
    "Verif.Props.C86.element_charge",
    "Verif.Props.C86.projection_conserves"
   ],
   "note": "Composition of C78/C79 with the partition of unity of the vertex modes, for all shapes and orders. The solver of the mass matrix is a contract; the space of a continuous field is assumed to contain the constant (or the coordinate)."
  },
  {
   "property": "C87",
   "status": "partial",
   "theorems": [
    "Verif.Props.C87.trajectory",
    "Verif.Props.C87.energy_file",
    "Verif.Props.C87.particle_writes",
    "Verif.Props.C87.field_writes",
    "Verif.Props.C87.line_writes",
    "Verif.Props.C87.printed_lines",
    "Verif.Props.C87.callback_calls",
    "Verif.Props.C87.verlet_trajectory",
    "Verif.Props.C87.diagnostics_consistent_partial",
    "Verif.Props.C87.boris_diagnostics_lag",
    "Verif.Props.C87.diagnostics_consistent_fails",
    "Verif.Props.C87.boris_step",
    "Verif.Props.C87.boris_kinetic_energy",
    "Verif.Props.C87.printed_energies_current_fails",
    "Verif.Props.C87.bernstein_requires_all",
    "Verif.Props.C87.bernstein_b",
    "Verif.Props.C87.energy_file_opened",
    "Verif.Props.C87.two_stream_b"
   ],
   "note": "The clause that the recorded potential is that of the recorded particles holds for velocity Verlet (diagnostics_consistent_partial) and is false for the Boris integrator (diagnostics_consistent_fails): the potential is that of the positions before the move. Printed energies are those computed last, not the current ones (printed_energies_current_fails)."
  },
  {
   "property": "C88",
   "status": "partial",
   "theorems": [
    "Verif.Props.C88.read_back_partial",
    "Verif.Props.C88.property_of_last_push",
    "Verif.Props.C88.cell_types",
    "Verif.Props.C88.edge_without_two",
    "Verif.Props.C88.owned",
    "Verif.Props.C88.owned_three",
    "Verif.Props.C88.halo",
    "Verif.Props.C88.properties_of_objects_fails",
    "Verif.Props.C88.cell_types_3d"
   ],
   "note": "read_back_partial needs that all objects are two dimensional or none is; for mixed collections the statement is false of the code (properties_of_objects_fails): an object of another dimension adds a property without a cell, so the later cells carry the properties of other objects."
  },
  {
   "property": "C89",
   "status": "partial",
   "theorems": [
    "Verif.Props.C89.recorded_lines",
    "Verif.Props.C89.error_zero_iff",
    "Verif.Props.C89.other_ranks",
    "Verif.Props.C89.same_collectives",
    "Verif.Props.C89.disabled",
    "Verif.Props.C89.initial_once",
    "Verif.Props.C89.initial_of_disabled",
    "Verif.Props.C89.works_without_particles_fails",
    "Verif.Props.C89.lines_determined_fails"
   ],
   "note": "All clauses are proved but the last sentence, which is false of the code: defining mass_recording_step in a DriftReduced simulation without particles dereferences a null pointer (works_without_particles_fails), and compute before compute_initial_fluid_mass writes a value that depends on an uninitialised member (lines_determined_fails; the solvers never do that, recorded_lines). A disabled DriftReduced recorder does not compute the initial mass (initial_of_disabled)."
  },
  {
   "property": "C90",
   "status": "proved",
   "theorems": [
    "Verif.Props.C90.transfer_correct",
    "Verif.Props.C90.steps_correct",
    "Verif.Props.C90.ranks_not_observable",
    "Verif.Props.C90.parallel_2d",
    "Verif.Props.C90.parallel_3d"
   ],
   "note": "The composition of C03, C27, C55, C57, C60, C84 and C85. hybrid_move and cell_move are contracts of NESO-Particles. Exact arithmetic; positions of the domain have to be within 2^31 cells of the lookup of every rank. C90_Example shows a mesh on two ranks with all hypotheses."
  },
  {
   "property": "C91",
   "status": "proved",
   "theorems": [
    "Verif.Props.C91.step_correct",
    "Verif.Props.C91.simulation",
    "Verif.Props.C91.energies_file",
    "Verif.Props.C91.kinetic_energy",
    "Verif.Props.C91.potential_energy",
    "Verif.Props.C91.labels_kept",
    "Verif.Props.C91.projected_charge",
    "Verif.Props.C91.ranks_not_observable",
    "Verif.Props.C91.timeStep_eq",
    "Verif.Props.C91.same_integrators",
    "Verif.Props.C91.pic_2d",
    "Verif.Props.C91.verlet_ok",
    "Verif.Props.C91.boris_ok",
    "Verif.Props.C91.verlet_keeps",
    "Verif.Props.C91.boris_keeps"
   ],
   "note": "The composition of C87, C90 and the integrators of C13-C16 (same_integrators: the kernels are those of Model/Boris). Basis functions, potential and solve are parameters. ranks_not_observable needs functions that are single-valued on shared edges (a gradient of a C0 space is not, and then a particle exactly on an edge can get the field of either element). C91_Mesh: meshes of C85 and C90 meet the hypotheses, and an example on one and two ranks with all hypotheses."
  },
  {
   "property": "C92",
   "status": "proved",
   "theorems": [
    "Verif.Props.C92.evaluators_agree",
    "Verif.Props.C92.interpolation_consistent",
    "Verif.Props.C92.interpolation_reproduces",
    "Verif.Props.C92.host_value",
    "Verif.Props.C92.host_derivative",
    "Verif.Props.C92.linear_value",
    "Verif.Props.C92.linear_functions_exact",
    "Verif.Props.C92.isValueAt_of_agrees",
    "Verif.Props.C92.pyramid_evaluators_differ"
   ],
   "note": "Composition of C79, C80 and C86 with the host functions. Contracts of Nektar++ (transforms, GetExpIndex, GetLocCoords, StdPhysEvaluate, PhysDeriv, GetCoords) are in Spec/HostField.lean. The proof that enough nodes represent the modes is Lemmas/ModalDegree.lean (degrees of the modified basis in collapsed coordinates)."
  },
  {
   "property": "C93",
   "status": "proved",
   "theorems": [
    "Verif.Props.C93.call_spec",
    "Verif.Props.C93.history_inside",
    "Verif.Props.C93.speed_kept",
    "Verif.Props.C93.time_rewound",
    "Verif.Props.C93.config_not_passed",
    "Verif.Props.C93.intersection_uses_config",
    "Verif.Props.C93.contained_tol_default",
    "Verif.Props.C93.newton_tol_ignored"
   ],
   "note": "The composition of C29, C32 and C33. BoundaryReflection (NESO-Particles) by contract (ReflectOk). The tests of the kernels have to find a wall that is met (WallsOk.complete; for planes C30, C31). Finding (config_not_passed, newton_tol_ignored): the configuration given to the reflection is documented to be passed to the intersection routines but is not."
  },
  {
   "property": "C94",
   "status": "partial",
   "theorems": [
    "Verif.Props.C94.mappers_3d",
    "Verif.Props.C94.partition_3d",
    "Verif.Props.C94.meant_for_one",
    "Verif.Props.C94.mappers_2d_partial",
    "Verif.Props.C94.partition_2d",
    "Verif.Props.C94.newton_settings_partial",
    "Verif.Props.C94.grid_size_forced",
    "Verif.Props.C94.grid_size_max_ignored",
    "Verif.Props.C94.grid_size_max_not_respected",
    "Verif.Props.C94.deformed_triangle_unused",
    "Verif.Props.C94.all_elements_2d_fails",
    "Verif.Props.C94.unaccepted_particle_fatal",
    "Verif.Props.C94.unknown_type_refused",
    "Verif.Props.C94.other_dimension_refused"
   ],
   "note": "Full in 3D except one setting. False of the code: the upper end of the grid size is read from the key grid_size_min, so grid_size_max is ignored and setting grid_size_min fixes the size (grid_size_max_ignored, grid_size_max_not_respected, grid_size_forced); deformed triangles are given to no 2D mapper (all_elements_2d_fails), and a particle only in such an element stops the program (unaccepted_particle_fatal)."
  },
  {
   "property": "C95",
   "status": "partial",
   "theorems": [
    "Verif.Props.C95.wrap_in_domain_partial",
    "Verif.Props.C95.wrap_error",
    "Verif.Props.C95.periods_bounds",
    "Verif.Props.C95.periods_upper",
    "Verif.Props.C95.wrap_exact",
    "Verif.Props.C95.inside_particle_moved",
    "Verif.Props.C95.upper_end_reached",
    "Verif.Props.C95.upper_end_reached_by_default",
    "Verif.Props.C95.nearest_even_rounds_up",
    "Verif.Props.C95.modes_are_roundings",
    "Verif.Props.C95.default_mode_exists",
    "Verif.Props.C95.rounds_up_exists"
   ],
   "note": "In the closed domain for every rounding mode if the extent is at least one or the particle is not below the origin (for smaller extents the exact kernel already fails, C27). False of the code: a particle that is already in the domain should not be moved, but for any rounding mode there is a domain and a particle strictly inside that is moved by more than a quarter (inside_particle_moved); and the upper end itself, outside of the half open domain, can be reached (upper_end_reached)."
  },
  {
   "property": "C96",
   "status": "proved",
   "theorems": [
    "Verif.Props.C96.sub_steps",
    "Verif.Props.C96.sub_steps_unique",
    "Verif.Props.C96.near_end",
    "Verif.Props.C96.loop_stuck"
   ],
   "note": "Condition: the particle time step is at least four units of rounding of the end time; loop_stuck shows that without a condition of this kind the loop does not end."
  },
  {
   "property": "C97",
   "status": "proved",
   "theorems": [
    "Verif.Props.C97.lookup_rounded",
    "Verif.Props.C97.cell_bounds",
    "Verif.Props.C97.cellOf_spec",
    "Verif.Props.C97.cellOf_mono",
    "Verif.Props.C97.overlapF_pos",
    "Verif.Props.C97.gridCountsF_spec",
    "Verif.Props.C97.root_ok",
    "Verif.Props.C97.double_scale",
    "Verif.Props.C97.square_input",
    "Verif.Props.C97.large_coordinates_stop",
    "Verif.Props.C97.empty_grid_refused"
   ],
   "note": "Under the stated conditions on sizes. large_coordinates_stop shows that the condition on the coordinates is needed: with coordinates of 2^53 the constructor stops at an assertion. Points within 32 units of rounding of the bounding box of their element may be missed, as on grid lines in exact arithmetic (C34)."
  },
  {
   "property": "C98",
   "status": "proved",
   "theorems": [
    "Verif.Props.C98.construct_iff",
    "Verif.Props.C98.construct_single",
    "Verif.Props.C98.construct_none",
    "Verif.Props.C98.same_as_alone",
    "Verif.Props.C98.project_each",
    "Verif.Props.C98.same_expansions",
    "Verif.Props.C98.different_modes_refused",
    "Verif.Props.C98.surface_fields_fail"
   ],
   "note": "For fields whose expansions have a basis for each coordinate. surface_fields_fail shows that on surface meshes in three dimensions the comparison reads a basis that does not exist."
  },
  {
   "property": "C99",
   "status": "partial",
   "theorems": [
    "Verif.Props.C99.solver_exit_status",
    "Verif.Props.C99.stops_at_first_failure",
    "Verif.Props.C99.runPhases_spec",
    "Verif.Props.C99.electrostatic_exit_status_partial",
    "Verif.Props.C99.thrown_string_is_success",
    "Verif.Props.C99.silent_failure",
    "Verif.Props.C99.solver_success_ran",
    "Verif.Props.C99.electrostatic_success_ran"
   ],
   "note": "The solver programs are covered in full. Electrostatic2D3V returns zero after a thrown string, so the claim is false of it; electrostatic_exit_status_partial says exactly when it returns zero."
  },
  {
   "property": "C100",
   "status": "proved",
   "theorems": [
    "Verif.Props.C100.exact_at_point_1d",
    "Verif.Props.C100.exact_at_point_2d",
    "Verif.Props.C100.exact_at_point_3d",
    "Verif.Props.C100.error_1d",
    "Verif.Props.C100.error_2d",
    "Verif.Props.C100.error_3d",
    "Verif.Props.C100.polynomial_1d",
    "Verif.Props.C100.interpolant_polynomial",
    "Verif.Props.C100.weights_in_range",
    "Verif.Props.C100.overflow_next_to_point"
   ],
   "note": "Overflow is not modelled; weights_in_range shows that the weights stay in the range. overflow_next_to_point is the finding: within 2^-1074 of a quadrature point at zero a quotient exceeds the range of double."
  },
  {
   "property": "C101",
   "status": "partial",
   "theorems": [
    "Verif.Props.C101.identities",
    "Verif.Props.C101.total_number",
    "Verif.Props.C101.in_domain_partial",
    "Verif.Props.C101.key0_outside",
    "Verif.Props.C101.species",
    "Verif.Props.C101.total_charge",
    "Verif.Props.C101.positions_independent_of_ranks",
    "Verif.Props.C101.key0_independent_of_ranks",
    "Verif.Props.C101.velocities_depend_on_ranks",
    "Verif.Props.C101.succeeds",
    "Verif.Props.C101.rejects",
    "Verif.Props.C101.maxwellian_can_throw",
    "Verif.Props.C101.maxwellian_succeeds",
    "Verif.Props.C101.ring_speed"
   ],
   "note": "in_domain_partial has the conditions on the box for the keys 0 and 1, without which the claim is false (key0_outside). Independence of the ranks is proved for the positions of the keys 0, 2, 3, 5 with Sobol numbers and the same seed on all ranks, and for the whole state for key 0; it is false for the velocities (velocities_depend_on_ranks). The random engines are parameters with their documented ranges."
  },
  {
   "property": "C102",
   "status": "partial",
   "theorems": [
    "Verif.Props.C102.units_consistent",
    "Verif.Props.C102.boltzmann_agree",
    "Verif.Props.C102.ion_mass",
    "Verif.Props.C102.weight_total",
    "Verif.Props.C102.weight_cases",
    "Verif.Props.C102.region_volume_DR",
    "Verif.Props.C102.region_volume_SOL",
    "Verif.Props.C102.region_density_partial",
    "Verif.Props.C102.default_sources",
    "Verif.Props.C102.number_of_lines",
    "Verif.Props.C102.line_shape",
    "Verif.Props.C102.shifts_balance",
    "Verif.Props.C102.shifts_distinct",
    "Verif.Props.C102.rotate_isometry",
    "Verif.Props.C102.walls_keep_sources_partial",
    "Verif.Props.C102.rotated_removed",
    "Verif.Props.C102.lines_outside",
    "Verif.Props.C102.centreDR_partial",
    "Verif.Props.C102.centreDR_offset"
   ],
   "note": "The walls test the first coordinate also in rotated domains: walls_keep_sources_partial is for theta = 0 and sources between the walls, rotated_removed and lines_outside show that both conditions are needed. centreDR_partial: the source is in the middle exactly if the domain starts at zero. region_density_partial: with two source regions (the default) the density in them is half of the one in the session, since the volume of one region is used. erf_inv is any odd function increasing on (-1,1)."
  },
  {
   "property": "C103",
   "status": "proved",
   "theorems": [
    "Verif.Props.C103.global_size",
    "Verif.Props.C103.global_size_fails",
    "Verif.Props.C103.padding",
    "Verif.Props.C103.basis_launch",
    "Verif.Props.C103.launches_are_work_items",
    "Verif.Props.C103.regular_launch",
    "Verif.Props.C103.scratch_disjoint",
    "Verif.Props.C103.block_regions",
    "Verif.Props.C103.interleaving_has_no_effect",
    "Verif.Props.C103.schedules_agree"
   ],
   "note": "launches_are_work_items connects the launches with the lists of work items with which C78 and C79 describe projection and evaluation. The steps of a work item are any functions of its registers and its part of the local memory; writes to the particle and atomics are C78/C79."
  },
  {
   "property": "C104",
   "status": "partial",
   "theorems": [
    "Verif.Props.C104.direct",
    "Verif.Props.C104.frequencies",
    "Verif.Props.C104.one_frequency_ignored",
    "Verif.Props.C104.other_frequency_ignored",
    "Verif.Props.C104.fails_iff",
    "Verif.Props.C104.alpha_physical",
    "Verif.Props.C104.alpha_pos_iff",
    "Verif.Props.C104.larmor_eq",
    "Verif.Props.C104.kappa_value",
    "Verif.Props.C104.kappa_partial",
    "Verif.Props.C104.kappa_default_field"
   ],
   "note": "kappa_value: kappa is sqrt(B) times the Larmor radius over the scale length, so kappa_partial: it is the documented value exactly for B = 1; kappa_default_field: not for the default field. Temperatures in electron volts, as in the code."
  },
  {
   "property": "C105",
   "status": "partial",
   "theorems": [
    "Verif.Props.C105.weight_nonneg",
    "Verif.Props.C105.weight_nonincreasing",
    "Verif.Props.C105.marked_iff",
    "Verif.Props.C105.marked_partial",
    "Verif.Props.C105.zero_marked",
    "Verif.Props.C105.balance",
    "Verif.Props.C105.balance_steps",
    "Verif.Props.C105.sources_nonneg",
    "Verif.Props.C105.balance_unbounded",
    "Verif.Props.C105.unmarked_zero",
    "Verif.Props.C105.exact_call"
   ],
   "note": "marked_partial: without the hypothesis on the compiler only one direction holds, unmarked_zero shows a particle that loses all its weight unmarked if only the sum of the test is fused (zero_marked: it is marked by the next call). balance_unbounded: the bound must grow with the number of calls, since a weight change below the rounding unit leaves the weight but is given to the plasma. exact_call: without rounding the model is the one of C62."
  },
  {
   "property": "C106",
   "status": "proved",
   "theorems": [
    "Verif.Props.C106.step_error",
    "Verif.Props.C106.position_error",
    "Verif.Props.C106.speed_step",
    "Verif.Props.C106.speed_steps",
    "Verif.Props.C106.speed_drift",
    "Verif.Props.C106.neutral_unchanged"
   ],
   "note": "Overflow is not modelled; Sizes says that the scaled field components are zero or at least 2^-1000 and at most 2^400 and that the speed is at least 2^-900."
  },
  {
   "property": "C107",
   "status": "partial",
   "theorems": [
    "Verif.Props.C107.quad_found",
    "Verif.Props.C107.triangle_found_partial",
    "Verif.Props.C107.accepted",
    "Verif.Props.C107.triangle_lost",
    "Verif.Props.C107.program_stops"
   ],
   "note": "Near the collapsed vertex of triangles the claim is false: triangle_lost gives a position strictly inside a triangle which neither that triangle nor its neighbour accepts with the default tolerances and rounding to nearest, and program_stops shows that the program then stops. Overflow is not modelled."
  },
  {
   "property": "C108",
   "status": "proved",
   "theorems": [
    "Verif.Props.C108.points_distributed",
    "Verif.Props.C108.particles_at_points",
    "Verif.Props.C108.line_2d"
   ],
   "note": "parallel_advection_initialisation is modelled by the transfer of hybrid_move; get_decomp_1d is any partition of the indices into intervals; add_particles_local puts particles in the cell of their cell id."
  },
  {
   "property": "C109",
   "status": "proved",
   "theorems": [
    "Verif.Props.C109.components_fit",
    "Verif.Props.C109.line_file",
    "Verif.Props.C109.line_values",
    "Verif.Props.C109.solver_files",
    "Verif.Props.C109.line_box",
    "Verif.Props.C109.derivative_mean_shift"
   ],
   "note": "derivative_mean_shift is a finding: with derivative and mean_shift together (not used by the solvers) only the first derivative is shifted, and by the mean of the field. FieldEvaluate, FieldMean and H5Part by contract (C67, C78-C80)."
  },
  {
   "property": "C110",
   "status": "proved",
   "theorems": [
    "Verif.Props.C110.integrate_edges",
    "Verif.Props.C110.substep_correct",
    "Verif.Props.C110.integrate_correct",
    "Verif.Props.C110.project_correct",
    "Verif.Props.C110.pre_integrate_correct",
    "Verif.Props.C110.init_good",
    "Verif.Props.C110.mass_balance",
    "Verif.Props.C110.projected_mass",
    "Verif.Props.C110.mass_conserved",
    "Verif.Props.C110.serial",
    "Verif.Props.C110.time_steps_correct",
    "Verif.Props.C110.simulation",
    "Verif.Props.C110.sol_2d"
   ],
   "note": "Exact arithmetic. Fields and basis functions are functions of the element and reference position (C78-C80). One sub step for the mass: with more it is not conserved (finding C64)."
  },
  {
   "property": "C111",
   "status": "proved",
   "theorems": [
    "Verif.Props.C111.integrate_edges",
    "Verif.Props.C111.walls_rejected",
    "Verif.Props.C111.addParticles_correct",
    "Verif.Props.C111.new_ids",
    "Verif.Props.C111.new_drawn",
    "Verif.Props.C111.initial",
    "Verif.Props.C111.forwardEuler_correct",
    "Verif.Props.C111.ionise_correct",
    "Verif.Props.C111.substep_correct",
    "Verif.Props.C111.integrate_correct",
    "Verif.Props.C111.pre_integrate_correct",
    "Verif.Props.C111.time_steps_correct",
    "Verif.Props.C111.ids_unique",
    "Verif.Props.C111.mass_conserved",
    "Verif.Props.C111.drift_reduced_3d"
   ],
   "note": "Exact arithmetic. Density and basis functions are functions of the element and reference position (C78-C80). parallel_advection_* are external: arbitrary positions, restored at the end. One sub step for the mass: with more it is not conserved (finding C64)."
  },
  {
   "property": "C112",
   "status": "partial",
   "theorems": [
    "Verif.Props.C112.step_across_axis_noticed",
    "Verif.Props.C112.axis_wall_not_passed",
    "Verif.Props.C112.face_across_axis",
    "Verif.Props.C112.face_not_passed",
    "Verif.Props.C112.clear_step_noticed",
    "Verif.Props.C112.wall_not_passed_partial",
    "Verif.Props.C112.normal_bounded",
    "Verif.Props.C112.face_bounded",
    "Verif.Props.C112.any_face_not_passed_partial",
    "Verif.Props.C112.reported_near",
    "Verif.Props.C112.reported_on_wall",
    "Verif.Props.C112.wall_at_angle_passed_unnoticed",
    "Verif.Props.C112.not_all_walls_noticed"
   ],
   "note": "False of the code for walls at an angle: wall_at_angle_passed_unnoticed gives a rectangle in the plane 3x+4y=0 and a trajectory of doubles through it which no step reports. Partial: such walls, for trajectories away from the plane. Overflow is not modelled."
  },
  {
   "property": "C113",
   "status": "partial",
   "theorems": [
    "Verif.Props.C113.owned_cell_examined",
    "Verif.Props.C113.setup_exact",
    "Verif.Props.C113.reached_examined",
    "Verif.Props.C113.walls_of_all_ranks",
    "Verif.Props.C113.spread_does_not_matter",
    "Verif.Props.C113.from_the_wall_not_reported"
   ],
   "note": "Proved for steps that are inside of the box of an element before they reach the wall there. False of the code for a particle that starts on an upper boundary which is also a cell boundary: from_the_wall_not_reported. Element and face shapes are boxes here as in the code's claims; HitsGeom is the code's own test (C31, C112 relate it to geometry). MPI and the container are contracts."
  },
  {
   "property": "C114",
   "status": "partial",
   "theorems": [
    "Verif.Props.C114.evaluation_error",
    "Verif.Props.C114.projection_error",
    "Verif.Props.C114.orders_differ_little",
    "Verif.Props.C114.error_size",
    "Verif.Props.C114.computed_exists",
    "Verif.Props.C114.order_matters",
    "Verif.Props.C114.not_the_same_in_every_order"
   ],
   "note": "The error bounds are proved in full for given errors of the one dimensional basis values. That results are the same in every order is false of the code: order_matters. Not included: the rounding in the recurrences that compute the one dimensional values (they enter as the bound delta), overflow, and positions at the collapsed end (C13)."
  },
  {
   "property": "C115",
   "status": "proved",
   "theorems": [
    "Verif.Props.C115.tables_error",
    "Verif.Props.C115.host_evaluate_error",
    "Verif.Props.C115.mod_A_error",
    "Verif.Props.C115.stored_computed",
    "Verif.Props.C115.stored_exists",
    "Verif.Props.C115.quad_hex_evaluation_error",
    "Verif.Props.C115.quad_hex_projection_error",
    "Verif.Props.C115.accurate_size"
   ],
   "note": "The bounds grow like (alpha+3)^n because the recursion is bounded step by step; the actual errors are smaller. Triangles, prisms, pyramids and tetrahedra, with mod_B, mod_C, mod_PyrC and the collapsed coordinates in doubles, are C116."
  },
  {
   "property": "C116",
   "status": "partial",
   "theorems": [
    "Verif.Props.C116.collapse_error",
    "Verif.Props.C116.inside_near",
    "Verif.Props.C116.inside_position",
    "Verif.Props.C116.basis_error",
    "Verif.Props.C116.stored_computed",
    "Verif.Props.C116.stored_exists",
    "Verif.Props.C116.evaluation_error",
    "Verif.Props.C116.projection_error",
    "Verif.Props.C116.modB_not_finite",
    "Verif.Props.C116.tet_not_finite"
   ],
   "note": "For five of the six shapes the claim is proved as stated. For tetrahedra tet_not_finite shows that it is false, and inside_position needs the distance 2^-46 from the collapsed edge."
  },
  {
   "property": "C117",
   "status": "proved",
   "theorems": [
    "Verif.Props.C117.constant_evaluated",
    "Verif.Props.C117.charge_deposited",
    "Verif.Props.C117.total_charge"
   ],
   "note": "Composition of the error bounds of C116 with the exact partition of unity of C86. The bounds grow with the number of modes as in C116. The overflow of doubles is not modelled."
  },
  {
   "property": "C118",
   "status": "proved",
   "theorems": [
    "Verif.Props.C118.accepted_inside_double",
    "Verif.Props.C118.accepted_final_inside_double"
   ],
   "note": "The floating point version of C59. The scalings of the residual are the stored doubles; how they are computed is not part of this claim (exactly: C37). Overflow of finite doubles is not modelled; the position of the particle is finite."
  },
  {
   "property": "C119",
   "status": "partial",
   "theorems": [
    "Verif.Props.C119.nan_position_bound",
    "Verif.Props.C119.nan_accepted",
    "Verif.Props.C119.all_nan_rejected_partial",
    "Verif.Props.C119.accepted_directions_partial",
    "Verif.Props.C119.nan_bound_regular_3d",
    "Verif.Props.C119.nan_contained_2d",
    "Verif.Props.C119.nan_rejected_regular_2d_partial",
    "Verif.Props.C119.regular_3d_of_numbers"
   ],
   "note": "False of the code: sycl::fmax returns the other argument if one is NaN, so the measure of the residual ignores the NaN direction. A quadrilateral accepts a particle at (NaN, y) with reference position (0, 0) if y is within the tolerance of the y coordinate of its centre (nan_accepted, nan_position_bound). Proved: a particle that is NaN in all directions is rejected, and an accepted particle satisfies the tolerance in all directions in which the residual is a number. Regular elements: the test in three dimensions and contains_point_2d on the host accept every NaN position, with a NaN reference position, because the distance is computed with comparisons that are false (nan_bound_regular_3d, nan_contained_2d); the device test in two dimensions rejects all of them. Hexahedra under Newton use a macro of NESO-Particles for the maximum and are not covered; whether the element is a candidate depends on the conversion of NaN to int, which is undefined in C++."
  },
  {
   "property": "C120",
   "status": "partial",
   "theorems": [
    "Verif.Props.C120.local_coordinates",
    "Verif.Props.C120.hex_found",
    "Verif.Props.C120.found_partial",
    "Verif.Props.C120.accepted_computed",
    "Verif.Props.C120.accepted",
    "Verif.Props.C120.runs",
    "Verif.Props.C120.hex_missed"
   ],
   "note": "False of the code for the default tolerance 0 (hex_missed): of two boxes that share a face neither accepts a position (three doubles) strictly inside the first, for round to nearest, however products are fused and for all tolerances below 2^-52; the host mapper, which is tried last, is not covered here. Proved: all hexahedra find all their points if the tolerance is at least 500 relative errors; the other shapes find points away from the singular edge or vertex (found_partial; missing: points near it, where already triangles fail, C107); what is stored and accepted for all shapes; a run always exists. sycl::dot and sycl::cross are taken to be the textbook formulas; overflow is not modelled."
  },
  {
   "property": "C121",
   "status": "proved",
   "theorems": [
    "Verif.Props.C121.line_normal",
    "Verif.Props.C121.face_normal",
    "Verif.Props.C121.computed_unit",
    "Verif.Props.C121.reflection",
    "Verif.Props.C121.reflections"
   ],
   "note": "The reflection itself is done by NESO-Particles and is taken to be exact here, as in its contract (Spec/Reflection.lean); what is proved is the effect of the rounding in the normals. Overflow is not modelled."
  },
  {
   "property": "C122",
   "status": "partial",
   "theorems": [
    "Verif.Props.C122.contract_met",
    "Verif.Props.C122.solved",
    "Verif.Props.C122.documented_2d",
    "Verif.Props.C122.documented_3d_partial",
    "Verif.Props.C122.default_3d_iff",
    "Verif.Props.C122.wave_default",
    "Verif.Props.C122.default_3d_wrong",
    "Verif.Props.C122.lapd_3d",
    "Verif.Props.C122.drift_plane"
   ],
   "note": "True in two dimensions, for the drift plane and in three dimensions with d22 = 0 in the session. Missing, because it is false: in three dimensions d22 defaults to one and is not documented, so a session without it solves the full Laplacian instead of equation (3) of examples/DriftReduced/README.md; default_3d_wrong: not the documented equation for any wave that varies along the field; wave_default: the potential is too small by (qx^2+qy^2)/(qx^2+qy^2+qz^2). HelmSolve is a contract (contract_met: it can be met). Exact arithmetic."
  },
  {
   "property": "C123",
   "status": "proved",
   "theorems": [
    "Verif.Props.C123.kinetic_error",
    "Verif.Props.C123.kinetic_nonneg",
    "Verif.Props.C123.potential_error",
    "Verif.Props.C123.mass_error",
    "Verif.Props.C123.mass_runs",
    "Verif.Props.C123.recorded_error",
    "Verif.Props.C123.conserving",
    "Verif.Props.C123.light_particles_lost",
    "Verif.Props.C123.order_matters"
   ],
   "note": "The bound grows with the number of additions that follow one another, and it must: light_particles_lost gives any number of particles whose mass is lost in one order, order_matters two orders with different results. The potential at the particles, its mean and the integral of the density are taken as computed (C100, C116 bound the evaluation). Overflow is not modelled."
  },
  {
   "property": "C124",
   "status": "partial",
   "theorems": [
    "Verif.Props.C124.line_between",
    "Verif.Props.C124.line_in_domain_partial",
    "Verif.Props.C124.line_error",
    "Verif.Props.C124.line_first",
    "Verif.Props.C124.line_monotone",
    "Verif.Props.C124.inclined_line_leaves",
    "Verif.Props.C124.probe_in_domain"
   ],
   "note": "Proved in full for domains that are boxes, with ends anywhere in them or on their boundary. Missing, because it is false: domains with inclined boundaries; inclined_line_leaves gives a line along such a boundary, one of whose points is outside for every rounding mode. The distance of the ends is zero or above 2^-900; overflow is not modelled."
  },
  {
   "property": "C125",
   "status": "proved",
   "theorems": [
    "Verif.Props.C125.verlet_is_kernel",
    "Verif.Props.C125.run_error",
    "Verif.Props.C125.trajectory_reverse",
    "Verif.Props.C125.reversal_error",
    "Verif.Props.C125.free_velocity"
   ],
   "note": "The fields at the particle are taken as computed (their error is that of the evaluation, C115 and others). The boundary condition after a move is C95 and not part of these steps. Overflow is not modelled."
  },
  {
   "property": "C126",
   "status": "proved",
   "theorems": [
    "Verif.Props.C126.bounded",
    "Verif.Props.C126.energy_bounded",
    "Verif.Props.C126.harmonic",
    "Verif.Props.C126.unbounded"
   ],
   "note": "About states whose stored field is that of the positions, which is every state after the first step (the first step ignores the field, a finding of C66). Exact arithmetic; rounding over n steps is C125. The field is a given function of the positions that is linear at the particle in question."
  },
  {
   "property": "C127",
   "status": "proved",
   "theorems": [
    "Verif.Props.C127.velocity",
    "Verif.Props.C127.gyration",
    "Verif.Props.C127.drifting"
   ],
   "note": "Exact arithmetic (rounding: C106). Positions are those before the periodic boundary condition, which changes them by periods (C27)."
  },
  {
   "property": "C128",
   "status": "partial",
   "theorems": [
    "Verif.Props.C128.same_positions_partial",
    "Verif.Props.C128.boris_bounded",
    "Verif.Props.C128.first_step",
    "Verif.Props.C128.start_differs"
   ],
   "note": "same_positions_partial: the trajectories are the same if Boris is started with the velocities of half a step earlier. Missing, because it is false of the programs: both integrators are started with the same velocities, and velocity Verlet with a stored field of zero; in the first step Verlet moves a particle without the field and Boris with twice the displacement dt^2/2 a of the second order formula (first_step), so from the same initial state the positions differ (start_differs). Exact arithmetic; masses are not zero."
  },
  {
   "property": "C129",
   "status": "partial",
   "theorems": [
    "Verif.Props.C129.uniform_partial",
    "Verif.Props.C129.neutral",
    "Verif.Props.C129.start_lags"
   ],
   "note": "Proved from states whose stored field is that of the positions (every state after the first step). False of the programs from their start: the stored field is zero there, so the velocity lags by a dt / 2 for ever and the position by a dt / 2 times the time (start_lags, for all initial states, fields and numbers of steps). Exact arithmetic."
  },
  {
   "property": "C130",
   "status": "proved",
   "theorems": [
    "Verif.Props.C130.program",
    "Verif.Props.C130.volume_preserved"
   ],
   "note": "Exact arithmetic. program: n steps of the modelled program from the state of a point of phase space give the state of the point to which the flow takes it. Positions in phase space are not reduced to the periodic domain; sides of the domain of at least one (C27); states whose stored field is that of the positions (every state after the first step)."
  },
  {
   "property": "C131",
   "status": "proved",
   "theorems": [
    "Verif.Props.C131.program",
    "Verif.Props.C131.volume_preserved"
   ],
   "note": "Exact arithmetic. program: n time steps of the main loop keep the particles at the points to which the flow takes the initial point. Positions in phase space are not reduced to the periodic domain; sides of the domain of at least one (C27); masses are not zero."
  }
 ]
}