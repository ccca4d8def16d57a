{
 "claims": [
  {
   "property": "C01",
   "status": "proved",
   "theorems": [
    "DG.C01_partition_no_ub",
    "DG.C01_element_on_exactly_one_rank",
    "DG.C01_rank_elements",
    "DG.C01_element_counts_add_up"
   ],
   "note": ""
  },
  {
   "property": "C02",
   "status": "proved",
   "theorems": [
    "DG.C02_id_translation"
   ],
   "note": ""
  },
  {
   "property": "C03",
   "status": "proved",
   "theorems": [
    "DG.C03_nodes_exact",
    "DG.C03_connectivity"
   ],
   "note": ""
  },
  {
   "property": "C04",
   "status": "proved",
   "theorems": [
    "DG.C04_interior_faces",
    "DG.C04_face_ranks"
   ],
   "note": ""
  },
  {
   "property": "C05",
   "status": "proved",
   "theorems": [
    "DG.C05_face_record"
   ],
   "note": ""
  },
  {
   "property": "C06",
   "status": "proved",
   "theorems": [
    "DG.C06_neighbours_exact",
    "DG.C06_neighbours_symmetric"
   ],
   "note": ""
  },
  {
   "property": "C07",
   "status": "proved",
   "theorems": [
    "DG.C07_ghost_list_exact",
    "DG.C07_ghost_lists_agree",
    "DG.C07_ghost_counts_add_up"
   ],
   "note": ""
  },
  {
   "property": "C08",
   "status": "proved",
   "theorems": [
    "DG.C08_ghost_states_agree"
   ],
   "note": ""
  },
  {
   "property": "C09",
   "status": "proved",
   "theorems": [
    "DG.C09_no_error",
    "DG.C09_no_deadlock",
    "DG.C09_terminates",
    "DG.C09_schedule_independent",
    "DG.C09_send_buffers_free_after_barrier"
   ],
   "note": ""
  },
  {
   "property": "C10",
   "status": "proved",
   "theorems": [
    "DG.C10_reverse_map",
    "DG.C10_list_meaning",
    "DG.C10_out_of_bounds_iff",
    "DG.C10_counter_is_number_of_sides",
    "DG.C10_self_face_breaks"
   ],
   "note": ""
  },
  {
   "property": "C11",
   "status": "proved",
   "theorems": [
    "DG.C11_coordinates",
    "DG.C11_element_pointers",
    "DG.C11_face_record",
    "DG.C11_boundary_faces",
    "DG.C11_boundary_numbering",
    "DG.C11_read_then_partition"
   ],
   "note": ""
  },
  {
   "property": "C12",
   "status": "proved",
   "theorems": [
    "DG.C12_debug_print_ub_iff",
    "DG.C12_fewer_parts_than_ranks_is_ub",
    "DG.C12_more_parts_than_ranks_is_ub",
    "DG.C12_elements_of_a_rank",
    "DG.C12_single_partition",
    "DG.C12_mesh_npartitions_ignored",
    "DG.C12_npartitions_iff",
    "DG.C12_not_honoured"
   ],
   "note": "What a user expects (npartitions in [Mesh] honoured) is refuted by C12_not_honoured; the statement is the complete description of what happens instead."
  },
  {
   "property": "C13",
   "status": "proved",
   "theorems": [
    "DG.C13_quad_permutation",
    "DG.C13_hex_permutation",
    "DG.C13_hex_rejected"
   ],
   "note": ""
  },
  {
   "property": "C14",
   "status": "proved",
   "theorems": [
    "DG.C14_quad_geometry",
    "DG.C14_hex_geometry",
    "DG.C14_needs_symmetry"
   ],
   "note": ""
  },
  {
   "property": "C15",
   "status": "proved",
   "theorems": [
    "DG.C15_quad_on_face",
    "DG.C15_hex_on_face"
   ],
   "note": ""
  },
  {
   "property": "C16",
   "status": "proved",
   "theorems": [
    "DG.C16_quad_face_nodes",
    "DG.C16_hex_face_nodes",
    "DG.C16_hex_list_order",
    "DG.C16_quad_list_order"
   ],
   "note": ""
  },
  {
   "property": "C17",
   "status": "proved",
   "theorems": [
    "DG.C17_hex_normal_misplaced",
    "DG.C17_quad_normal",
    "DG.C17_hex_normal_transposed",
    "DG.C17_sign_flips",
    "DG.C17_quad_affine",
    "DG.C17_quad_closed",
    "DG.C17_hex_affine",
    "DG.C17_hex_closed"
   ],
   "note": ""
  },
  {
   "property": "C18",
   "status": "proved",
   "theorems": [
    "DG.C18_nodal",
    "DG.C18_sum_one",
    "DG.C18_reproduces",
    "DG.C18_segment_sum_one"
   ],
   "note": ""
  },
  {
   "property": "C19",
   "status": "proved",
   "theorems": [
    "DG.C19_polynomial_derivative",
    "DG.C19_grads_sum_zero",
    "DG.C19_is_derivative"
   ],
   "note": ""
  },
  {
   "property": "C20",
   "status": "proved",
   "theorems": [
    "DG.C20_equidistant_range",
    "DG.C20_generators_agree",
    "DG.C20_order_zero"
   ],
   "note": ""
  },
  {
   "property": "C21",
   "status": "proved",
   "theorems": [
    "DG.C21_values",
    "DG.C21_gradients",
    "DG.C21_above_seven_unset",
    "DG.C21_normalised",
    "DG.C21_orthogonal",
    "DG.C21_is_derivative",
    "DG.C21_quadrilateral",
    "DG.C21_hexahedron"
   ],
   "note": ""
  },
  {
   "property": "C22",
   "status": "proved",
   "theorems": [
    "DG.C22_quad_product",
    "DG.C22_hex_product",
    "DG.C22_sum_one",
    "DG.C22_quad_nodal",
    "DG.C22_hex_nodal",
    "DG.C22_quad_gradients",
    "DG.C22_hex_gradients"
   ],
   "note": ""
  },
  {
   "property": "C23",
   "status": "proved",
   "theorems": [
    "DG.C23_exact",
    "DG.C23_order_36_37_fails",
    "DG.C23_exact_iff",
    "DG.C23_order_36_37_unset"
   ],
   "note": "The exception is a defect of the code (pts(16) assigned twice, nodes.cpp 343)."
  },
  {
   "property": "C24",
   "status": "proved",
   "theorems": [
    "DG.C24_points_and_weights",
    "DG.C24_points_and_weights_iff"
   ],
   "note": "Exception: the defect of orders 36/37."
  },
  {
   "property": "C25",
   "status": "proved",
   "theorems": [
    "DG.C25_sizes",
    "DG.C25_above_tables_unset",
    "DG.C25_solution_orders"
   ],
   "note": ""
  },
  {
   "property": "C26",
   "status": "proved",
   "theorems": [
    "DG.C26_quad_tensor",
    "DG.C26_hex_tensor",
    "DG.C26_quad_exact",
    "DG.C26_hex_exact",
    "DG.C26_quad_exact_iff",
    "DG.C26_hex_exact_iff"
   ],
   "note": "Exception: the defect of orders 36/37."
  },
  {
   "property": "C27",
   "status": "proved",
   "theorems": [
    "DG.C27_det",
    "DG.C27_inverse_small",
    "DG.C27_inverse_large",
    "DG.C27_no_pivoting"
   ],
   "note": ""
  },
  {
   "property": "C28",
   "status": "proved",
   "theorems": [
    "DG.C28_products",
    "DG.C28_vectors"
   ],
   "note": ""
  },
  {
   "property": "C29",
   "status": "proved",
   "theorems": [
    "DG.C29_symmetric",
    "DG.C29_positive_definite",
    "DG.C29_needs_independence",
    "DG.C29_first_call_inverse",
    "DG.C29_any_store_small",
    "DG.C29_reused_store",
    "DG.C29_store_iff",
    "DG.C29_second_call",
    "DG.C29_quad_lagrange",
    "DG.C29_hex_lagrange"
   ],
   "note": "'Whatever the store held' is false for the code from four basis functions on; C29_store_iff says exactly when it holds."
  },
  {
   "property": "C30",
   "status": "proved",
   "theorems": [
    "DG.C30_reproduces",
    "DG.C30_idempotent",
    "DG.C30_error_orthogonal",
    "DG.C30_same_rule",
    "DG.C30_order_zero"
   ],
   "note": "At order 0 the code uses different rules for mass matrix and projection."
  },
  {
   "property": "C31",
   "status": "proved",
   "theorems": [
    "DG.C31_defined",
    "DG.C31_consistent",
    "DG.C31_conservative",
    "DG.C31_homogeneous",
    "DG.C31_dissipation"
   ],
   "note": ""
  },
  {
   "property": "C32",
   "status": "proved",
   "theorems": [
    "DG.C32_no_failure",
    "DG.C32_upwind_left",
    "DG.C32_upwind_right",
    "DG.C32_contact",
    "DG.C32_consistent",
    "DG.C32_stationary_contact",
    "DG.C32_homogeneous",
    "DG.C32_antisymmetric",
    "DG.C32_antisymmetric_iff",
    "DG.C32_antisymmetry_fails",
    "DG.C32_star_region"
   ],
   "note": "Antisymmetry fails for crossing wave-speed estimates (C32_antisymmetry_fails exhibits one); C32_antisymmetric_iff is the complete statement."
  },
  {
   "property": "C33",
   "status": "proved",
   "theorems": [
    "DG.C33_pressure",
    "DG.C33_pressure_positive",
    "DG.C33_wave_speed_bound",
    "DG.C33_characteristics",
    "DG.C33_flux"
   ],
   "note": ""
  },
  {
   "property": "C34",
   "status": "proved",
   "theorems": [
    "DG.C34_comoving",
    "DG.C34_isentropic",
    "DG.C34_defined",
    "DG.C34_gas_constant",
    "DG.C34_exact_solution",
    "DG.C34_3d_isentropic",
    "DG.C34_3d_ignores_time",
    "DG.C34_3d_translated",
    "DG.C34_3d_not_solution"
   ],
   "note": "The 3D routine ignores time: C34_3d_not_solution holds at every time and position."
  },
  {
   "property": "C35",
   "status": "proved",
   "theorems": [
    "DG.C35_configuration",
    "DG.C35_uniform",
    "DG.C35_uniform_too_short",
    "DG.C35_selects_routine",
    "DG.C35_sets_all",
    "DG.C35_unsupported_not_rejected",
    "DG.C35_sets_all_iff",
    "DG.C35_exact_is_ic",
    "DG.C35_flux",
    "DG.C35_navier_stokes_not_rejected"
   ],
   "note": "Rejection of unsupported combinations is refuted; C35_sets_all_iff is the complete statement."
  },
  {
   "property": "C36",
   "status": "proved",
   "theorems": [
    "DG.C36_residual_independent_of_history"
   ],
   "note": ""
  },
  {
   "property": "C37",
   "status": "proved",
   "theorems": [
    "DG.C37_scatter"
   ],
   "note": ""
  },
  {
   "property": "C38",
   "status": "proved",
   "theorems": [
    "DG.C38_residual_sums_to_zero",
    "DG.C38_steps_conserve",
    "DG.C38_run_conserves"
   ],
   "note": ""
  },
  {
   "property": "C39",
   "status": "proved",
   "theorems": [
    "DG.C39_residual_is_metric_defect",
    "DG.C39_uniform_residual_zero",
    "DG.C39_uniform_state_is_fixed",
    "DG.C39_run_preserves_uniform_state"
   ],
   "note": ""
  },
  {
   "property": "C40",
   "status": "proved",
   "theorems": [
    "DG.C40_textbook_step",
    "DG.C40_time_loop"
   ],
   "note": ""
  },
  {
   "property": "C41",
   "status": "proved",
   "theorems": [
    "DG.C41_final_time",
    "DG.C41_exact_end",
    "DG.C41_run_ends_at_final_time",
    "DG.C41_negative_end_wraps"
   ],
   "note": ""
  },
  {
   "property": "C42",
   "status": "proved",
   "theorems": [
    "DG.C42_round_trip",
    "DG.C42_serial_round_trip",
    "DG.C42_file_contents",
    "DG.C42_scalar_blocks_ub"
   ],
   "note": ""
  },
  {
   "property": "C43",
   "status": "proved",
   "theorems": [
    "DG.C43_regions_tile"
   ],
   "note": ""
  },
  {
   "property": "C44",
   "status": "proved",
   "theorems": [
    "DG.C44_wrong_rank_count",
    "DG.C44_wrong_rank_count_serial",
    "DG.C44_solution_file",
    "DG.C44_header"
   ],
   "note": ""
  },
  {
   "property": "C45",
   "status": "proved",
   "theorems": [
    "DG.C45_coefficients_survive"
   ],
   "note": ""
  },
  {
   "property": "C46",
   "status": "proved",
   "theorems": [
    "DG.C46_time_is_not_restored",
    "DG.C46_converter_keeps_time"
   ],
   "note": ""
  },
  {
   "property": "C47",
   "status": "proved",
   "theorems": [
    "DG.C47_serial_file_independent",
    "DG.C47_column_major_is_scrambled",
    "DG.C47_unused_node_is_lost"
   ],
   "note": ""
  },
  {
   "property": "C48",
   "status": "proved",
   "theorems": [
    "DG.C48_scalars_round_trip",
    "DG.C48_scalar_serial",
    "DG.C48_bool_round_trip"
   ],
   "note": ""
  },
  {
   "property": "C49",
   "status": "proved",
   "theorems": [
    "DG.C49_even_order",
    "DG.C49_unnormalised_depends_on_ranks",
    "DG.C49_every_order",
    "DG.C49_odd_order_cancels"
   ],
   "note": "Odd orders and the un-normalised variant are not norms; C49_every_order says what is reported."
  },
  {
   "property": "C50",
   "status": "proved",
   "theorems": [
    "DG.C50_enumerator_round_trip",
    "DG.C50_name_round_trip",
    "DG.C50_distinct_names",
    "DG.C50_unknown_rejected",
    "DG.C50_names_are_identifiers"
   ],
   "note": ""
  },
  {
   "property": "C51",
   "status": "proved",
   "theorems": [
    "DG.C51_exists_iff",
    "DG.C51_get_option_iff",
    "DG.C51_get_option_none_iff",
    "DG.C51_input_file"
   ],
   "note": ""
  },
  {
   "property": "C52",
   "status": "proved",
   "theorems": [
    "DG.C52_distinct",
    "DG.C52_distinct_sr",
    "DG.C52_sorted",
    "DG.C52_sorted_sr",
    "DG.C52_nine_digits_unsorted"
   ],
   "note": ""
  },
  {
   "property": "C53",
   "status": "proved",
   "theorems": [
    "DG.C53_sound",
    "DG.C53_sorted_iff",
    "DG.C53_unsorted_misses"
   ],
   "note": ""
  },
  {
   "property": "C54",
   "status": "proved",
   "theorems": [
    "DG.C54_accepts_iff",
    "DG.C54_covers_except",
    "DG.C54_not_covering",
    "DG.C54_guaranteed_iff"
   ],
   "note": ""
  },
  {
   "property": "C55",
   "status": "proved",
   "theorems": [
    "DG.C55_fills",
    "DG.C55_no_smaller",
    "DG.C55_table_agrees",
    "DG.C55_params",
    "DG.C55_faces",
    "DG.C55_unmatched",
    "DG.C55_quadrature",
    "DG.C55_solfile"
   ],
   "note": ""
  },
  {
   "property": "C56",
   "status": "proved",
   "theorems": [
    "DG.C56_element_coordinates",
    "DG.C56_element_volume",
    "DG.C56_mesh_volume"
   ],
   "note": ""
  },
  {
   "property": "C57",
   "status": "proved",
   "theorems": [
    "DG.C57_quad_same_points",
    "DG.C57_hex_same_points",
    "DG.C57_quad_conforming_nodes",
    "DG.C57_hex_conforming_nodes",
    "DG.C57_quad_normals_reversed",
    "DG.C57_quad_normals_agree_iff",
    "DG.C57_quad_straight_normals_agree",
    "DG.C57_hex_normals_permuted",
    "DG.C57_hex_affine_normals_agree",
    "DG.C57_quad_curved_normals_differ",
    "DG.C57_hex_twisted_normals_differ"
   ],
   "note": "Normals are evaluated at orientation-0 points of each side (and transposed for hexahedra): C57_*_agree_iff/permuted say exactly when the ranks agree, C57_quad_curved_normals_differ and C57_hex_twisted_normals_differ exhibit disagreement."
  },
  {
   "property": "C58",
   "status": "proved",
   "theorems": [
    "DG.C58_jacobian_inverse",
    "DG.C58_quad_jacobian_is_derivative",
    "DG.C58_hex_jacobian_is_derivative"
   ],
   "note": ""
  },
  {
   "property": "C59",
   "status": "proved",
   "theorems": [
    "DG.C59_residual_matches_serial"
   ],
   "note": ""
  },
  {
   "property": "C60",
   "status": "proved",
   "theorems": [
    "DG.C60_run_matches_serial",
    "DG.C60_run_completes",
    "DG.C60_partition_independent"
   ],
   "note": ""
  },
  {
   "property": "C61",
   "status": "proved",
   "theorems": [
    "DG.C61_traces_at_same_points",
    "DG.C61_setup_succeeds",
    "DG.C61_setup_is_textbook",
    "DG.C61_run_is_textbook",
    "DG.C61_run_completes",
    "DG.C61_partition_independent",
    "DG.C61_run_conserves"
   ],
   "note": ""
  },
  {
   "property": "C62",
   "status": "proved",
   "theorems": [
    "DG.C62_uniform_residual",
    "DG.C62_net_flux",
    "DG.C62_gas_at_rest_is_accelerated",
    "DG.C62_projection_exact",
    "DG.C62_uniform_start",
    "DG.C62_order_zero_keeps_uniform_flow",
    "DG.C62_first_step_deviation"
   ],
   "note": ""
  },
  {
   "property": "C63",
   "status": "proved",
   "theorems": [
    "DG.C63_traces_at_same_points",
    "DG.C63_normal_at_point",
    "DG.C63_setup_succeeds",
    "DG.C63_setup_is_textbook",
    "DG.C63_run_is_textbook",
    "DG.C63_run_completes",
    "DG.C63_partition_independent",
    "DG.C63_run_conserves"
   ],
   "note": ""
  },
  {
   "property": "C64",
   "status": "proved",
   "theorems": [
    "DG.C64_euler_quad",
    "DG.C64_euler_hex"
   ],
   "note": ""
  },
  {
   "property": "C65",
   "status": "proved",
   "theorems": [
    "DG.C65_start_admissible",
    "DG.C65_positivity_quad",
    "DG.C65_positivity_hex"
   ],
   "note": ""
  },
  {
   "property": "C66",
   "status": "proved",
   "theorems": [
    "DG.C66_uniform_residual",
    "DG.C66_net_flux",
    "DG.C66_projection_exact",
    "DG.C66_uniform_start",
    "DG.C66_order_zero_fixed_point",
    "DG.C66_order_zero_keeps_uniform_flow",
    "DG.C66_first_step_deviation",
    "DG.C66_trapezoids_break_free_stream"
   ],
   "note": ""
  },
  {
   "property": "C67",
   "status": "proved",
   "theorems": [
    "DG.C67_program_quad",
    "DG.C67_program_hex",
    "DG.C67_launch_independent_quad",
    "DG.C67_launch_independent_hex"
   ],
   "note": ""
  },
  {
   "property": "C68",
   "status": "proved",
   "theorems": [
    "DG.C68_post_quad",
    "DG.C68_post_hex"
   ],
   "note": ""
  },
  {
   "property": "C69",
   "status": "proved",
   "theorems": [
    "DG.Dev.C69_kernels_race_free",
    "DG.Dev.C69_start_race_free",
    "DG.Dev.C69_schedule_independent",
    "DG.Dev.C69_quad_normals_one_thread",
    "DG.Dev.C69_hex_normals_one_thread",
    "DG.Dev.C69_normals_setup",
    "DG.Dev.C69_quad_normals_race",
    "DG.Dev.C69_hex_normals_race"
   ],
   "note": ""
  },
  {
   "property": "C70",
   "status": "proved",
   "theorems": [
    "DG.Dev.C70_run_matches_serial",
    "DG.Dev.C70_run_completes",
    "DG.Dev.C70_executions_exist"
   ],
   "note": ""
  },
  {
   "property": "C71",
   "status": "proved",
   "theorems": [
    "DG.Pr.C71_in_order",
    "DG.Pr.C71_at_any_moment",
    "DG.Pr.C71_completes",
    "DG.Pr.C71_print",
    "DG.Pr.C71_print_3d_view",
    "DG.Pr.C71_print_view_1",
    "DG.Pr.C71_print_view_2",
    "DG.Pr.C71_print_view_3",
    "DG.Pr.C71_print_view_4",
    "DG.Pr.C71_print_4d_view",
    "DG.Pr.C71_post_lines"
   ],
   "note": ""
  },
  {
   "property": "C72",
   "status": "proved",
   "theorems": [
    "DG.C72_steps_of_doubles",
    "DG.C72_exact_when_representable",
    "DG.C72_decimal_input",
    "DG.C72_three_tenths_takes_two_steps",
    "DG.C72_clock"
   ],
   "note": ""
  },
  {
   "property": "C73",
   "status": "proved",
   "theorems": [
    "DG.C73_uniform_start",
    "DG.C73_vortex_start",
    "DG.C73_run_quad",
    "DG.C73_run_hex",
    "DG.C73_accepts_quad",
    "DG.C73_accepts_hex",
    "DG.C73_program_quad",
    "DG.C73_program_hex"
   ],
   "note": ""
  },
  {
   "property": "C74",
   "status": "proved",
   "theorems": [
    "DG.C74_run_quad",
    "DG.C74_run_hex",
    "DG.C74_accepts_quad",
    "DG.C74_accepts_hex",
    "DG.C74_program_quad",
    "DG.C74_program_hex"
   ],
   "note": ""
  },
  {
   "property": "C75",
   "status": "proved",
   "theorems": [
    "DG.Dev.C75_inverse_mass",
    "DG.Dev.C75_volume_data_bits",
    "DG.Dev.C75_volume_data",
    "DG.Dev.C75_initial_state",
    "DG.Dev.C75_setup_bits",
    "DG.Dev.C75_setup",
    "DG.Dev.C75_identity_race"
   ],
   "note": ""
  },
  {
   "property": "C76",
   "status": "proved",
   "theorems": [
    "DG.Dev.C76_time_loop",
    "DG.Dev.C76_start",
    "DG.Dev.C76_exchange_tables",
    "DG.Dev.C76_setup",
    "DG.Dev.C76_normals",
    "DG.Dev.C76_scratch"
   ],
   "note": ""
  },
  {
   "property": "C77",
   "status": "proved",
   "theorems": [
    "DG.C77_late_sends_safe",
    "DG.C77_late_sends_finish",
    "DG.C77_mirror_buffers_fault",
    "DG.C77_run_matches_serial",
    "DG.C77_program_quad",
    "DG.C77_program_hex"
   ],
   "note": ""
  },
  {
   "property": "C78",
   "status": "proved",
   "theorems": [
    "DG.C78_run_quad",
    "DG.C78_run_hex",
    "DG.C78_accepts_quad",
    "DG.C78_accepts_hex",
    "DG.C78_program_quad",
    "DG.C78_program_hex",
    "DG.C78_error_quad",
    "DG.C78_error_hex"
   ],
   "note": ""
  },
  {
   "property": "C79",
   "status": "proved",
   "theorems": [
    "DG.Dev.C79_rank",
    "DG.Dev.C79_printed",
    "DG.Dev.C79_post_quad",
    "DG.Dev.C79_post_hex"
   ],
   "note": ""
  },
  {
   "property": "C80",
   "status": "proved",
   "theorems": [
    "DG.C80_time_loop",
    "DG.C80_run_completes",
    "DG.C80_setup",
    "DG.C80_case",
    "DG.Dev.C80_threads",
    "DG.Dev.C80_threads_sequential",
    "DG.Dev.C80_threads_case",
    "DG.Dev.C80_threads_completes"
   ],
   "note": ""
  },
  {
   "property": "C81",
   "status": "proved",
   "theorems": [
    "DG.C81_time_loop",
    "DG.C81_parallel_run",
    "DG.C81_linear_case",
    "DG.C81_linear_flux"
   ],
   "note": "Smoothness of the exact solution is a hypothesis of the order statements (TimeOrderExample meets it with linear fluxes; C82 gives solutions of the Euler equations)."
  },
  {
   "property": "C82",
   "status": "proved",
   "theorems": [
    "DG.C82_solution_exists",
    "DG.C82_run_converges",
    "DG.C82_solution_unique",
    "DG.C82_program_quad",
    "DG.C82_program_hex",
    "DG.C82_uniform_regular_quad",
    "DG.C82_uniform_regular_hex",
    "DG.C82_uniform_run_quad",
    "DG.C82_uniform_run_hex",
    "DG.C82_hllc_jump"
   ],
   "note": "Up to a time before which the semidiscrete solution stays in regular states (admissible, HLLC waves in order); outside of them HLLC is discontinuous, which is proved."
  },
  {
   "property": "C83",
   "status": "proved",
   "theorems": [
    "DG.C83_same_routines",
    "DG.C83_doubles",
    "DG.C83_rounded_run",
    "DG.C83_launches_agree",
    "DG.C83_rounded_data"
   ],
   "note": "Constants exist but are not computed; underflow and fused multiply-add are not modelled."
  },
  {
   "property": "C84",
   "status": "proved",
   "theorems": [
    "DG.C84_setup_completes_quad",
    "DG.C84_setup_completes_hex",
    "DG.C84_setup_accurate_quad",
    "DG.C84_setup_accurate_hex",
    "DG.C84_case_quad",
    "DG.C84_case_hex",
    "DG.C84_two_computers",
    "DG.C84_rounded_files",
    "DG.C84_uniform_computes",
    "DG.Dev.C84_threads_quad",
    "DG.Dev.C84_threads_hex",
    "DG.Dev.C84_threads_launch",
    "DG.C84_decimals_known",
    "DG.C84_same_vortex",
    "DG.C84_vortex_computes",
    "DG.C84_vortex_computes_3d"
   ],
   "note": "Same idealisations of arithmetic as C83; exp and pow of the library with error up to 4u."
  },
  {
   "property": "C85",
   "status": "proved",
   "theorems": [
    "DG.C85_program_quad",
    "DG.C85_program_hex"
   ],
   "note": "Numbers of the input file and mesh file are read within a multiple κ of the unit roundoff (hypothesis); same idealisations of arithmetic as C83."
  },
  {
   "property": "C86",
   "status": "proved",
   "theorems": [
    "DG.C86_post_quad",
    "DG.C86_post_hex",
    "DG.C86_run_post_quad",
    "DG.C86_run_post_hex"
   ],
   "note": ""
  },
  {
   "property": "C87",
   "status": "proved",
   "theorems": [
    "DG.Dev.C87_threads_quad",
    "DG.Dev.C87_threads_hex",
    "DG.Dev.C87_threads_post_quad",
    "DG.Dev.C87_threads_post_hex"
   ],
   "note": "Normals are computed by one thread per face: with more, the kernel has the data race described in C69."
  },
  {
   "property": "C88",
   "status": "proved",
   "theorems": [
    "DG.H5.C88_read_mesh",
    "DG.H5.C88_read_coefficients",
    "DG.H5.C88_write",
    "DG.H5.C88_convert",
    "DG.H5.C88_convert_onto_itself",
    "DG.H5.C88_no_stale_handle",
    "DG.H5.C88_files",
    "DG.H5.C88_parts",
    "DG.H5.C88_all_closed",
    "DG.H5.C88_move_assignment_leaks",
    "DG.H5.C88_close",
    "DG.H5.C88_modes",
    "DG.H5.C88_opens"
   ],
   "note": "The HDF5 library is taken as documented; it numbers its handles consecutively (no number is given twice)."
  },
  {
   "property": "C89",
   "status": "proved",
   "theorems": [
    "DG.Cut.C89_progress",
    "DG.Cut.C89_terminates",
    "DG.Cut.C89_schedules",
    "DG.Cut.C89_refused",
    "DG.Cut.C89_no_mixture",
    "DG.Cut.C89_gap",
    "DG.Cut.C89_completes",
    "DG.Cut.C89_converter",
    "DG.Cut.C89_converter_alone"
   ],
   "note": "Library calls take effect when made, and a crash may lose any set of whole objects; torn blocks inside of a dataset are not modelled."
  },
  {
   "property": "C90",
   "status": "proved",
   "theorems": [
    "DG.Cut.C90_ends",
    "DG.Cut.C90_one_outcome",
    "DG.Cut.C90_finish",
    "DG.Cut.C90_restart_finishes",
    "DG.Cut.C90_restart_all_or_none",
    "DG.Cut.C90_restart_no_file",
    "DG.Cut.C90_restart_wrong_ranks",
    "DG.Cut.C90_restart_no_counts",
    "DG.Cut.C90_convert_wrong_ranks",
    "DG.Cut.C90_read_mesh",
    "DG.Cut.C90_interrupted",
    "DG.Cut.C90_restart_needs",
    "DG.Cut.C90_restart_one_missing",
    "DG.Cut.C90_convert_needs",
    "DG.Cut.C90_convert_one_missing",
    "DG.Cut.C90_convert_no_attribute",
    "DG.Cut.C90_write"
   ],
   "note": "An exit of a rank is not propagated to the others (as MPI allows; most launchers then kill the job)."
  },
  {
   "property": "C91",
   "status": "proved",
   "theorems": [
    "DG.Vw.C91_defined",
    "DG.Vw.C91_held",
    "DG.Vw.C91_blocks",
    "DG.Vw.C91_peak",
    "DG.Vw.C91_peak_met",
    "DG.Vw.C91_executables"
   ],
   "note": "Views of raw arrays only; members and local views are destructed by the compiler. Host execution space (a mirror is the array itself)."
  }
 ]
}