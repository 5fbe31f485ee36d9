{
 "claims": [
  {
   "property": "C01",
   "status": "proved",
   "theorems": [
    "Nalu.Time.c01_reported_limits",
    "Nalu.Time.c01_step_count_termination"
   ],
   "note": ""
  },
  {
   "property": "C02",
   "status": "proved",
   "theorems": [
    "Nalu.Time.c02_time_termination",
    "Nalu.Time.c02_fixed_final_time"
   ],
   "note": ""
  },
  {
   "property": "C03",
   "status": "proved",
   "theorems": [
    "Nalu.Time.c03_time_is_sum_of_steps",
    "Nalu.Time.c03_fixed_step_time"
   ],
   "note": ""
  },
  {
   "property": "C04",
   "status": "proved",
   "theorems": [
    "Nalu.Time.c04_bdf2_exact",
    "Nalu.Time.c04_backward_euler_exact"
   ],
   "note": ""
  },
  {
   "property": "C05",
   "status": "proved",
   "theorems": [
    "Nalu.Time.c05_adaptive_bounds",
    "Nalu.Time.c05_adaptive_run_bounds"
   ],
   "note": ""
  },
  {
   "property": "C06",
   "status": "proved",
   "theorems": [
    "Nalu.Output.c06_results_schedule",
    "Nalu.Output.c06_forced_once"
   ],
   "note": ""
  },
  {
   "property": "C07",
   "status": "proved",
   "theorems": [
    "Nalu.Output.c07_restart_schedule"
   ],
   "note": ""
  },
  {
   "property": "C08",
   "status": "proved",
   "theorems": [
    "Nalu.Time.c08_restart_time_is_latest",
    "Nalu.Time.c08_restart_last_record",
    "Nalu.Time.c08_restart_continues"
   ],
   "note": ""
  },
  {
   "property": "C09",
   "status": "partial",
   "theorems": [
    "Nalu.Output.c09_output_not_fresh",
    "Nalu.Output.c09_zero_frequency_crashes",
    "Nalu.Output.c09_output_fresh_partial"
   ],
   "note": "False of the code in general (c09_output_not_fresh, c09_zero_frequency_crashes give witnesses). Proved when the output start is a multiple of the frequency and no wall-clock output is forced. Missing: other starts, forced output (false there)."
  },
  {
   "property": "C10",
   "status": "proved",
   "theorems": [
    "Nalu.Control.c10_old_states",
    "Nalu.Control.c10_old_state_first_order",
    "Nalu.Control.c10_predictor"
   ],
   "note": ""
  },
  {
   "property": "C11",
   "status": "proved",
   "theorems": [
    "Nalu.Control.c11_iteration_control",
    "Nalu.Control.c11_inactive_step",
    "Nalu.Control.c11_final_flag"
   ],
   "note": ""
  },
  {
   "property": "C12",
   "status": "proved",
   "theorems": [
    "Nalu.Control.c12_iteration_statistics",
    "Nalu.Control.c12_overall_convergence",
    "Nalu.Control.c12_norms",
    "Nalu.Control.c12_reported_mean_norm"
   ],
   "note": ""
  },
  {
   "property": "C13",
   "status": "proved",
   "theorems": [
    "Nalu.Averaging.c13_convex_combination",
    "Nalu.Averaging.c13_bounds",
    "Nalu.Averaging.c13_first_sample",
    "Nalu.Averaging.c13_recurrence",
    "Nalu.Averaging.c13_first"
   ],
   "note": ""
  },
  {
   "property": "C14",
   "status": "proved",
   "theorems": [
    "Nalu.Averaging.c14_running_means"
   ],
   "note": ""
  },
  {
   "property": "C15",
   "status": "partial",
   "theorems": [
    "Nalu.Averaging.c15_reynolds_stress",
    "Nalu.Averaging.c15_reynolds_diagonal_nonneg",
    "Nalu.Averaging.c15_favre_stress_partial",
    "Nalu.Averaging.c15_favre_stress_nan_after_reset",
    "Nalu.Averaging.c15_tke",
    "Nalu.Averaging.c15_packed_pairs",
    "Nalu.Averaging.c15_packed_order"
   ],
   "note": "Reynolds part proved for every history. Favre part proved for histories without a filter reset; after a reset the code's value is 0/0 (c15_favre_stress_nan_after_reset). Missing: Favre stress after a reset (false)."
  },
  {
   "property": "C16",
   "status": "partial",
   "theorems": [
    "Nalu.Averaging.c16_variance_wrong",
    "Nalu.Averaging.c16_run_wrong",
    "Nalu.Averaging.c16_variance_partial"
   ],
   "note": "False of the code in 2D/3D (c16_variance_wrong, c16_run_wrong). The partial theorem bounds what is computed and gives equality in one dimension and on a reset."
  },
  {
   "property": "C17",
   "status": "partial",
   "theorems": [
    "Nalu.Averaging.c17_sfs_stress_depends_on_neighbour",
    "Nalu.Averaging.c17_sfs_stress_ignores_own_gradient",
    "Nalu.Averaging.c17_sfs_stress_first_node_partial"
   ],
   "note": "False of the code for all but the first node of each bucket (c17_sfs_stress_depends_on_neighbour, c17_sfs_stress_ignores_own_gradient). Proved for the first node."
  },
  {
   "property": "C18",
   "status": "proved",
   "theorems": [
    "Verif.LinSys.c18_rows_disjoint",
    "Verif.LinSys.c18_owned_first",
    "Verif.LinSys.c18_contiguous",
    "Verif.LinSys.c18_row_is_position_of_gid",
    "Verif.LinSys.c18_gid_injective",
    "Verif.LinSys.c18_periodic_same_block",
    "Verif.LinSys.c18_subject_of_owned",
    "Verif.LinSys.c18_succeeds"
   ],
   "note": ""
  },
  {
   "property": "C19",
   "status": "proved",
   "theorems": [
    "Verif.LinSys.c19_sumInto_exact",
    "Verif.LinSys.c19_nothing_else_changes",
    "Verif.LinSys.c19_single_entry"
   ],
   "note": ""
  },
  {
   "property": "C20",
   "status": "partial",
   "theorems": [
    "Verif.LinSys.c20_three_dof_agrees_partial",
    "Verif.LinSys.c20_fails_for_repeated_nodes"
   ],
   "note": "Proved for elements whose nodes have pairwise different ids. False with a repeated (periodic) node: c20_fails_for_repeated_nodes."
  },
  {
   "property": "C21",
   "status": "proved",
   "theorems": [
    "Verif.LinSys.c21_owned_rows",
    "Verif.LinSys.c21_shared_rows",
    "Verif.LinSys.c21_other_rows_unchanged",
    "Verif.LinSys.c21_solution_takes_bc_value",
    "Verif.LinSys.c21_reset_rows",
    "Verif.LinSys.c21_global_row"
   ],
   "note": ""
  },
  {
   "property": "C22",
   "status": "proved",
   "theorems": [
    "Verif.LinSys.c22_global_is_serial_sum",
    "Verif.LinSys.c22_partition_independent"
   ],
   "note": ""
  },
  {
   "property": "C23",
   "status": "proved",
   "theorems": [
    "Nalu.Edge.c23_scalar_residual",
    "Nalu.Edge.c23_scalar_columns",
    "Nalu.Edge.c23_momentum",
    "Nalu.Edge.c23_diffusion_edge_symmetric",
    "Nalu.Edge.c23_diffusion_edge_jacobian",
    "Nalu.Edge.c23_diffusion_edge_dissipates"
   ],
   "note": ""
  },
  {
   "property": "C24",
   "status": "proved",
   "theorems": [
    "Nalu.Edge.c24_constant",
    "Nalu.Edge.c24_upwind",
    "Nalu.Edge.c24_interface_bounds",
    "Nalu.Edge.c24_maximum_principle"
   ],
   "note": ""
  },
  {
   "property": "C25",
   "status": "proved",
   "theorems": [
    "Nalu.Edge.c25_limiter",
    "Nalu.Edge.c25_extrapolation_bounded"
   ],
   "note": ""
  },
  {
   "property": "C26",
   "status": "proved",
   "theorems": [
    "Nalu.Peclet.c26_classic",
    "Nalu.Peclet.c26_tanh",
    "Nalu.Edge.c26_edge_peclet_symmetric",
    "Nalu.Edge.c26_edge_peclet_uniform"
   ],
   "note": ""
  },
  {
   "property": "C27",
   "status": "proved",
   "theorems": [
    "Nalu.Edge.c27_gradient_telescopes",
    "Nalu.Edge.c27_constant",
    "Nalu.Edge.c27_velocity_gradient"
   ],
   "note": ""
  },
  {
   "property": "C28",
   "status": "proved",
   "theorems": [
    "Nalu.Edge.c28_antisymmetric",
    "Nalu.Edge.c28_consistent"
   ],
   "note": ""
  },
  {
   "property": "C29",
   "status": "partial",
   "theorems": [
    "Nalu.Edge.c29_partition_independent_partial",
    "Nalu.Edge.c29_ghosted_counted_twice",
    "Nalu.Edge.c29_review_boundary_totals",
    "Nalu.Edge.c29_uniform_accumulation"
   ],
   "note": "Proved for inflow and open rates always and for the accumulation without ghosted elements. False with ghosted elements: c29_ghosted_counted_twice."
  },
  {
   "property": "C30",
   "status": "proved",
   "theorems": [
    "Verif.Thermo.c30_equation_of_state",
    "Verif.Thermo.c30_mixture_weight_bounds",
    "Verif.Thermo.c30_scaling"
   ],
   "note": ""
  },
  {
   "property": "C31",
   "status": "proved",
   "theorems": [
    "Verif.Thermo.c31_mole_fractions",
    "Verif.Thermo.c31_sutherland_at_reference",
    "Verif.Thermo.c31_sutherland_pos",
    "Verif.Thermo.c31_sutherland_mono",
    "Verif.Thermo.c31_mixture_bounds"
   ],
   "note": ""
  },
  {
   "property": "C32",
   "status": "proved",
   "theorems": [
    "Verif.Thermo.c32_polynomial",
    "Verif.Thermo.c32_water",
    "Verif.Thermo.c32_const_cp",
    "Verif.Thermo.c32_const_cpk"
   ],
   "note": ""
  },
  {
   "property": "C33",
   "status": "proved",
   "theorems": [
    "Verif.Thermo.c33_bounds",
    "Verif.Thermo.c33_consistent",
    "Verif.Thermo.c33_const_cp_exact",
    "Verif.Thermo.c33_const_cpk_exact",
    "Verif.Thermo.c33_accepted_accuracy"
   ],
   "note": ""
  },
  {
   "property": "C34",
   "status": "proved",
   "theorems": [
    "Verif.Numerics.c34_affine",
    "Verif.Numerics.c34_knots",
    "Verif.Numerics.c34_bounded",
    "Verif.Numerics.c34_below",
    "Verif.Numerics.c34_above",
    "Verif.Numerics.c34_too_small",
    "Verif.Numerics.c34_monotone"
   ],
   "note": ""
  },
  {
   "property": "C35",
   "status": "proved",
   "theorems": [
    "Verif.Numerics.c35_lu_solves",
    "Verif.Numerics.c35_not_ready"
   ],
   "note": ""
  },
  {
   "property": "C36",
   "status": "proved",
   "theorems": [
    "Verif.Periodic.c36_exactly_once",
    "Verif.Periodic.c36_right_monarch",
    "Verif.Periodic.c36_many_disjoint",
    "Verif.Periodic.c36_seven_pairs_dropped",
    "Verif.Periodic.c36_translation_exact",
    "Verif.Periodic.c36_box_roots"
   ],
   "note": ""
  },
  {
   "property": "C37",
   "status": "proved",
   "theorems": [
    "Verif.Periodic.c37_sum_and_copy",
    "Verif.Periodic.c37_undefined_skipped",
    "Verif.Periodic.c37_max_single",
    "Verif.Periodic.c37_max_two_subjects_stale",
    "Verif.Periodic.c37_global_id",
    "Verif.Periodic.c37_parallel_add",
    "Verif.Periodic.c37_parallel_set"
   ],
   "note": ""
  },
  {
   "property": "C38",
   "status": "proved",
   "theorems": [
    "Verif.Periodic.c38_terminates",
    "Verif.Periodic.c38_first_two",
    "Verif.Periodic.c38_starting_tolerance",
    "Verif.Periodic.c38_loose_user_tolerance_ignored",
    "Verif.Periodic.c38_accepted_not_bijective",
    "Verif.Periodic.c38_accepted_bijective"
   ],
   "note": ""
  },
  {
   "property": "C39",
   "status": "proved",
   "theorems": [
    "Verif.Periodic.c39_sweep",
    "Verif.Periodic.c39_decision"
   ],
   "note": ""
  },
  {
   "property": "C40",
   "status": "proved",
   "theorems": [
    "Verif.Shape.c40_partition_of_unity",
    "Verif.Shape.c40_kronecker",
    "Verif.Shape.c40_linear",
    "Verif.Shape.c40_pyr_shifted_not_linear",
    "Verif.Shape.c40_affine_field",
    "Verif.Shape.c40_pyr_partition_of_unity",
    "Verif.Shape.c40_pyr_kronecker",
    "Verif.Shape.c40_pyr_linear"
   ],
   "note": ""
  },
  {
   "property": "C41",
   "status": "proved",
   "theorems": [
    "Verif.Shape.c41_derivatives",
    "Verif.Shape.c41_pyr_derivatives",
    "Verif.Shape.c41_derivatives_sum_zero",
    "Verif.Shape.c41_gradop3_chain_rule",
    "Verif.Shape.c41_gradop2_chain_rule",
    "Verif.Shape.c41_gradop3_exact_linear",
    "Verif.Shape.c41_gradop2_exact_linear",
    "Verif.Shape.c41_gradient_exact",
    "Verif.Shape.c41_pyr_gradient_exact",
    "Verif.Shape.c41_gradient_exact_2d",
    "Verif.Shape.c41_inverted_gradient",
    "Verif.Shape.c41_metric_tensors"
   ],
   "note": ""
  },
  {
   "property": "C42",
   "status": "proved",
   "theorems": [
    "Verif.ElemGeom.c42_hex_closed",
    "Verif.ElemGeom.c42_tet_closed",
    "Verif.ElemGeom.c42_wed_closed",
    "Verif.ElemGeom.c42_pyr_closed",
    "Verif.ElemGeom.c42_quad2d_closed",
    "Verif.ElemGeom.c42_tri2d_closed",
    "Verif.ElemGeom.c42_mesh_closed",
    "Verif.ElemGeom.c42_interior_node",
    "Verif.MeshGeom.c42_plane_mesh_closed"
   ],
   "note": ""
  },
  {
   "property": "C43",
   "status": "proved",
   "theorems": [
    "Verif.ElemGeom.c43_hex_volume",
    "Verif.ElemGeom.c43_tet_volume",
    "Verif.ElemGeom.c43_wed_volume",
    "Verif.ElemGeom.c43_pyr_volume",
    "Verif.ElemGeom.c43_tet_closed_form",
    "Verif.ElemGeom.c43_tet_quarters",
    "Verif.ElemGeom.c43_mesh_volume",
    "Verif.ElemGeom.c43_quad2d_area",
    "Verif.ElemGeom.c43_tri2d_area",
    "Verif.ElemGeom.c43_tri2d_thirds",
    "Verif.ElemGeom.c43_hex_eighths",
    "Verif.ElemGeom.c43_wed_sixths",
    "Verif.ElemGeom.c43_pyr_shares"
   ],
   "note": ""
  },
  {
   "property": "C44",
   "status": "proved",
   "theorems": [
    "Verif.Shape.c44_zero_update",
    "Verif.Shape.c44_fixed_point",
    "Verif.Shape.c44_hex_newton",
    "Verif.Shape.c44_hex_newton_derivative",
    "Verif.Shape.c44_hex_affine",
    "Verif.Shape.c44_hex_accuracy",
    "Verif.Shape.c44_quad_newton",
    "Verif.Shape.c44_quad_newton_derivative",
    "Verif.Shape.c44_quad_affine",
    "Verif.Shape.c44_quad_accuracy",
    "Verif.Shape.c44_wed_newton",
    "Verif.Shape.c44_wed_affine",
    "Verif.Shape.c44_wed_accuracy",
    "Verif.Shape.c44_pyr_newton",
    "Verif.Shape.c44_pyr_affine",
    "Verif.Shape.c44_tet_exact",
    "Verif.Shape.c44_tet_distance",
    "Verif.Shape.c44_edge_projection",
    "Verif.Shape.c44_edge_distance",
    "Verif.Shape.c44_tri_distance",
    "Verif.Shape.c44_tri2d_exact",
    "Verif.Shape.c44_tri2d_clockwise_mirrored",
    "Verif.Shape.c44_tri3d_projection",
    "Verif.Shape.c44_quad3d_newton",
    "Verif.Shape.c44_quad3d_fixed_point",
    "Verif.Shape.c44_quad3d_affine",
    "Verif.Shape.c44_quad3d_distance"
   ],
   "note": ""
  },
  {
   "property": "C45",
   "status": "proved",
   "theorems": [
    "Verif.Motion.c45_distance_scaling",
    "Verif.Motion.c45_rotation",
    "Verif.Motion.c45_initial_rotation",
    "Verif.Motion.c45_isometry",
    "Verif.Motion.c45_axis_fixed",
    "Verif.Motion.c45_nonunit_axis_distorts",
    "Verif.Motion.c45_velocity_is_derivative",
    "Verif.Motion.c45_velocity_tangential",
    "Verif.Motion.c45_blended_velocity_mismatch",
    "Verif.Motion.c45_relative_velocity",
    "Verif.Motion.c45_sixdof_velocity_rigid"
   ],
   "note": ""
  },
  {
   "property": "C46",
   "status": "partial",
   "theorems": [
    "Verif.Motion.c46_kinematics",
    "Verif.Motion.c46_kinematics_keeps_length",
    "Verif.Motion.c46_attitude_not_rk4",
    "Verif.Motion.c46_attitude_first_order_partial",
    "Verif.Motion.c46_euler_equations",
    "Verif.Motion.c46_omega_spherical_partial",
    "Verif.Motion.c46_rest_spins_up",
    "Verif.Motion.c46_moment_in_wrong_frame",
    "Verif.Motion.c46_acceleration_lag",
    "Verif.Motion.c46_one_advance_per_part",
    "Verif.Motion.c46_velocity_constant_force"
   ],
   "note": "False of the code (c46_attitude_not_rk4): the stages multiply by dt twice. Proved: right-hand sides are the kinematics and Euler's equations, first-order consistency, exactness for equal inertias."
  },
  {
   "property": "C47",
   "status": "proved",
   "theorems": [
    "Verif.Motion.c47_rotmat_orthogonal",
    "Verif.Motion.c47_inverse_option",
    "Verif.Motion.c47_rotmat_is_conjugation",
    "Verif.Motion.c47_euler_unit",
    "Verif.Motion.c47_euler_composition",
    "Verif.Motion.c47_sixdof_isometry",
    "Verif.Motion.c47_frame_round_trip",
    "Verif.Motion.c47_euler_round_trip",
    "Verif.Motion.c47_gimbal_lock"
   ],
   "note": ""
  },
  {
   "property": "C48",
   "status": "partial",
   "theorems": [
    "Nalu.Control.c48_mass_fractions_partial",
    "Nalu.Control.c48_last_can_be_negative"
   ],
   "note": "Sum-to-one and the bounds of the first n-1 mass fractions proved for every input. The last one is not clipped and can be negative (c48_last_can_be_negative)."
  },
  {
   "property": "C49",
   "status": "partial",
   "theorems": [
    "Nalu.Control.c49_inactive_step_stale",
    "Nalu.Control.c49_inactive_steps_partial"
   ],
   "note": "Proved for fields with a predictor. False for state fields without one (c49_inactive_step_stale)."
  },
  {
   "property": "C50",
   "status": "partial",
   "theorems": [
    "Nalu.Averaging.c50_moving_exponential_partial",
    "Nalu.Averaging.c50_long_step_overshoots",
    "Nalu.Averaging.c50_forced_reset_scales"
   ],
   "note": "Proved for histories without forced reset and with steps not longer than the interval. False otherwise (c50_long_step_overshoots, c50_forced_reset_scales)."
  },
  {
   "property": "C51",
   "status": "partial",
   "theorems": [
    "Nalu.Averaging.c51_resolved_stress_misses_first",
    "Nalu.Averaging.c51_resolved_stress_partial"
   ],
   "note": "Proved for every window opened by a reset; in the first window the first sample is missing (c51_resolved_stress_misses_first)."
  },
  {
   "property": "C52",
   "status": "proved",
   "theorems": [
    "Nalu.Averaging.c52_q_criterion",
    "Nalu.Averaging.c52_vorticity"
   ],
   "note": ""
  },
  {
   "property": "C53",
   "status": "proved",
   "theorems": [
    "Nalu.Edge.c53_scalar_linearisation",
    "Nalu.Edge.c53_momentum_linearisation"
   ],
   "note": ""
  },
  {
   "property": "C54",
   "status": "proved",
   "theorems": [
    "Nalu.Edge.c54_discrete_continuity",
    "Nalu.Edge.c54_total_mass_closure",
    "Nalu.Edge.c54_projection_keeps_mdot",
    "Nalu.Edge.c54_projection_balanced"
   ],
   "note": ""
  },
  {
   "property": "C55",
   "status": "proved",
   "theorems": [
    "Nalu.Edge.c55_linear_scalar",
    "Nalu.Edge.c55_linear_velocity"
   ],
   "note": ""
  },
  {
   "property": "C56",
   "status": "partial",
   "theorems": [
    "Verif.Periodic.c56_two_processes_partial",
    "Verif.Periodic.c56_three_processes_worse"
   ],
   "note": "Proved for two processes; false in general (c56_three_processes_worse)."
  },
  {
   "property": "C57",
   "status": "proved",
   "theorems": [
    "Verif.LinSys.c57_insert_indices",
    "Verif.LinSys.c57_empty_row",
    "Verif.LinSys.c57_trimmed_length",
    "Verif.LinSys.c57_row_accepts"
   ],
   "note": ""
  },
  {
   "property": "C58",
   "status": "proved",
   "theorems": [
    "Verif.LinSys.c58_couplings_inserted",
    "Verif.LinSys.c58_row_length",
    "Verif.LinSys.c58_built_graph_accepts"
   ],
   "note": ""
  },
  {
   "property": "C59",
   "status": "proved",
   "theorems": [
    "Verif.Shape.c59_side_coordinates",
    "Verif.Shape.c59_wedge_side_coordinates",
    "Verif.Shape.c59_pyramid_side_coordinates"
   ],
   "note": ""
  },
  {
   "property": "C60",
   "status": "proved",
   "theorems": [
    "Verif.Motion.c60_centroid_midpoint",
    "Verif.Motion.c60_centroid_translation"
   ],
   "note": ""
  },
  {
   "property": "C61",
   "status": "proved",
   "theorems": [
    "Verif.ElemGeom.c61_hex_left_to_right",
    "Verif.ElemGeom.c61_wed_left_to_right",
    "Verif.ElemGeom.c61_pyr_left_to_right",
    "Verif.ElemGeom.c61_tet_left_to_right",
    "Verif.ElemGeom.c61_tri2d_left_to_right",
    "Verif.ElemGeom.c61_quad2d_left_to_right",
    "Verif.ElemGeom.c61_positive"
   ],
   "note": ""
  },
  {
   "property": "C62",
   "status": "proved",
   "theorems": [
    "Nalu.Gas.c62_residual_sum",
    "Nalu.Gas.c62_step_budget",
    "Nalu.Gas.c62_conserved",
    "Nalu.Gas.c62_dirichlet_kept",
    "Nalu.Gas.c62_symmetry_no_mass",
    "Nalu.Gas.c62_flux_antisymmetric",
    "Nalu.Gas.c62_orientation_free",
    "Nalu.Gas.c62_dirichlet_value_kept"
   ],
   "note": ""
  },
  {
   "property": "C63",
   "status": "proved",
   "theorems": [
    "Nalu.Gas.c63_split_mach",
    "Nalu.Gas.c63_split_pressure",
    "Nalu.Gas.c63_supersonic",
    "Nalu.Gas.c63_mirror",
    "Nalu.Gas.c63_continuous",
    "Nalu.Gas.c63_pressure_no_jump",
    "Nalu.Gas.c63_consistent",
    "Nalu.Gas.c63_upwind",
    "Nalu.Gas.c63_free_stream",
    "Nalu.Gas.c63_viscous_flux_exact",
    "Nalu.Gas.c63_energy_diffusion_exact",
    "Nalu.Gas.c63_heat_flows_down"
   ],
   "note": ""
  },
  {
   "property": "C64",
   "status": "proved",
   "theorems": [
    "Nalu.Gas.c64_pressure_energy_inverse",
    "Nalu.Gas.c64_velocity_momentum_inverse",
    "Nalu.Gas.c64_ideal_gas",
    "Nalu.Gas.c64_positive",
    "Nalu.Gas.c64_mach"
   ],
   "note": ""
  },
  {
   "property": "C65",
   "status": "partial",
   "theorems": [
    "Nalu.Gas.c65_mass_flux_sign",
    "Nalu.Gas.c65_supersonic_outflow",
    "Nalu.Gas.c65_total_pressure_wrong",
    "Nalu.Gas.c65_static_pressure_partial"
   ],
   "note": "Signs and outflow proved. The total-pressure relation for entering flow is false of the code: AssembleGasDynamicsOpenAlgorithm.C:163 sums velocity components without squaring (c65_total_pressure_wrong); proved only where every component is 0 or 1."
  },
  {
   "property": "C66",
   "status": "proved",
   "theorems": [
    "Nalu.Wall.c66_law_has_unique_solution",
    "Nalu.Wall.c66_friction_velocity",
    "Nalu.Wall.c66_converges_eventually"
   ],
   "note": ""
  },
  {
   "property": "C67",
   "status": "proved",
   "theorems": [
    "Nalu.Wall.c67_unit_normal",
    "Nalu.Wall.c67_tangential_speed",
    "Nalu.Wall.c67_coefficient_pos",
    "Nalu.Wall.c67_force_tangential_and_opposing",
    "Nalu.Wall.c67_jacobian",
    "Nalu.Wall.c67_force_is_wall_shear_stress",
    "Nalu.Wall.c67_force_in_sublayer"
   ],
   "note": ""
  },
  {
   "property": "C68",
   "status": "partial",
   "theorems": [
    "Nalu.Wall.c68_wall_distance_bounds_partial",
    "Nalu.Wall.c68_wall_distance_axis_partial",
    "Nalu.Wall.c68_wall_distance_wrong_at_angle",
    "Nalu.Wall.c68_nodal_average_between",
    "Nalu.Wall.c68_nodal_average_order",
    "Nalu.Wall.c68_clip_is_max",
    "Nalu.Wall.c68_clip_restart_idempotent"
   ],
   "note": "Averaging, order independence and clipping proved. The distance claim is false of the code for walls oblique to the axes: it computes sqrt(sum (n_j e_j)^2) instead of |n.e| (c68_wall_distance_wrong_at_angle); proved as bounds and for axis-aligned walls."
  },
  {
   "property": "C69",
   "status": "proved",
   "theorems": [
    "Nalu.Wall.c69_keps_mixing_length",
    "Nalu.Wall.c69_sst_mixing_length",
    "Nalu.Wall.c69_positive"
   ],
   "note": ""
  },
  {
   "property": "C70",
   "status": "proved",
   "theorems": [
    "Nalu.Turb.c70_blending_exact",
    "Nalu.Turb.c70_fTwo_antitone",
    "Nalu.Turb.c70_fTwo_far",
    "Nalu.Turb.c70_production_is_strain",
    "Nalu.Turb.c70_frame_indifferent",
    "Nalu.Turb.c70_smagorinsky",
    "Nalu.Turb.c70_wale",
    "Nalu.Turb.c70_ksgs_damping",
    "Nalu.Turb.c70_dynamic_viscosity_bounded_below",
    "Nalu.Turb.c70_blending_range",
    "Nalu.Turb.c70_blend_between",
    "Nalu.Turb.c70_sst",
    "Nalu.Turb.c70_kepsilon"
   ],
   "note": ""
  },
  {
   "property": "C71",
   "status": "partial",
   "theorems": [
    "Nalu.Turb.c71_keps_update",
    "Nalu.Turb.c71_sst_update_nonneg",
    "Nalu.Turb.c71_sst_update_partial",
    "Nalu.Turb.c71_sst_zero_dissipation",
    "Nalu.Turb.c71_tke_update",
    "Nalu.Turb.c71_keps_initial"
   ],
   "note": "k-epsilon and subgrid tke proved in full. SST positivity of omega proved unless the solver returns exact zeros; then omega is stored as zero (c71_sst_zero_dissipation)."
  },
  {
   "property": "C72",
   "status": "proved",
   "theorems": [
    "Nalu.Turb.c72_limited_production",
    "Nalu.Turb.c72_tke_sst",
    "Nalu.Turb.c72_tke_des",
    "Nalu.Turb.c72_des_length",
    "Nalu.Turb.c72_tke_ksgs",
    "Nalu.Turb.c72_sdr_sst",
    "Nalu.Turb.c72_keps"
   ],
   "note": ""
  },
  {
   "property": "C73",
   "status": "proved",
   "theorems": [
    "Nalu.Turb.c73_clip_is_projection"
   ],
   "note": ""
  },
  {
   "property": "C74",
   "status": "partial",
   "theorems": [
    "Nalu.Turb.c74_sum_is_one",
    "Nalu.Turb.c74_last_partial",
    "Nalu.Turb.c74_last_negative",
    "Nalu.Turb.c74_idempotent"
   ],
   "note": "Sum one, bounds of the transported fractions, idempotence proved. Non-negativity of the last fraction is false in general (c74_last_negative); proved when transported fractions add up to at most one."
  },
  {
   "property": "C75",
   "status": "partial",
   "theorems": [
    "Nalu.Turb.c75_flags",
    "Nalu.Turb.c75_maximum_partial",
    "Nalu.Turb.c75_diagnostics_partial",
    "Nalu.Turb.c75_shared_node_counted_repeatedly"
   ],
   "note": "Counts proved as sums over processes of locally visited nodes; nodes shared by processes are counted on each (c75_shared_node_counted_repeatedly)."
  },
  {
   "property": "C76",
   "status": "proved",
   "theorems": [
    "Nalu.Loop.c76_group_sizes",
    "Nalu.Loop.c76_each_entity_once",
    "Nalu.Loop.c76_groups_are_the_bucket",
    "Nalu.Loop.c76_simd_loop_is_scalar_loop"
   ],
   "note": ""
  },
  {
   "property": "C77",
   "status": "proved",
   "theorems": [
    "Nalu.Loop.c77_face_runs"
   ],
   "note": ""
  },
  {
   "property": "C78",
   "status": "proved",
   "theorems": [
    "Nalu.Loop.c78_scratch_memory_suffices",
    "Nalu.Loop.c78_face_scratch_suffices",
    "Nalu.Loop.c78_reported_size"
   ],
   "note": ""
  },
  {
   "property": "C79",
   "status": "partial",
   "theorems": [
    "Nalu.Loop.c79_request_honoured",
    "Nalu.Loop.c79_result_conflicts",
    "Nalu.Loop.c79_interleaved_results",
    "Nalu.Loop.c79_not_interleaved",
    "Nalu.Loop.c79_view_shape_partial",
    "Nalu.Loop.c79_view_shape_mismatch",
    "Nalu.Loop.c79_accepted_requests_partial",
    "Nalu.Loop.c79_consistent_requests_accepted",
    "Nalu.Loop.c79_silent_mismatch"
   ],
   "note": "Partial: the full statement is false of the code. A field requested with second dimension one gets a view of the wrong rank (c79_view_shape_mismatch), a scalar or vector request after a tensor request of the same field is accepted silently (c79_silent_mismatch), and deriv_scv/det_j_scv are filled but not interleaved (c79_not_interleaved). The partial theorems carry the hypotheses that exclude these."
  },
  {
   "property": "C80",
   "status": "proved",
   "theorems": [
    "Verif.MeshGeom.c80_independent_of_decomposition",
    "Verif.MeshGeom.c80_edge_orientation",
    "Verif.MeshGeom.c80_control_volumes_close",
    "Verif.MeshGeom.c80_interior_node_closes",
    "Verif.MeshGeom.c80_plane_control_volumes_close",
    "Verif.MeshGeom.c80_uniform_field_no_gradient"
   ],
   "note": ""
  },
  {
   "property": "C81",
   "status": "proved",
   "theorems": [
    "Verif.MeshGeom.c81_own_share",
    "Verif.MeshGeom.c81_total_volume",
    "Verif.MeshGeom.c81_plane_total_area",
    "Verif.MeshGeom.c81_plane_own_share"
   ],
   "note": ""
  },
  {
   "property": "C82",
   "status": "partial",
   "theorems": [
    "Verif.MeshGeom.c82_detects_negative_partial",
    "Verif.MeshGeom.c82_accepted_volumes",
    "Verif.MeshGeom.c82_not_collective",
    "Verif.MeshGeom.c82_flat_element_accepted"
   ],
   "note": "Partial: the check stops exactly the processes that hold an element with a negative sub-control volume. It is not collective (c82_not_collective) and accepts flat elements (c82_flat_element_accepted)."
  },
  {
   "property": "C83",
   "status": "proved",
   "theorems": [
    "Nalu.Kernel.c83_scalarAdvDiff",
    "Nalu.Kernel.c83_scalarDiff",
    "Nalu.Kernel.c83_scalarUpw",
    "Nalu.Kernel.c83_momentumAdvDiff",
    "Nalu.Kernel.c83_momentumUpw",
    "Nalu.Kernel.c83_continuityAdv",
    "Nalu.Kernel.c83_mesh_total"
   ],
   "note": ""
  },
  {
   "property": "C84",
   "status": "proved",
   "theorems": [
    "Nalu.Kernel.c84_scalarAdvDiff",
    "Nalu.Kernel.c84_scalarDiff",
    "Nalu.Kernel.c84_scalarUpw",
    "Nalu.Kernel.c84_scalarMass",
    "Nalu.Kernel.c84_scalarGcl",
    "Nalu.Kernel.c84_scalarOpen",
    "Nalu.Kernel.c84_fluxPenalty",
    "Nalu.Kernel.c84_momentumAdvDiff",
    "Nalu.Kernel.c84_momentumAdvDiff_exact",
    "Nalu.Kernel.c84_momentumUpw",
    "Nalu.Kernel.c84_momentumMass",
    "Nalu.Kernel.c84_momentumGcl",
    "Nalu.Kernel.c84_continuityAdv",
    "Nalu.Kernel.c84_continuityOpen",
    "Nalu.Kernel.c84_sequence",
    "Nalu.Kernel.c84_mesh_newton",
    "Nalu.Kernel.c84_solved_row",
    "Nalu.Kernel.c84_momentumOpen"
   ],
   "note": "Limiter off and lagged gradients are hypotheses; the explicit divergence stress is not linearised by the code and the theorems state the exact remainder. Continuity requires equal lhs/rhs gradient operators (no reduced sensitivities)."
  },
  {
   "property": "C85",
   "status": "proved",
   "theorems": [
    "Nalu.Kernel.c85_uniform_scalar",
    "Nalu.Kernel.c85_uniform_scalarUpw",
    "Nalu.Kernel.c85_linear_scalar",
    "Nalu.Kernel.c85_linear_scalarUpw",
    "Nalu.Kernel.c85_linear_velocity",
    "Nalu.Kernel.c85_rigid_motion",
    "Nalu.Kernel.c85_uniform_pressure",
    "Nalu.Kernel.c85_linear_pressure",
    "Nalu.Kernel.c85_uniform_momentumUpw",
    "Nalu.Kernel.c85_linear_diffusion",
    "Nalu.Kernel.c85_linear_momentumUpw"
   ],
   "note": ""
  },
  {
   "property": "C86",
   "status": "proved",
   "theorems": [
    "Nalu.Kernel.c86_scalar_content",
    "Nalu.Kernel.c86_scalar_steady",
    "Nalu.Kernel.c86_lumped_diagonal",
    "Nalu.Kernel.c86_momentum_content",
    "Nalu.Kernel.c86_momentum_steady",
    "Nalu.Kernel.c86_buoyancy",
    "Nalu.Kernel.c86_boussinesq_linearises",
    "Nalu.Kernel.c86_gcl_uniform",
    "Nalu.Kernel.c86_continuity_gcl"
   ],
   "note": ""
  },
  {
   "property": "C87",
   "status": "proved",
   "theorems": [
    "Nalu.Kernel.c87_rhs_is_imbalance",
    "Nalu.Kernel.c87_discrete_continuity",
    "Nalu.Kernel.c87_converse",
    "Nalu.Kernel.c87_balance_total",
    "Nalu.Kernel.c87_total_mass_closure",
    "Nalu.Kernel.c87_compatibility",
    "Nalu.Kernel.c87_pressure_level"
   ],
   "note": ""
  },
  {
   "property": "C88",
   "status": "partial",
   "theorems": [
    "Nalu.Kernel.c88_upwind_mmatrix",
    "Nalu.Kernel.c88_scalar_open_entering",
    "Nalu.Kernel.c88_scalar_open_leaving",
    "Nalu.Kernel.c88_scalar_open_uniform",
    "Nalu.Kernel.c88_flux_penalty_consistent",
    "Nalu.Kernel.c88_entrained_velocity",
    "Nalu.Kernel.c88_open_viscous_tangential_partial",
    "Nalu.Kernel.c88_open_divU_spurious",
    "Nalu.Kernel.c88_open_mdot_consistent",
    "Nalu.Kernel.c88_entrained_moving_mesh",
    "Nalu.Kernel.c88_momentum_leaving",
    "Nalu.Kernel.c88_upwind_extrapolates"
   ],
   "note": "Partial: the viscous force of an open boundary is tangential only without the explicit divergence term. With it (include_divergence) the kernel adds a spurious tangential force (c88_open_divU_spurious). All other clauses are proved."
  },
  {
   "property": "C89",
   "status": "proved",
   "theorems": [
    "Nalu.Kernel.c89_free_stream_scalar",
    "Nalu.Kernel.c89_uniform_after_solve",
    "Nalu.Kernel.c89_free_stream_momentum"
   ],
   "note": ""
  },
  {
   "property": "C90",
   "status": "proved",
   "theorems": [
    "Nalu.NC.c90_scalar_flux",
    "Nalu.NC.c90_momentum_flux",
    "Nalu.NC.c90_mass_flux",
    "Nalu.NC.c90_volume_flux",
    "Nalu.NC.c90_use_current_normal",
    "Nalu.NC.c90_whole_interface",
    "Nalu.NC.c90_whole_interface_mass"
   ],
   "note": "Mass on a moving mesh needs equal normal mesh mass fluxes on the two sides (explicit hypothesis); on a static mesh nothing is assumed."
  },
  {
   "property": "C91",
   "status": "partial",
   "theorems": [
    "Nalu.NC.c91_uniform",
    "Nalu.NC.c91_linear",
    "Nalu.NC.c91_linear_oblique",
    "Nalu.NC.c91_mdot_linear_pressure",
    "Nalu.NC.c91_mdot_rigid",
    "Nalu.NC.c91_momentum_linear_partial",
    "Nalu.NC.c91_rigid_motion",
    "Nalu.NC.c91_gradient",
    "Nalu.NC.c91_divU_wrong"
   ],
   "note": "Partial: the viscous stress of a linear velocity is exact without the divergence term (the default); with it the code adds a spurious tangential force (c91_divU_wrong)."
  },
  {
   "property": "C92",
   "status": "partial",
   "theorems": [
    "Nalu.NC.c92_scalar",
    "Nalu.NC.c92_scalar_diffusion",
    "Nalu.NC.c92_momentum_partial",
    "Nalu.NC.c92_continuity",
    "Nalu.NC.c92_continuity_vof",
    "Nalu.NC.c92_mdot_after_solve",
    "Nalu.NC.c92_png",
    "Nalu.NC.c92_vof_partial",
    "Nalu.NC.c92_vof_central_not_newton"
   ],
   "note": "Partial: momentum with lagged viscosity and without the unlinearised divergence and transpose terms; volume of fluid with upwinding on (off: c92_vof_central_not_newton)."
  },
  {
   "property": "C93",
   "status": "proved",
   "theorems": [
    "Nalu.NC.c93_upwind",
    "Nalu.NC.c93_central",
    "Nalu.NC.c93_vof_always_upwind",
    "Nalu.NC.c93_inverse_length",
    "Nalu.NC.c93_jump_dissipation",
    "Nalu.NC.c93_pressure_drives",
    "Nalu.NC.c93_png_penalty_sign",
    "Nalu.NC.c93_png_indefinite"
   ],
   "note": "Finding: the penalty of the projected nodal gradient has the opposite, anti-dissipative sign (c93_png_penalty_sign, c93_png_indefinite); the volume-fraction residual upwinds whatever the option says (c93_vof_always_upwind)."
  },
  {
   "property": "C94",
   "status": "partial",
   "theorems": [
    "Nalu.NcSearch.c94_nearest_face",
    "Nalu.NcSearch.c94_no_silent_miss_partial",
    "Nalu.NcSearch.c94_missing_match_unnoticed",
    "Nalu.NcSearch.c94_found_is_served",
    "Nalu.NcSearch.c94_point_in_box"
   ],
   "note": "Partial: in parallel a missing match can go unnoticed because the candidates are compared by local Gauss point number without the rank (c94_missing_match_unnoticed); the proved theorem excludes foreign points with the same number."
  },
  {
   "property": "C95",
   "status": "partial",
   "theorems": [
    "Nalu.NcSearch.c95_retry_exact",
    "Nalu.NcSearch.c95_distance_partial",
    "Nalu.NcSearch.c95_radius_can_shrink"
   ],
   "note": "Partial: the remembered distance reaches a face only if no candidate is farther than the distance remembered before (c95_radius_can_shrink)."
  },
  {
   "property": "C96",
   "status": "proved",
   "theorems": [
    "Nalu.NcSearch.c96_round_exact",
    "Nalu.NcSearch.c96_history",
    "Nalu.NcSearch.c96_candidates_available"
   ],
   "note": ""
  },
  {
   "property": "C97",
   "status": "proved",
   "theorems": [
    "Nalu.Rad.c97_count",
    "Nalu.Rad.c97_unit",
    "Nalu.Rad.c97_weights_pos",
    "Nalu.Rad.c97_weights_sum",
    "Nalu.Rad.c97_first_moment",
    "Nalu.Rad.c97_second_moment",
    "Nalu.Rad.c97_vertices",
    "Nalu.Rad.c97_half_range_order_one"
   ],
   "note": "Finding: in two dimensions the vertex arrays are allocated too small and overrun (c97_vertices); half-range fluxes are not exact (c97_half_range_order_one)."
  },
  {
   "property": "C98",
   "status": "proved",
   "theorems": [
    "Nalu.Rad.c98_edge_sucv_conservative",
    "Nalu.Rad.c98_edge_upw_conservative",
    "Nalu.Rad.c98_elem_sucv_conservative",
    "Nalu.Rad.c98_edge_newton",
    "Nalu.Rad.c98_elem_newton",
    "Nalu.Rad.c98_one_solve"
   ],
   "note": ""
  },
  {
   "property": "C99",
   "status": "partial",
   "theorems": [
    "Nalu.Rad.c99_edge_equilibrium_partial",
    "Nalu.Rad.c99_elem_equilibrium_partial",
    "Nalu.Rad.c99_emission",
    "Nalu.Rad.c99_grey_wall",
    "Nalu.Rad.c99_window",
    "Nalu.Rad.c99_partial_scalar_flux",
    "Nalu.Rad.c99_scattering_not_equilibrium"
   ],
   "note": "Partial: with scattering the theorems take the full scalar flux in the in-scattering term. The code zeroes the scalar flux at the start of each sweep, so ordinate k sees only the ordinates before it (c99_partial_scalar_flux) and equilibrium is missed however the systems are solved (c99_scattering_not_equilibrium). Grey walls need an exact half-range flux (c99_grey_wall)."
  },
  {
   "property": "C100",
   "status": "proved",
   "theorems": [
    "Nalu.Rad.c100_upper",
    "Nalu.Rad.c100_lower",
    "Nalu.Rad.c100_nonneg",
    "Nalu.Rad.c100_unique",
    "Nalu.Rad.c100_nonsingular"
   ],
   "note": "Shifted wall integration points; positive extinction at each node."
  },
  {
   "property": "C101",
   "status": "partial",
   "theorems": [
    "Nalu.Rad.c101_moments",
    "Nalu.Rad.c101_energy_balance_partial",
    "Nalu.Rad.c101_scattering_loss",
    "Nalu.Rad.c101_irradiation",
    "Nalu.Rad.c101_wall_split"
   ],
   "note": "Partial: exact without scattering or with the full scalar flux; with the scalar flux as accumulated a scattering medium loses energy (c101_scattering_loss). The balance is proved for the edge based scheme."
  },
  {
   "property": "C102",
   "status": "proved",
   "theorems": [
    "Nalu.Rad.c102_div_lin",
    "Nalu.Rad.c102_sources",
    "Nalu.Rad.c102_wall_flux",
    "Nalu.Rad.c102_wall_equilibrium",
    "Nalu.Rad.c102_norm_parallel",
    "Nalu.Rad.c102_norm_decomposition"
   ],
   "note": "The norm sums the square roots of the ranks, so it depends on the decomposition (c102_norm_decomposition), on the safe side (c102_norm_parallel)."
  },
  {
   "property": "C103",
   "status": "proved",
   "theorems": [
    "Nalu.Vof.c103_vdot_formula",
    "Nalu.Vof.c103_open_vdot_formula",
    "Nalu.Vof.c103_paw_ratio",
    "Nalu.Vof.c103_paw_weight",
    "Nalu.Vof.c103_paw_gradient",
    "Nalu.Vof.c103_vdot_accelerating",
    "Nalu.Vof.c103_open_accelerating",
    "Nalu.Vof.c103_laplace",
    "Nalu.Vof.c103_hydrostatic",
    "Nalu.Vof.c103_momentum_rest",
    "Nalu.Vof.c103_nonconformal_defect",
    "Nalu.Vof.c103_rest_continuity",
    "Nalu.Vof.c103_projection_fixed",
    "Nalu.Vof.c103_projection_balanced"
   ],
   "note": "Constant localisation (ConstLoc) is assumed where the boundary PAW algorithm is involved: it reads p_vof[ic] of the element's first nodes. At non-conformal interfaces AssembleContinuityVofNonConformalSolverAlgorithm adds surface tension with the opposite sign; c103_nonconformal_defect computes the spurious rate."
  },
  {
   "property": "C104",
   "status": "proved",
   "theorems": [
    "Nalu.Vof.c104_inflow_flux",
    "Nalu.Vof.c104_newton_interior",
    "Nalu.Vof.c104_newton_open",
    "Nalu.Vof.c104_conservative",
    "Nalu.Vof.c104_rhs_is_imbalance",
    "Nalu.Vof.c104_divergence_free",
    "Nalu.Vof.c104_total_volume",
    "Nalu.Vof.c104_stored_mdot",
    "Nalu.Vof.c104_open_stored"
   ],
   "note": "ComputeMdotVofElemOpenAlgorithm reads p_vof[ic] of the element's first nodes in the localisation, so c104_open_stored needs a constant localisation or the face being made of those nodes (witness of the difference in Props/Vof5)."
  },
  {
   "property": "C105",
   "status": "proved",
   "theorems": [
    "Nalu.Vof.c105_clip_bounds",
    "Nalu.Vof.c105_clip_identity",
    "Nalu.Vof.c105_clip_closest",
    "Nalu.Vof.c105_clip_mono",
    "Nalu.Vof.c105_smoothing_diffuses",
    "Nalu.Vof.c105_smoothing_conserves",
    "Nalu.Vof.c105_smoothing_affine",
    "Nalu.Vof.c105_smoothing_uniform"
   ],
   "note": ""
  },
  {
   "property": "C106",
   "status": "proved",
   "theorems": [
    "Nalu.Vof.c106_normal_bounded",
    "Nalu.Vof.c106_normal_planar",
    "Nalu.Vof.c106_normal_uniform",
    "Nalu.Vof.c106_normal_phase_swap",
    "Nalu.Vof.c106_curvature_affine",
    "Nalu.Vof.c106_planar_curvature",
    "Nalu.Vof.c106_curvature_odd"
   ],
   "note": ""
  },
  {
   "property": "C107",
   "status": "proved",
   "theorems": [
    "Nalu.Vof.c107_conservative_advection",
    "Nalu.Vof.c107_conservative_noPstab",
    "Nalu.Vof.c107_conservative_upwind",
    "Nalu.Vof.c107_conservative_stabilisation",
    "Nalu.Vof.c107_conservative_momentum_sharpen",
    "Nalu.Vof.c107_conservative_capillary",
    "Nalu.Vof.c107_newton_advection",
    "Nalu.Vof.c107_noPstab_rate",
    "Nalu.Vof.c107_newton_noPstab",
    "Nalu.Vof.c107_newton_mass",
    "Nalu.Vof.c107_newton_gcl",
    "Nalu.Vof.c107_newton_div",
    "Nalu.Vof.c107_newton_scvAdv",
    "Nalu.Vof.c107_newton_open",
    "Nalu.Vof.c107_newton_momentum_sharpen",
    "Nalu.Vof.c107_newton_capillary",
    "Nalu.Vof.c107_upwind_defect",
    "Nalu.Vof.c107_newton_upwind_forward",
    "Nalu.Vof.c107_upwind_lost_column",
    "Nalu.Vof.c107_uniform_advection",
    "Nalu.Vof.c107_uniform_upwind",
    "Nalu.Vof.c107_uniform_stabilisation",
    "Nalu.Vof.c107_stabilisation_row",
    "Nalu.Vof.c107_free_stream",
    "Nalu.Vof.c107_mass_consistent",
    "Nalu.Vof.c107_scvAdv_affine",
    "Nalu.Vof.c107_open_flux",
    "Nalu.Vof.c107_sharpen_pure",
    "Nalu.Vof.c107_sharpen_defect",
    "Nalu.Vof.c107_capillary_tangential",
    "Nalu.Vof.c107_capillary_translation"
   ],
   "note": "Findings: the upwind kernels write the right-node Jacobian to column il (c107_upwind_defect, c107_upwind_lost_column); compression drops the derivative of 1-alpha (c107_sharpen_defect); the stabilisation Jacobian omits its time derivative (c107_stabilisation_row)."
  },
  {
   "property": "C108",
   "status": "proved",
   "theorems": [
    "Nalu.Vof.c108_gradient_used",
    "Nalu.Vof.c108_uniform_defect",
    "Nalu.Vof.c108_consistent",
    "Nalu.Vof.c108_no_matrix",
    "Nalu.Vof.c108_pure_phase",
    "Nalu.Vof.c108_sign",
    "Nalu.Vof.c108_constant_squared"
   ],
   "note": "Findings: the gradient in the evaporation kernels uses the running interpolant (c108_gradient_used, c108_uniform_defect) and c_ is applied twice (c108_constant_squared)."
  },
  {
   "property": "C109",
   "status": "proved",
   "theorems": [
    "Nalu.Force.c109_totals",
    "Nalu.Force.c109_decomposition",
    "Nalu.Force.c109_moment_transfer",
    "Nalu.Force.c109_planar",
    "Nalu.Force.c109_pressure_force",
    "Nalu.Force.c109_pressure_gauge",
    "Nalu.Force.c109_closed_surface",
    "Nalu.Force.c109_rotation_invariant",
    "Nalu.Force.c109_wall_reaction",
    "Nalu.Force.c109_nodal_sum",
    "Nalu.Force.c109_moment_vector_product"
   ],
   "note": "Faces of a rank are its locally owned faces; parts that overlap within the projected algorithm are visited twice in execute and once in pre_work (not modelled)."
  },
  {
   "property": "C110",
   "status": "proved",
   "theorems": [
    "Nalu.Force.c110_nodal_fields",
    "Nalu.Force.c110_driver",
    "Nalu.Force.c110_average",
    "Nalu.Force.c110_mixed_kinds_add",
    "Nalu.Force.c110_listed_twice",
    "Nalu.Force.c110_extremes",
    "Nalu.Force.c110_tau_tangential",
    "Nalu.Force.c110_viscous_force",
    "Nalu.Force.c110_simple_shear",
    "Nalu.Force.c110_distance",
    "Nalu.Force.c110_wall_function",
    "Nalu.Force.c110_projected"
   ],
   "note": "Findings: averages of different algorithm kinds are added at shared nodes (c110_mixed_kinds_add); listing surfaces twice doubles pressure_force (c110_listed_twice); the y+ distance is the length of the componentwise product of normal and edge (c110_distance), too small on skew walls as in C68. A frequency of zero is a modulo by zero in the code; the model takes step % 0 = step."
  },
  {
   "property": "C111",
   "status": "proved",
   "theorems": [
    "Nalu.Xfer.c111_nearest",
    "Nalu.Xfer.c111_no_closer",
    "Nalu.Xfer.c111_dropped",
    "Nalu.Xfer.c111_map",
    "Nalu.Xfer.c111_report",
    "Nalu.Xfer.c111_report_bounds"
   ],
   "note": "Findings: a node whose search fails in all candidates (distance = DBL_MAX) is dropped without notice and keeps its old values (c111_dropped, c112_values); the reported 'Maximum normalized distance' is that of the first searchable candidate, not of the one kept (c111_report). QUAD4 2D reports failures as distance 1e6 with coordinates 1e6 and is then interpolated there (not excluded by the model: search is a parameter). The coarse search is stk's and not modelled."
  },
  {
   "property": "C112",
   "status": "proved",
   "theorems": [
    "Nalu.Xfer.c112_values",
    "Nalu.Xfer.c112_order_and_repeat",
    "Nalu.Xfer.c112_clip",
    "Nalu.Xfer.c112_bounded",
    "Nalu.Xfer.c112_affine",
    "Nalu.Xfer.c112_tet_mesh"
   ],
   "note": "Ghosting, copy_owned_to_shared and field registration are not modelled. interpolatePoint and isInElement of the tetrahedron are those of C40/C44."
  },
  {
   "property": "C113",
   "status": "proved",
   "theorems": [
    "Nalu.Xfer.c113_fresh",
    "Nalu.Xfer.c113_start",
    "Nalu.Xfer.c113_counts"
   ],
   "note": "Multi-physics transfers only; IO transfers are C09."
  },
  {
   "property": "C114",
   "status": "proved",
   "theorems": [
    "Nalu.Overset.c114_constraint",
    "Nalu.Overset.c114_others",
    "Nalu.Overset.c114_scaling",
    "Nalu.Overset.c114_affine_hex"
   ],
   "note": "Ranks are a finite type; the exported shared rows are summed. Hypothesis `Listed` (a rank contributing to a constraint node lists it) is what create_overset_info_vec establishes by taking owned and shared nodes. general_shape_fcn is a parameter; c114_affine_hex instantiates the hexahedron. Findings: density and dual volume are read even with scaling off; general_shape_fcn exists only for Hex8, Quad4 and P2 elements (others throw)."
  },
  {
   "property": "C115",
   "status": "proved",
   "theorems": [
    "Nalu.Overset.c115_nearest",
    "Nalu.Overset.c115_inside_wins",
    "Nalu.Overset.c115_ranks_agree",
    "Nalu.Overset.c115_output_changes_donor",
    "Nalu.Overset.c115_clip",
    "Nalu.Overset.c115_clip_nearest"
   ],
   "note": "isInElement is a parameter (C44 proves its meaning). Findings: c115_output_changes_donor, clipping of parametric coordinates happens only with detailed output on; nodes without a donor keep a null element and are not reported."
  },
  {
   "property": "C116",
   "status": "proved",
   "theorems": [
    "Nalu.Overset.c116_update",
    "Nalu.Overset.c116_fixed",
    "Nalu.Overset.c116_order_matters",
    "Nalu.Overset.c116_other_sizes",
    "Nalu.Overset.c116_gas_dynamics_swapped"
   ],
   "note": "Fields are memory with a base address per node. Findings: c116_gas_dynamics_swapped (GasDynamicsEquationSystem.C:877-879 passes sizes (1,nDim) for density and (1,1) for momentum), c116_order_matters (donors containing constraint nodes), c116_other_sizes (the gather layout is wrong for non-square multi-row fields, which the code does not use)."
  },
  {
   "property": "C117",
   "status": "proved",
   "theorems": [
    "Nalu.Overset.c117_extent",
    "Nalu.Overset.c117_shrink",
    "Nalu.Overset.c117_no_active_in_box",
    "Nalu.Overset.c117_cut_meets",
    "Nalu.Overset.c117_inner_cut",
    "Nalu.Overset.c117_obb_region",
    "Nalu.Overset.c117_obb_cut",
    "Nalu.Overset.c117_obb_attitude",
    "Nalu.Overset.c117_obb_displaced",
    "Nalu.Overset.c117_cylinder_region",
    "Nalu.Overset.c117_cylinder_displaced",
    "Nalu.Overset.c117_cylinder_cross_section"
   ],
   "note": "stk coarse search is its specification (closed boxes that meet). Findings: c117_obb_displaced (is_point_inside forgets to add the centroid back, so the cut is displaced by it), c117_cylinder_displaced (length along the axis measured from cent instead of the cylinder's centre), percentages above 50 turn the box inside out (c117_shrink)."
  },
  {
   "property": "C118",
   "status": "proved",
   "theorems": [
    "Nalu.Overset.c118_active_nodes_have_rows",
    "Nalu.Overset.c118_classes",
    "Nalu.Overset.c118_memoryless",
    "Nalu.Overset.c118_fixed_accumulates"
   ],
   "note": "stk parts are finite sets; create_exposed_block_boundary_sides is its specification. Limit: without mesh motion nothing is cleared (c118_fixed_accumulates)."
  },
  {
   "property": "C119",
   "status": "proved",
   "theorems": [
    "Nalu.Cht.c119_balance_edge",
    "Nalu.Cht.c119_coefficient_edge",
    "Nalu.Cht.c119_reference_edge",
    "Nalu.Cht.c119_noc_sign",
    "Nalu.Cht.c119_fourier_edge",
    "Nalu.Cht.c119_on_face",
    "Nalu.Cht.c119_balance_elem",
    "Nalu.Cht.c119_fourier_elem",
    "Nalu.Cht.c119_coefficient_elem",
    "Nalu.Cht.c119_length_elem",
    "Nalu.Cht.c119_coefficient_not_local"
   ],
   "note": "Finding: the edge algorithm subtracts the non-orthogonal correction where it should add it, so for an affine temperature on a skewed mesh the correction doubles the error of the two-point flux (c119_noc_sign). Finding: the element scheme's coefficient divides by the node's own temperature only, so it depends on neighbouring wall temperatures when they differ (c119_coefficient_not_local). Both divide by the wall temperature: zero is excluded by hypothesis. Periodic update between assembly and normalisation: see C38."
  },
  {
   "property": "C120",
   "status": "proved",
   "theorems": [
    "Nalu.Cht.c120_newton",
    "Nalu.Cht.c120_total",
    "Nalu.Cht.c120_direction",
    "Nalu.Cht.c120_diagonal",
    "Nalu.Cht.c120_interface_convection",
    "Nalu.Cht.c120_interface_convection_elem",
    "Nalu.Cht.c120_interface_robin"
   ],
   "note": "The transfer between the realms is identity at matching nodes (C111-C113 for the transfer itself); for Robin coupling the reference temperature is assumed to be the fluid's wall temperature (the user's transfer decides)."
  },
  {
   "property": "C121",
   "status": "proved",
   "theorems": [
    "Nalu.Cht.c121_closed",
    "Nalu.Cht.c121_bounds",
    "Nalu.Cht.c121_monotone",
    "Nalu.Cht.c121_impedance",
    "Nalu.Cht.c121_one_step",
    "Nalu.Cht.c121_nodal",
    "Nalu.Cht.c121_element_parameter",
    "Nalu.Cht.c121_edge_parameter"
   ],
   "note": "Half-space step is the specification HalfSpaceStep; bounded solutions only."
  },
  {
   "property": "C122",
   "status": "proved",
   "theorems": [
    "Nalu.Node.c122_first_step",
    "Nalu.Node.c122_scalar_newton",
    "Nalu.Node.c122_momentum_newton",
    "Nalu.Node.c122_heat_newton",
    "Nalu.Node.c122_heat_iteration"
   ],
   "note": "Finding: HeatCondMassBDF2NodeSuppAlg leaves gamma1 out of its matrix entry, so Newton for heat conduction under BDF2 is inexact (c122_heat_newton: exact iff gamma1 = 1) and reduces the lumped error only by 1 - gamma1 per iteration (c122_heat_iteration); the converged temperature is right."
  },
  {
   "property": "C123",
   "status": "proved",
   "theorems": [
    "Nalu.Node.c123_scalar_rate",
    "Nalu.Node.c123_euler_history",
    "Nalu.Node.c123_bdf2_history",
    "Nalu.Node.c123_no_source",
    "Nalu.Node.c123_exact_quadratic"
   ],
   "note": "Dual volume constant over the history (moving meshes: C124). BDF2 with variable steps has no telescoping content; covered are no-source histories and exactness on quadratics."
  },
  {
   "property": "C124",
   "status": "proved",
   "theorems": [
    "Nalu.Node.c124_scalar_residual",
    "Nalu.Node.c124_uniform_after_solve",
    "Nalu.Node.c124_momentum_residual"
   ],
   "note": "Inflow nodes are excluded (their rows are Dirichlet rows); momentum without open faces at the node. Requires weights (1,-1,0) with two states (what compute_gamma leaves for first order)."
  },
  {
   "property": "C125",
   "status": "proved",
   "theorems": [
    "Nalu.Node.c125_forces",
    "Nalu.Node.c125_pressure_work",
    "Nalu.Node.c125_material_derivative",
    "Nalu.Node.c125_viscous_work",
    "Nalu.Node.c125_dissipation_nonneg",
    "Nalu.Node.c125_rigid",
    "Nalu.Node.c125_low_speed_newton",
    "Nalu.Node.c125_actuator"
   ],
   "note": "Finding: ContinuityLowSpeedCompressibleNodeSuppAlg lacks gamma1 in d(rho)/dp, so it is the exact derivative only for gamma1 = 1 (c125_low_speed_newton)."
  },
  {
   "property": "C126",
   "status": "proved",
   "theorems": [
    "Nalu.Node.c126_once",
    "Nalu.Node.c126_block_diagonal"
   ],
   "note": "Node ownership is the stk invariant OwnedOnce; rows are distinct by C18."
  },
  {
   "property": "C127",
   "status": "proved",
   "theorems": [
    "Nalu.Bc.c127_nearest",
    "Nalu.Bc.c127_partition_independent",
    "Nalu.Bc.c127_pinned_row",
    "Nalu.Bc.c127_other_rows",
    "Nalu.Bc.c127_pressure_value",
    "Nalu.Bc.c127_runs_last"
   ],
   "note": "numeric_limits::max is modelled as 'no node yet'. Row and column facts of the numbering are hypotheses (PinOK), proved for the code in C18/C21."
  },
  {
   "property": "C128",
   "status": "proved",
   "theorems": [
    "Nalu.Bc.c128_gradient_exact",
    "Nalu.Bc.c128_open_tangential",
    "Nalu.Bc.c128_open_advection"
   ],
   "note": ""
  },
  {
   "property": "C129",
   "status": "partial",
   "theorems": [
    "Nalu.Bc.c129_symmetry_normal",
    "Nalu.Bc.c129_symmetry_kernel_partial",
    "Nalu.Bc.c129_kernel_divU"
   ],
   "note": "Finding: with include_divu the element symmetry kernel does not add the divergence stress 2/3 mu div(u) A but 2/3 mu (sum_j du_j/dx_j A_j) n (sum_l n_l): wrong on faces not aligned with an axis (c129_kernel_divU). Partial theorem is for include_divu = 0."
  },
  {
   "property": "C130",
   "status": "partial",
   "theorems": [
    "Nalu.Bc.c130_open_matrix_error",
    "Nalu.Bc.c130_open_newton_partial",
    "Nalu.Bc.c130_open_newton_2d",
    "Nalu.Bc.c130_open_3d_fails",
    "Nalu.Bc.c130_symmetry_newton_partial",
    "Nalu.Bc.c130_symmetry_skew_fails",
    "Nalu.Bc.c130_symmetry_kernel"
   ],
   "note": "Findings: AssembleMomentumEdgeOpenSolverAlgorithm's matrix misses the terms coupling three different components, so it is inexact in 3-D for normals with three nonzero components (c130_open_matrix_error gives the error, c130_open_3d_fails a case); AssembleMomentumEdgeSymmetrySolverAlgorithm omits inv_axdx in two factors (lines 303, 307), so the matrix is wrong on every face not aligned with a coordinate plane (c130_symmetry_skew_fails). Residuals are right (C128, C129), so converged solutions are not affected."
  },
  {
   "property": "C131",
   "status": "proved",
   "theorems": [
    "Nalu.Bc.c131_flux_total",
    "Nalu.Bc.c131_flux_uniform",
    "Nalu.Bc.c131_gradient_uniform",
    "Nalu.Bc.c131_gradient_total",
    "Nalu.Bc.c131_total_pressure",
    "Nalu.Bc.c131_dynamic_scaling"
   ],
   "note": "std::sqrt of the squared area is data (amag)."
  },
  {
   "property": "C132",
   "status": "proved",
   "theorems": [
    "Nalu.Probe.c132_one_rank",
    "Nalu.Probe.c132_balanced",
    "Nalu.Probe.c132_nodes",
    "Nalu.Probe.c132_restart"
   ],
   "note": "numProcs/numProbes divides by zero for a specification without probes (not modelled: Lean's n/0 = 0). Ids are those drawn by generate_new_ids (STK, trusted to be fresh)."
  },
  {
   "property": "C133",
   "status": "proved",
   "theorems": [
    "Nalu.Probe.c133_line",
    "Nalu.Probe.c133_ends",
    "Nalu.Probe.c133_between",
    "Nalu.Probe.c133_single",
    "Nalu.Probe.c133_frame",
    "Nalu.Probe.c133_split_restart"
   ],
   "note": "Finding: at a restart where the nodes of one probe are owned by two ranks, every rank numbers its nodes from zero, so nodes of different ranks coincide (c133_split_restart). Nodes are placed in bucket order, not id order."
  },
  {
   "property": "C134",
   "status": "proved",
   "theorems": [
    "Nalu.Probe.c134_position",
    "Nalu.Probe.c134_circle",
    "Nalu.Probe.c134_first",
    "Nalu.Probe.c134_frame"
   ],
   "note": "Real arithmetic; three dimensions."
  },
  {
   "property": "C135",
   "status": "proved",
   "theorems": [
    "Nalu.Probe.c135_position",
    "Nalu.Probe.c135_corners",
    "Nalu.Probe.c135_two_rows"
   ],
   "note": "Finding: numPointsDTwo = max(2, n2-1) where the first direction has max(1, n1-1): with n2 = 2 tip two is never reached (c135_two_rows)."
  },
  {
   "property": "C136",
   "status": "proved",
   "theorems": [
    "Nalu.Probe.c136_file",
    "Nalu.Probe.c136_one_banner",
    "Nalu.Probe.c136_fresh"
   ],
   "note": "Ranks write one after the other; with a probe split over two ranks (C133) the order is up to the file system."
  },
  {
   "property": "C137",
   "status": "proved",
   "theorems": [
    "Nalu.Norm.c137_rows",
    "Nalu.Norm.c137_decomposition",
    "Nalu.Norm.c137_ordered",
    "Nalu.Norm.c137_zero",
    "Nalu.Norm.c137_restart_truncates"
   ],
   "note": "Model: Verif/Model/SolutionNorm.lean. The interpolation of the analytical functions is a parameter. Finding (c137_restart_truncates): the norm file is opened without append when the input is loaded, so a restarted run deletes the norms of the first."
  },
  {
   "property": "C138",
   "status": "proved",
   "theorems": [
    "Nalu.Mms.c138_continuity",
    "Nalu.Mms.c138_mixfrac",
    "Nalu.Mms.c138_momentum0",
    "Nalu.Mms.c138_momentum1",
    "Nalu.Mms.c138_momentum2"
   ],
   "note": "Model: Verif/Model/Mms.lean, transcribed term by term from the node algorithms (the element versions contain the same expressions). Reals instead of floating point. The hypothesis specificVolume \u2260 0 is needed: with the constants of the code V = 1 + 9 Z vanishes where Z = -1/9."
  },
  {
   "property": "C139",
   "status": "proved",
   "theorems": [
    "Nalu.Mms.c139_temperature",
    "Nalu.Mms.c139_continuity",
    "Nalu.Mms.c139_enthalpy",
    "Nalu.Mms.c139_momentum0",
    "Nalu.Mms.c139_momentum1",
    "Nalu.Mms.c139_momentum2"
   ],
   "note": "Model: Verif/Model/Mms.lean. code_temp_pos shows the hypothesis holds everywhere for the constants of the code."
  },
  {
   "property": "C140",
   "status": "proved",
   "theorems": [
    "Nalu.Exact.c140_steady_taylor_vortex",
    "Nalu.Exact.c140_stv_continuity",
    "Nalu.Exact.c140_conduction",
    "Nalu.Exact.c140_boussinesq"
   ],
   "note": "Model: Verif/Model/ExactSol.lean. The amplitude relations (vnot = unot, pnot = unot\u00b2) hold for the constants of the code. The Boussinesq statement uses the model of MomentumBoussinesqSrcNodeSuppAlg of C125."
  },
  {
   "property": "C141",
   "status": "proved",
   "theorems": [
    "Nalu.Exact.c141_convecting_taylor_vortex",
    "Nalu.Exact.c141_kovasznay",
    "Nalu.Exact.c141_kovasznay_decays",
    "Nalu.Exact.c141_wind_energy_vortex",
    "Nalu.Exact.c141_wind_energy_pressure",
    "Nalu.Exact.c141_inviscid_undefined"
   ],
   "note": "Model: Verif/Model/ExactSol.lean. Finding (c141_inviscid_undefined): for viscosity at or below 1e-30 the code sets both the scaled time and the Reynolds number to zero and then divides them, so the inviscid vortex is NaN, contrary to the comment 'zero out viscous terms if mu ~ 0'."
  },
  {
   "property": "C142",
   "status": "proved",
   "theorems": [
    "Nalu.Exact.c142_taylor_green"
   ],
   "note": "Model: Verif/Model/ExactSol.lean."
  },
  {
   "property": "C143",
   "status": "proved",
   "theorems": [
    "Nalu.Fem.c143_diffusion",
    "Nalu.Fem.c143_advection",
    "Nalu.Fem.c143_mass",
    "Nalu.Fem.c143_heat_mass",
    "Nalu.Fem.c143_continuity",
    "Nalu.Fem.c143_png",
    "Nalu.Fem.c143_momentum_mass",
    "Nalu.Fem.c143_momentum_adv",
    "Nalu.Fem.c143_body_force"
   ],
   "note": "Model: Verif/Model/Fem.lean; specification Verif/Spec/Fem.lean."
  },
  {
   "property": "C144",
   "status": "proved",
   "theorems": [
    "Nalu.Fem.c144_diffusion",
    "Nalu.Fem.c144_advection",
    "Nalu.Fem.c144_mass",
    "Nalu.Fem.c144_heat_mass",
    "Nalu.Fem.c144_continuity",
    "Nalu.Fem.c144_png",
    "Nalu.Fem.c144_momentum_mass",
    "Nalu.Fem.c144_momentum_adv",
    "Nalu.Fem.c144_momentum_diff",
    "Nalu.Fem.c144_continuity_open",
    "Nalu.Fem.c144_scalar_open",
    "Nalu.Fem.c144_flux_penalty",
    "Nalu.Fem.c144_momentum_open"
   ],
   "note": "Verif/Props/Fem.lean. The explicit dilatational terms are by design not in the matrix, so those two kernels are stated with it off."
  },
  {
   "property": "C145",
   "status": "proved",
   "theorems": [
    "Nalu.Fem.c145_symmetric",
    "Nalu.Fem.c145_nonneg",
    "Nalu.Fem.c145_null",
    "Nalu.Fem.c145_mass"
   ],
   "note": "Verif/Props/Fem.lean."
  },
  {
   "property": "C146",
   "status": "proved",
   "theorems": [
    "Nalu.Fem.c146_diffusion_conservative",
    "Nalu.Fem.c146_advection_conservative",
    "Nalu.Fem.c146_continuity_conservative",
    "Nalu.Fem.c146_momentum_adv_conservative",
    "Nalu.Fem.c146_mass_total",
    "Nalu.Fem.c146_body_force_total"
   ],
   "note": "Verif/Props/Fem2.lean; shape-function hypotheses are those proved of the elements elsewhere."
  },
  {
   "property": "C147",
   "status": "proved",
   "theorems": [
    "Nalu.Fem.c147_continuity_open",
    "Nalu.Fem.c147_continuity_open_total",
    "Nalu.Fem.c147_open_flux_consistent",
    "Nalu.Fem.c147_inflow",
    "Nalu.Fem.c147_scalar_open",
    "Nalu.Fem.c147_scalar_open_matrix",
    "Nalu.Fem.c147_flux_penalty",
    "Nalu.Fem.c147_penalty_consistent",
    "Nalu.Fem.c147_patch"
   ],
   "note": "Verif/Props/Fem2.lean."
  },
  {
   "property": "C148",
   "status": "partial",
   "theorems": [
    "Nalu.Fem.c148_viscous_actual",
    "Nalu.Fem.c148_viscous_partial",
    "Nalu.Fem.c148_dilatation_overcounted",
    "Nalu.Fem.c148_rigid",
    "Nalu.Fem.c148_dissipative",
    "Nalu.Fem.c148_conservative",
    "Nalu.Fem.c148_open",
    "Nalu.Fem.c148_entrained"
   ],
   "note": "Full statement false of the code: MomentumDiffFemKernel.C applies the dilatational stress inside the loop over nodes, so it is subtracted nodesPerElement times (c148_viscous_actual, c148_dilatation_overcounted). Proved where the dilatational term is off or the discrete divergence vanishes."
  },
  {
   "property": "C149",
   "status": "proved",
   "theorems": [
    "Nalu.Fem.c149_volume_total",
    "Nalu.Fem.c149_face_total",
    "Nalu.Fem.c149_l2_projection",
    "Nalu.Fem.c149_affine_exact"
   ],
   "note": "Verif/Props/Fem3.lean."
  },
  {
   "property": "C150",
   "status": "proved",
   "theorems": [
    "Verif.Shape.c150_partition_of_unity",
    "Verif.Shape.c150_kronecker",
    "Verif.Shape.c150_complete",
    "Verif.Shape.c150_derivatives",
    "Verif.Shape.c150_hex_consistent",
    "Verif.Shape.c150_tet_consistent",
    "Verif.Shape.c150_hex_shifted_nodal",
    "Verif.Shape.c150_tet_shifted_is_node0"
   ],
   "note": "Model: Verif/Model/FemElem.lean; Props/FemElem.lean. Decimal constants exact rationals; the abscissa sqrt(3)/3 a parameter with square 1/3 where needed."
  },
  {
   "property": "C151",
   "status": "proved",
   "theorems": [
    "Verif.Shape.c151_hex_exact",
    "Verif.Shape.c151_hex_volume",
    "Verif.Shape.c151_hex_mass",
    "Verif.Shape.c151_tet_accurate",
    "Verif.Shape.c151_tri_accurate",
    "Verif.Shape.c151_points_inside"
   ],
   "note": "Props/FemQuad.lean; integrals are iterated interval integrals."
  },
  {
   "property": "C152",
   "status": "proved",
   "theorems": [
    "Verif.Shape.c152_trace",
    "Verif.Shape.c152_side_range",
    "Verif.Shape.c152_area",
    "Verif.Shape.c152_normal"
   ],
   "note": "Props/FemFace.lean."
  },
  {
   "property": "C153",
   "status": "proved",
   "theorems": [
    "Nalu.BSpline.c153_find_span",
    "Nalu.BSpline.c153_find_ends",
    "Nalu.BSpline.c153_find_total",
    "Nalu.BSpline.c153_span_unique",
    "Nalu.BSpline.c153_knots",
    "Nalu.BSpline.c153_too_few_sites",
    "Nalu.BSpline.c153_order_zero_reads_outside"
   ],
   "note": "c153_too_few_sites and c153_order_zero_reads_outside record the limits. Observation: basis_funs declares left[10], right[10] but the assert admits p = 10, which writes element 10."
  },
  {
   "property": "C154",
   "status": "proved",
   "theorems": [
    "Nalu.BSpline.c154_cox_de_boor",
    "Nalu.BSpline.c154_piece",
    "Nalu.BSpline.c154_partition",
    "Nalu.BSpline.c154_nonneg",
    "Nalu.BSpline.c154_marsden",
    "Nalu.BSpline.c154_polynomials"
   ],
   "note": "Proved for all orders; scratch content arbitrary."
  },
  {
   "property": "C155",
   "status": "proved",
   "theorems": [
    "Nalu.BSpline.c155_factors",
    "Nalu.BSpline.c155_solves",
    "Nalu.BSpline.c155_unique",
    "Nalu.BSpline.c155_success_of_matrix",
    "Nalu.BSpline.c155_identity",
    "Nalu.BSpline.c155_no_pivoting"
   ],
   "note": "c155_no_pivoting shows an invertible matrix that is refused."
  },
  {
   "property": "C156",
   "status": "proved",
   "theorems": [
    "Nalu.BSpline.c156_interpolates",
    "Nalu.BSpline.c156_polynomials",
    "Nalu.BSpline.c156_constant",
    "Nalu.BSpline.c156_clipping",
    "Nalu.BSpline.c156_hull",
    "Nalu.BSpline.c156_success_of_sites",
    "Nalu.BSpline.c156_linear",
    "Nalu.BSpline.c156_direction",
    "Nalu.BSpline.c156_order_one"
   ],
   "note": "Interpolation theorems hold whenever the construction finishes without a zero pivot (c156_order_one: always for order one)."
  },
  {
   "property": "C157",
   "status": "proved",
   "theorems": [
    "Nalu.BSpline.c157_accepts",
    "Nalu.BSpline.c157_increasing",
    "Nalu.BSpline.c157_decreasing",
    "Nalu.BSpline.c157_pairs"
   ],
   "note": ""
  },
  {
   "property": "C158",
   "status": "proved",
   "theorems": [
    "Nalu.BSpline.c158_history",
    "Nalu.BSpline.c158_interpolates"
   ],
   "note": "The scratch arrays of the splines are a parameter of the model; every theorem holds for all contents. Writing to and reading from HDF5 is not modelled."
  },
  {
   "property": "C159",
   "status": "proved",
   "theorems": [
    "Nalu.Eigen.c159_decomposition",
    "Nalu.Eigen.c159_order",
    "Nalu.Eigen.c159_reconstruct"
   ],
   "note": "Exact real arithmetic."
  },
  {
   "property": "C160",
   "status": "partial",
   "theorems": [
    "Nalu.Eigen.c160_similarity",
    "Nalu.Eigen.c160_invariants",
    "Nalu.Eigen.c160_early_exit_partial",
    "Nalu.Eigen.c160_diagonal_fixed",
    "Nalu.Eigen.c160_output_overwritten",
    "Nalu.Eigen.c160_simd_lane_independent",
    "Nalu.Eigen.c160_simd_similarity",
    "Nalu.Eigen.c160_simd_agrees_partial",
    "Nalu.Eigen.c160_simd_tie_gives_up",
    "Nalu.Eigen.c160_simd_not_diagonal",
    "Nalu.Eigen.c160_rotation_inexact"
   ],
   "note": "Partial: D need not be diagonal. The loop is limited to 24 passes and its rotation is inexact, because the quaternion product is computed in place (q[1] from the new q[0], ...): c160_rotation_inexact shows a matrix one exact rotation would diagonalise but the code does not. The SIMD overload compares strictly on both sides, so a tie between the two largest off-diagonal entries makes it return Q = 1, D = A (c160_simd_tie_gives_up, c160_simd_not_diagonal). Everything else (rotation, similarity, invariants, reconstruction, lane independence, agreement without ties) is proved without restriction."
  },
  {
   "property": "C161",
   "status": "proved",
   "theorems": [
    "Nalu.Eigen.c161_sort",
    "Nalu.Eigen.c161_perturb_entries",
    "Nalu.Eigen.c161_trace",
    "Nalu.Eigen.c161_kinetic_energy",
    "Nalu.Eigen.c161_realizable_up_to_residue",
    "Nalu.Eigen.c161_realizable",
    "Nalu.Eigen.c161_limiting_state",
    "Nalu.Eigen.c161_no_perturbation",
    "Nalu.Eigen.c161_boussinesq"
   ],
   "note": "The 3x3 arrays are used; in 2D the code decomposes a 3x3 array whose last row and column it never sets. The energy floor 1e-16 is modelled. The realizability bound is quantitative in the off-diagonal residue of the (possibly unconverged) decomposition."
  },
  {
   "property": "C162",
   "status": "proved",
   "theorems": [
    "Nalu.Eigen.c162_conservative",
    "Nalu.Eigen.c162_exact_newton",
    "Nalu.Eigen.c162_orientation",
    "Nalu.Eigen.c162_linear_field",
    "Nalu.Eigen.c162_dissipative",
    "Nalu.Eigen.c162_uniform",
    "Nalu.Eigen.c162_unperturbed_stress",
    "Nalu.Eigen.c162_laminar_correction_always_on",
    "Nalu.Eigen.c162_isotropic_flux"
   ],
   "note": "Three dimensions. A vanishing strain rate divides by zero in the code (time scale 1/|S|). Deviations recorded: the laminar non-orthogonal correction ignores the user's noc switch (c162_laminar_correction_always_on), and the Reynolds stress uses the eddy viscosity divided by the turbulent Prandtl number (c162_unperturbed_stress). Orientation theorem: limiter off and non-zero mass flow rate."
  },
  {
   "property": "C163",
   "status": "proved",
   "theorems": [
    "Nalu.Actuator.c163_one_rank",
    "Nalu.Actuator.c163_rank_points",
    "Nalu.Actuator.c163_all_points",
    "Nalu.Actuator.c163_ids",
    "Nalu.Actuator.c163_ends",
    "Nalu.Actuator.c163_even",
    "Nalu.Actuator.c163_rotation",
    "Nalu.Actuator.c163_rigid",
    "Nalu.Actuator.c163_centre",
    "Nalu.Actuator.c163_periodic",
    "Nalu.Actuator.c163_rest",
    "Nalu.Actuator.c163_about_middle"
   ],
   "note": "Proved for three dimensions; the two-dimensional behaviour is c164_two_dimensions."
  },
  {
   "property": "C164",
   "status": "partial",
   "theorems": [
    "Nalu.Actuator.c164_speed_partial",
    "Nalu.Actuator.c164_velocity_reversed",
    "Nalu.Actuator.c164_not_the_velocity",
    "Nalu.Actuator.c164_two_dimensions"
   ],
   "note": "Full statement refuted: c164_velocity_reversed (the code uses minus the derivative) and c164_not_the_velocity (never right off the axis when turning).  Proved part: c164_speed_partial."
  },
  {
   "property": "C165",
   "status": "proved",
   "theorems": [
    "Nalu.Actuator.c165_continuous",
    "Nalu.Actuator.c165_stokes",
    "Nalu.Actuator.c165_monotone",
    "Nalu.Actuator.c165_sphere_drag",
    "Nalu.Actuator.c165_along_slip",
    "Nalu.Actuator.c165_dissipative",
    "Nalu.Actuator.c165_at_least_stokes",
    "Nalu.Actuator.c165_galilean"
   ],
   "note": "cbrt, sqrt exact over the reals."
  },
  {
   "property": "C166",
   "status": "partial",
   "theorems": [
    "Nalu.Actuator.c166_width_ignored",
    "Nalu.Actuator.c166_integral",
    "Nalu.Actuator.c166_total_partial",
    "Nalu.Actuator.c166_default",
    "Nalu.Actuator.c166_decreasing",
    "Nalu.Actuator.c166_last_wins",
    "Nalu.Actuator.c166_superposition_partial",
    "Nalu.Actuator.c166_overlap_lost"
   ],
   "note": "Full statement refuted: c166_integral (1/e^n of the force), c166_total_partial (right exactly for e = 1), c166_last_wins and c166_overlap_lost (overwriting instead of adding, partition dependent).  Proved part: superposition when no two points of a rank share a node."
  },
  {
   "property": "C167",
   "status": "proved",
   "theorems": [
    "Nalu.Actuator.c167_nodes",
    "Nalu.Actuator.c167_best",
    "Nalu.Actuator.c167_best_none",
    "Nalu.Actuator.c167_uniform_gas",
    "Nalu.Actuator.c167_lhs_total"
   ],
   "note": "isInElement is modelled in C44; here its result is data of the hit.  Density is not in the list of ghosted fields (line 437-441), so on ghosted elements the code may read an old density; the model reads the same fields on all ranks."
  },
  {
   "property": "C168",
   "status": "proved",
   "theorems": [
    "Nalu.Actuator.c168_isotropic",
    "Nalu.Actuator.c168_nonneg",
    "Nalu.Actuator.c168_element_total",
    "Nalu.Actuator.c168_element_uniform",
    "Nalu.Actuator.c168_element_matrix"
   ],
   "note": "The nodal supplemental algorithm itself is in Model/NodeSource (C125)."
  },
  {
   "property": "C169",
   "status": "proved",
   "theorems": [
    "Nalu.MeshDisp.c169_residual",
    "Nalu.MeshDisp.c169_conservative",
    "Nalu.MeshDisp.c169_newton",
    "Nalu.MeshDisp.c169_affine",
    "Nalu.MeshDisp.c169_rigid",
    "Nalu.MeshDisp.c169_instance"
   ],
   "note": ""
  },
  {
   "property": "C170",
   "status": "partial",
   "theorems": [
    "Nalu.MeshDisp.c170_inertia_partial",
    "Nalu.MeshDisp.c170_uniform",
    "Nalu.MeshDisp.c170_wrong_acceleration",
    "Nalu.MeshDisp.c170_two_states",
    "Nalu.MeshDisp.c170_newton",
    "Nalu.MeshDisp.c170_total",
    "Nalu.MeshDisp.c170_instance"
   ],
   "note": "full statement false of the code: dt_avg = 0.5*dt + dt_nm1 (should be 0.5*(dt+dt_nm1)) scales the acceleration by (dt+dt_old)/(dt+2dt_old) (2/3 for equal steps), and with two states uniform motion is decelerated; both proved."
  },
  {
   "property": "C171",
   "status": "partial",
   "theorems": [
    "Nalu.MeshDisp.c171_residual_partial",
    "Nalu.MeshDisp.c171_conservative",
    "Nalu.MeshDisp.c171_picard",
    "Nalu.MeshDisp.c171_law_rigid",
    "Nalu.MeshDisp.c171_translation",
    "Nalu.MeshDisp.c171_rotation",
    "Nalu.MeshDisp.c171_rest_2d",
    "Nalu.MeshDisp.c171_rotation_instance"
   ],
   "note": "full statement false of the code: the term factor*F uses the full deformation gradient although H^T is added separately, so mu*beta/J*H^T is counted once too often; a rotated mesh carries 3/4 mu (R-I)^T and in 2D the rest state carries -mu/12 (alpha is the 3D value)."
  },
  {
   "property": "C172",
   "status": "partial",
   "theorems": [
    "Nalu.MeshDisp.c172_constants_partial",
    "Nalu.MeshDisp.c172_right_iff",
    "Nalu.MeshDisp.c172_elastic_exchanged",
    "Nalu.MeshDisp.c172_instance"
   ],
   "note": "full statement false of the code: MeshDisplacementEquationSystem.C:199-200 registers LAME_MU_ID for lameLambda_ and LAME_LAMBDA_ID for lameMu_; proved right only if both are equal."
  },
  {
   "property": "C173",
   "status": "proved",
   "theorems": [
    "Nalu.MeshDisp.c173_increments",
    "Nalu.MeshDisp.c173_coordinates",
    "Nalu.MeshDisp.c173_velocity",
    "Nalu.MeshDisp.c173_velocity_exact",
    "Nalu.MeshDisp.c173_fixed",
    "Nalu.MeshDisp.c173_divergence"
   ],
   "note": ""
  },
  {
   "property": "C174",
   "status": "proved",
   "theorems": [
    "Nalu.MeshDisp.c174_matrix",
    "Nalu.MeshDisp.c174_total",
    "Nalu.MeshDisp.c174_uniform",
    "Nalu.MeshDisp.c174_closed",
    "Nalu.MeshDisp.c174_local"
   ],
   "note": ""
  },
  {
   "property": "C175",
   "status": "proved",
   "theorems": [
    "Nalu.Nso.c175_flux",
    "Nalu.Nso.c175_flux_ke",
    "Nalu.Nso.c175_conservative",
    "Nalu.Nso.c175_viscosity",
    "Nalu.Nso.c175_viscosity_ke",
    "Nalu.Nso.c175_alt_residual",
    "Nalu.Nso.c175_residual",
    "Nalu.Nso.c175_pde_residual",
    "Nalu.Nso.c175_exact_fields",
    "Nalu.Nso.c175_matrix",
    "Nalu.Nso.c175_down_gradient"
   ],
   "note": "Closed forms of fluxLoop; c175_flux/_ke, c175_viscosity/_ke, c175_residual, c175_exact_fields, c175_matrix."
  },
  {
   "property": "C176",
   "status": "proved",
   "theorems": [
    "Nalu.Nso.c176_flux",
    "Nalu.Nso.c176_conservative",
    "Nalu.Nso.c176_exact_fields",
    "Nalu.Nso.c176_smooth_pressure",
    "Nalu.Nso.c176_uniform_stream",
    "Nalu.Nso.c176_residual",
    "Nalu.Nso.c176_matrix"
   ],
   "note": "All three diffusive momentum kernels share momentumWith; the viscosity of each is inserted."
  },
  {
   "property": "C177",
   "status": "partial",
   "theorems": [
    "Nalu.Nso.c177_stress_partial",
    "Nalu.Nso.c177_stress_incompressible",
    "Nalu.Nso.c177_conservative",
    "Nalu.Nso.c177_rigid",
    "Nalu.Nso.c177_expansion"
   ],
   "note": "Partial: the code adds the dilatation term inside the loop over the nodes, so it is counted nodesPerElement times (MomentumNSOSijElemKernel.C:187-226). c177_stress_partial states what is added, c177_stress_incompressible the full claim when divU is not included or zero, c177_expansion the error 2(m-1) nu c g_ii a_i on a uniform expansion."
  },
  {
   "property": "C178",
   "status": "proved",
   "theorems": [
    "Nalu.Nso.c178_fem_operator",
    "Nalu.Nso.c178_fem_viscosity"
   ],
   "note": "Symmetry, semidefiniteness, zero row sums and consistency of the FEM form."
  },
  {
   "property": "C179",
   "status": "partial",
   "theorems": [
    "Nalu.Nso.c179_metric_psd",
    "Nalu.Nso.c179_twod",
    "Nalu.Nso.c179_threed",
    "Nalu.Nso.c179_simd_partial",
    "Nalu.Nso.c179_simd_counterexample"
   ],
   "note": "Partial only in the SIMD claim: the clip tests lane 0 for the whole pack (Quad42DCVFEM.C:766-767); c179_simd_partial and c179_simd_counterexample. twod_gij/threed_gij are fully proved."
  },
  {
   "property": "C180",
   "status": "proved",
   "theorems": [
    "Nalu.TurbElem.c180_tke",
    "Nalu.TurbElem.c180_tke_des",
    "Nalu.TurbElem.c180_sdr",
    "Nalu.TurbElem.c180_limited"
   ],
   "note": ""
  },
  {
   "property": "C181",
   "status": "proved",
   "theorems": [
    "Nalu.TurbElem.c181_tke",
    "Nalu.TurbElem.c181_eps",
    "Nalu.TurbElem.c181_incompressible"
   ],
   "note": ""
  },
  {
   "property": "C182",
   "status": "proved",
   "theorems": [
    "Nalu.TurbElem.c182_lumped",
    "Nalu.TurbElem.c182_design"
   ],
   "note": ""
  },
  {
   "property": "C183",
   "status": "proved",
   "theorems": [
    "Nalu.TurbElem.c183_sst",
    "Nalu.TurbElem.c183_keps",
    "Nalu.TurbElem.c183_sdr",
    "Nalu.TurbElem.c183_ksgs",
    "Nalu.TurbElem.c183_mesh",
    "Nalu.TurbElem.c183_update"
   ],
   "note": ""
  },
  {
   "property": "C184",
   "status": "partial",
   "theorems": [
    "Nalu.TurbElem.c184_agree_partial",
    "Nalu.TurbElem.c184_des_matrix",
    "Nalu.TurbElem.c184_ksgs",
    "Nalu.TurbElem.c184_sdr_des_rans",
    "Nalu.TurbElem.c184_sdr_des_les"
   ],
   "note": "Partial: the full statement is false. c184_des_matrix shows that the element DES matrix is 2/3 of the node matrix (1.5 factor missing in TurbKineticEnergySSTDESSrcElemKernel.C:197), c184_sdr_des_les that the omega equation differs in the LES region."
  },
  {
   "property": "C185",
   "status": "proved",
   "theorems": [
    "Nalu.TurbElem.c185_source",
    "Nalu.TurbElem.c185_sign",
    "Nalu.TurbElem.c185_rodi"
   ],
   "note": ""
  },
  {
   "property": "C186",
   "status": "partial",
   "theorems": [
    "Nalu.TurbElem.c186_serial_partial",
    "Nalu.TurbElem.c186_race"
   ],
   "note": "Partial: holds when no two threads are inside an integration point at the same time; c186_race exhibits an interleaving of two threads in which one reads the other's gradient (w_drhodx_ is a member of the shared kernel)."
  },
  {
   "property": "C187",
   "status": "proved",
   "theorems": [
    "Nalu.ExpFilter.c187_box_mean",
    "Nalu.ExpFilter.c187_bounds",
    "Nalu.ExpFilter.c187_constant",
    "Nalu.ExpFilter.c187_linear"
   ],
   "note": ""
  },
  {
   "property": "C188",
   "status": "proved",
   "theorems": [
    "Nalu.ExpFilter.c188_neighbourhood",
    "Nalu.ExpFilter.c188_ghosting",
    "Nalu.ExpFilter.c188_partition",
    "Nalu.ExpFilter.c188_support_monotone"
   ],
   "note": ""
  },
  {
   "property": "C189",
   "status": "partial",
   "theorems": [
    "Nalu.ExpFilter.c189_residual_integral_partial",
    "Nalu.ExpFilter.c189_hydrostatic",
    "Nalu.ExpFilter.c189_normalized_uniform_partial",
    "Nalu.ExpFilter.c189_volume_index_counterexample"
   ],
   "note": "Partial: c189_residual_integral_partial and c189_normalized_uniform_partial need one integration point per node, in order. ExplicitFiltering.C:1200 reads p_scvol[nn] (node index) instead of p_scvol[ip]; c189_volume_index_counterexample shows the wrong volumes for an element with two points per node (Quad9, Hex27). c189_hydrostatic holds for all elements."
  },
  {
   "property": "C190",
   "status": "proved",
   "theorems": [
    "Nalu.HdfTable.c190_accepts",
    "Nalu.HdfTable.c190_lookup",
    "Nalu.HdfTable.c190_nodes",
    "Nalu.HdfTable.c190_order_free",
    "Nalu.HdfTable.c190_in_box",
    "Nalu.HdfTable.c190_inside"
   ],
   "note": ""
  },
  {
   "property": "C191",
   "status": "partial",
   "theorems": [
    "Nalu.HdfTable.c191_one_converter_partial",
    "Nalu.HdfTable.c191_order_counterexample",
    "Nalu.HdfTable.c191_two_converters_counterexample",
    "Nalu.HdfTable.c191_no_new_input_counterexample",
    "Nalu.HdfTable.c191_two_new_inputs_counterexample"
   ],
   "note": "Partial: c191_one_converter_partial covers one converter with exactly one new input, names in table order with the new one last. Otherwise the statement is false of the code: the order of the names is ignored (c191_order_counterexample), a second converter's result goes to the wrong coordinate (c191_two_converters_counterexample: tableInputNames is a reference to the list being erased from), and converters with no or several new inputs access vectors out of range."
  },
  {
   "property": "C192",
   "status": "proved",
   "theorems": [
    "Nalu.HdfTable.c192_log",
    "Nalu.HdfTable.c192_severity",
    "Nalu.HdfTable.c192_severity_outside",
    "Nalu.HdfTable.c192_resize_counterexample"
   ],
   "note": ""
  },
  {
   "property": "C193",
   "status": "partial",
   "theorems": [
    "Nalu.HdfTable.c193_streams",
    "Nalu.HdfTable.c193_mixture_bounds",
    "Nalu.HdfTable.c193_enthalpy_inverse",
    "Nalu.HdfTable.c193_enthalpy_degenerate",
    "Nalu.HdfTable.c193_delta_chi",
    "Nalu.HdfTable.c193_chi_inner_counterexample",
    "Nalu.HdfTable.c193_chi_proportional_partial"
   ],
   "note": "Partial: for ChiConverter (and GammaConverter, built the same way) the inner table is never wired, so mixture fraction and variance have no influence (c193_chi_inner_counterexample); only proportionality is proved (c193_chi_proportional_partial). The rest is proved."
  },
  {
   "property": "C194",
   "status": "proved",
   "theorems": [
    "Nalu.HdfTable.c194_erf_odd",
    "Nalu.HdfTable.c194_chi_profile",
    "Nalu.HdfTable.c194_gamma_tent",
    "Nalu.HdfTable.c194_delta_gamma",
    "Nalu.HdfTable.c194_gamma_two",
    "Nalu.HdfTable.c194_gamma_two_zero",
    "Nalu.HdfTable.c194_gamma_two_ends",
    "Nalu.HdfTable.c194_order_counterexample"
   ],
   "note": "The accuracy of the Newton inverse of the error function is not claimed. c194_order_counterexample records that the order of the two stoichiometric points matters."
  },
  {
   "property": "C195",
   "status": "proved",
   "theorems": [
    "Nalu.P2.c195_one_at_own_node",
    "Nalu.P2.c195_reproduces_quadratics",
    "Nalu.P2.c195_derivatives",
    "Nalu.P2.c195_sides",
    "Nalu.P2.c195_sides_continuous"
   ],
   "note": ""
  },
  {
   "property": "C196",
   "status": "proved",
   "theorems": [
    "Nalu.P2.c196_points_inside",
    "Nalu.P2.c196_exact_for_cubics",
    "Nalu.P2.c196_quartic_counterexample",
    "Nalu.P2.c196_weights_total",
    "Nalu.P2.c196_shifted_points_at_nodes"
   ],
   "note": "c196_quartic_counterexample: degree four is not exact."
  },
  {
   "property": "C197",
   "status": "proved",
   "theorems": [
    "Nalu.P2.c197_node_volume",
    "Nalu.P2.c197_element_volume",
    "Nalu.P2.c197_error_flag"
   ],
   "note": "The flag is only ever set by the code, never cleared."
  },
  {
   "property": "C198",
   "status": "proved",
   "theorems": [
    "Nalu.P2.c198_segments",
    "Nalu.P2.c198_closed"
   ],
   "note": ""
  },
  {
   "property": "C199",
   "status": "proved",
   "theorems": [
    "Nalu.P2.c199_neighbours",
    "Nalu.P2.c199_faces_match_edges",
    "Nalu.P2.c199_opposing"
   ],
   "note": ""
  },
  {
   "property": "C200",
   "status": "proved",
   "theorems": [
    "Nalu.P2.c200_quad_chain_rule",
    "Nalu.P2.c200_quad_linear",
    "Nalu.P2.c200_hex_chain_rule",
    "Nalu.P2.c200_hex_linear"
   ],
   "note": ""
  },
  {
   "property": "C201",
   "status": "proved",
   "theorems": [
    "Nalu.P2.c201_closed",
    "Nalu.P2.c201_orientation"
   ],
   "note": ""
  },
  {
   "property": "C202",
   "status": "proved",
   "theorems": [
    "Nalu.P2.c202_neighbours",
    "Nalu.P2.c202_opposing",
    "Nalu.P2.c202_faces_match"
   ],
   "note": ""
  },
  {
   "property": "C203",
   "status": "partial",
   "theorems": [
    "Nalu.P2.c203_straight_partial",
    "Nalu.P2.c203_curved_counterexample"
   ],
   "note": "Partial: exact for elements with trilinear geometry; for curved elements the two-point rule is not (c203_curved_counterexample: the barrel element loses volume)."
  },
  {
   "property": "C204",
   "status": "partial",
   "theorems": [
    "Nalu.P2.c204_faces",
    "Nalu.P2.c204_one_edge_partial",
    "Nalu.P2.c204_two_edges_counterexample"
   ],
   "note": "Partial: proved for faces and for a single edge; for two or more edges the code's offset counts nodes (3) instead of points (6), so the edges overwrite each other and part of the array is never written (c204_two_edges_counterexample). The callers always pass one edge."
  },
  {
   "property": "C205",
   "status": "proved",
   "theorems": [
    "Nalu.P2.c205_converged",
    "Nalu.P2.c205_affine"
   ],
   "note": ""
  },
  {
   "property": "C206",
   "status": "partial",
   "theorems": [
    "Nalu.P2.c206_first_points_partial",
    "Nalu.P2.c206_last_points_counterexample"
   ],
   "note": "Partial: the loops stop at the number of surface points (24) instead of volume points (36); the last twelve entries keep their old contents (c206_last_points_counterexample)."
  },
  {
   "property": "C207",
   "status": "proved",
   "theorems": [
    "Nalu.Legacy.c207_scalarDiff",
    "Nalu.Legacy.c207_scalarElem",
    "Nalu.Legacy.c207_momentumElem",
    "Nalu.Legacy.c207_continuityElem",
    "Nalu.Legacy.c207_scalarElem_conserves",
    "Nalu.Legacy.c207_momentumElem_conserves"
   ],
   "note": ""
  },
  {
   "property": "C208",
   "status": "proved",
   "theorems": [
    "Nalu.Legacy.c208_inflow",
    "Nalu.Legacy.c208_continuityOpen",
    "Nalu.Legacy.c208_scalarOpen",
    "Nalu.Legacy.c208_momentumOpen",
    "Nalu.Legacy.c208_symmetry"
   ],
   "note": "The open scalar algorithm reads value and gradient at the nearest element node, the kernel at the face node of the point; agreement of the two maps is a hypothesis there (it is a property of the master elements, C199/C202 and the linear tables)."
  },
  {
   "property": "C209",
   "status": "proved",
   "theorems": [
    "Nalu.WallElem.c209_legacy_is_kernel",
    "Nalu.WallElem.c209_lumped_is_edge"
   ],
   "note": ""
  },
  {
   "property": "C210",
   "status": "proved",
   "theorems": [
    "Nalu.WallElem.c210_exact_newton",
    "Nalu.WallElem.c210_sum_is_reported_force",
    "Nalu.WallElem.c210_rows",
    "Nalu.WallElem.c210_no_slip_no_normal",
    "Nalu.WallElem.c210_dissipates"
   ],
   "note": ""
  },
  {
   "property": "C211",
   "status": "proved",
   "theorems": [
    "Nalu.WallElem.c211_rhs_only_and_reported",
    "Nalu.WallElem.c211_log_law",
    "Nalu.WallElem.c211_ode_force",
    "Nalu.WallElem.c211_ode_denominator"
   ],
   "note": "The zero denominator at no slip is stated by c211_ode_denominator. Not modelled: refresh of ghosted velocities (wallFunctionGhosting_ is passed by value as a null pointer to the solver and force algorithms, whose copies therefore stay null)."
  },
  {
   "property": "C212",
   "status": "proved",
   "theorems": [
    "Nalu.WallOde.c212_grid",
    "Nalu.WallOde.c212_projected_point"
   ],
   "note": ""
  },
  {
   "property": "C213",
   "status": "proved",
   "theorems": [
    "Nalu.WallOde.c213_tdma",
    "Nalu.WallOde.c213_dominant"
   ],
   "note": ""
  },
  {
   "property": "C214",
   "status": "proved",
   "theorems": [
    "Nalu.WallOde.c214_profile"
   ],
   "note": ""
  },
  {
   "property": "C215",
   "status": "partial",
   "theorems": [
    "Nalu.WallOde.c215_bounds",
    "Nalu.WallOde.c215_fixed_point_exists",
    "Nalu.WallOde.c215_solve",
    "Nalu.WallOde.c215_utau",
    "Nalu.WallOde.c215_utau_ode",
    "Nalu.WallOde.c215_no_slip",
    "Nalu.WallOde.c215_no_memory",
    "Nalu.WallOde.c215_reported_below_carried_partial"
   ],
   "note": "Partial: the stress returned is mu times the first difference quotient, strictly below the stress carried by the profile at any positive stress (c215_reported_below_carried_partial). tauWall_ is never written, so the 'use last' guess is never used (c215_no_memory)."
  },
  {
   "property": "C216",
   "status": "partial",
   "theorems": [
    "Nalu.WallOde.c216_nearest_owner",
    "Nalu.WallOde.c216_throws",
    "Nalu.WallOde.c216_collision_hides_unowned_partial"
   ],
   "note": "Partial: c216_collision_hides_unowned_partial exhibits the unreported unowned point."
  },
  {
   "property": "C217",
   "status": "proved",
   "theorems": [
    "Nalu.MatProps.c217_throws",
    "Nalu.MatProps.c217_fields",
    "Nalu.MatProps.c217_uncovered"
   ],
   "note": ""
  },
  {
   "property": "C218",
   "status": "partial",
   "theorems": [
    "Nalu.MatProps.c218_own_constants",
    "Nalu.MatProps.c218_leak_partial",
    "Nalu.MatProps.c218_table_file_partial"
   ],
   "note": "Partial: c218_leak_partial and c218_table_file_partial exhibit the leaks."
  },
  {
   "property": "C219",
   "status": "proved",
   "theorems": [
    "Nalu.MatProps.c219_linear",
    "Nalu.MatProps.c219_density"
   ],
   "note": ""
  },
  {
   "property": "C220",
   "status": "proved",
   "theorems": [
    "Nalu.MatProps.c220_gamma",
    "Nalu.MatProps.c220_enthalpy"
   ],
   "note": ""
  },
  {
   "property": "C221",
   "status": "partial",
   "theorems": [
    "Nalu.MatProps.c221_paired",
    "Nalu.MatProps.c221_null_evaluator_partial"
   ],
   "note": "Partial: c221_null_evaluator_partial lists the accepted specifications without evaluators."
  },
  {
   "property": "C222",
   "status": "proved",
   "theorems": [
    "Nalu.MatProps.c222_prandtl",
    "Nalu.MatProps.c222_effective"
   ],
   "note": ""
  },
  {
   "property": "C223",
   "status": "partial",
   "theorems": [
    "Nalu.MatProps.c223_specs",
    "Nalu.MatProps.c223_species_constant_zero_partial"
   ],
   "note": "Partial: c223_species_constant_zero_partial."
  },
  {
   "property": "C224",
   "status": "partial",
   "theorems": [
    "Nalu.MatProps.c224_copy",
    "Nalu.MatProps.c224_wrong_stride_partial"
   ],
   "note": "Partial: c224_wrong_stride_partial (no caller in the code base uses such a range)."
  },
  {
   "property": "C225",
   "status": "proved",
   "theorems": [
    "Nalu.Diag.c225_elements",
    "Nalu.Diag.c225_realm",
    "Nalu.Diag.c225_edge",
    "Nalu.Diag.c225_invariant",
    "Nalu.Diag.c225_target",
    "Nalu.Diag.c225_no_elements"
   ],
   "note": ""
  },
  {
   "property": "C226",
   "status": "partial",
   "theorems": [
    "Nalu.Diag.c226_courant",
    "Nalu.Diag.c226_reynolds_partial"
   ],
   "note": "Partial: c226_reynolds_partial."
  },
  {
   "property": "C227",
   "status": "proved",
   "theorems": [
    "Nalu.Diag.c227_courant2",
    "Nalu.Diag.c227_courant3",
    "Nalu.Diag.c227_brick",
    "Nalu.Diag.c227_cube"
   ],
   "note": ""
  },
  {
   "property": "C228",
   "status": "partial",
   "theorems": [
    "Nalu.Diag.c228_range",
    "Nalu.Diag.c228_linear_partial",
    "Nalu.Diag.c228_uniform_partial"
   ],
   "note": "Partial: c228_linear_partial, c228_uniform_partial."
  },
  {
   "property": "C229",
   "status": "partial",
   "theorems": [
    "Nalu.Diag.c229_dudx2",
    "Nalu.Diag.c229_vorticity_3d",
    "Nalu.Diag.c229_vorticity_2d_partial",
    "Nalu.Diag.c229_scalar_vorticity_partial",
    "Nalu.Diag.c229_length_partial"
   ],
   "note": "Partial: c229_vorticity_2d_partial, c229_scalar_vorticity_partial, c229_length_partial."
  },
  {
   "property": "C230",
   "status": "partial",
   "theorems": [
    "Nalu.Diag.c230_elem",
    "Nalu.Diag.c230_edge",
    "Nalu.Diag.c230_edge_noc_partial",
    "Nalu.Diag.c230_heat_partial"
   ],
   "note": "Partial: c230_edge_noc_partial, c230_heat_partial."
  },
  {
   "property": "C231",
   "status": "partial",
   "theorems": [
    "Nalu.Diag.c231_low_mach",
    "Nalu.Diag.c231_unknown_partial",
    "Nalu.Diag.c231_heat",
    "Nalu.Diag.c231_heat_vorticity_partial"
   ],
   "note": "Partial: c231_unknown_partial, c231_heat_vorticity_partial."
  },
  {
   "property": "C232",
   "status": "proved",
   "theorems": [
    "Nalu.Diag.c232_longest"
   ],
   "note": "The periodic update after the reduction is not part of this model (see C-claims on periodic_field_update)."
  },
  {
   "property": "C233",
   "status": "partial",
   "theorems": [
    "Nalu.UserFn.c233_each_point_written",
    "Nalu.UserFn.c233_ramp_written",
    "Nalu.UserFn.c233_sin_displacement_two_dim",
    "Nalu.UserFn.c233_sin_displacement_third_component_kept",
    "Nalu.UserFn.c233_range",
    "Nalu.UserFn.c233_component_not_checked_partial",
    "Nalu.UserFn.c233_linear_function"
   ],
   "note": "Missing: a component number not below the field size is accepted and written past the data (c233_component_not_checked_partial)."
  },
  {
   "property": "C234",
   "status": "partial",
   "theorems": [
    "Nalu.UserFn.c234_table_is_piecewise_linear",
    "Nalu.UserFn.c234_table_bounded",
    "Nalu.UserFn.c234_order_irrelevant",
    "Nalu.UserFn.c234_short_table_refused",
    "Nalu.UserFn.c234_variable",
    "Nalu.UserFn.c234_table_unchecked_partial"
   ],
   "note": "Missing: odd parameter count and repeated abscissas (c234_table_unchecked_partial)."
  },
  {
   "property": "C235",
   "status": "proved",
   "theorems": [
    "Nalu.UserFn.c235_bilinear",
    "Nalu.UserFn.c235_exact_at_grid_points",
    "Nalu.UserFn.c235_bounded"
   ],
   "note": ""
  },
  {
   "property": "C236",
   "status": "partial",
   "theorems": [
    "Nalu.UserFn.c236_grid_file_stored",
    "Nalu.UserFn.c236_file_values_reproduced",
    "Nalu.UserFn.c236_trailing_newline_out_of_bounds_partial"
   ],
   "note": "Missing: files ending with a newline write out of bounds (c236_trailing_newline_out_of_bounds_partial)."
  },
  {
   "property": "C237",
   "status": "proved",
   "theorems": [
    "Nalu.UserFn.c237_wind_energy_is_mesh_velocity",
    "Nalu.UserFn.c237_wind_energy_two_dim",
    "Nalu.UserFn.c237_mesh_motion_is_mesh_velocity",
    "Nalu.UserFn.c237_blend"
   ],
   "note": ""
  },
  {
   "property": "C238",
   "status": "proved",
   "theorems": [
    "Nalu.UserFn.c238_momentum",
    "Nalu.UserFn.c238_walls_y",
    "Nalu.UserFn.c238_walls_x",
    "Nalu.UserFn.c238_symmetric"
   ],
   "note": ""
  },
  {
   "property": "C239",
   "status": "proved",
   "theorems": [
    "Nalu.UserFn.c239_angle",
    "Nalu.UserFn.c239_interpolation",
    "Nalu.UserFn.c239_temperature_range",
    "Nalu.UserFn.c239_wraps"
   ],
   "note": ""
  },
  {
   "property": "C240",
   "status": "proved",
   "theorems": [
    "Nalu.UserFn.c240_concentric"
   ],
   "note": ""
  },
  {
   "property": "C241",
   "status": "proved",
   "theorems": [
    "Nalu.UserFn.c241_pipe",
    "Nalu.UserFn.c241_powerlaw",
    "Nalu.UserFn.c241_pulse",
    "Nalu.UserFn.c241_gaussian",
    "Nalu.UserFn.c241_sin_pipe"
   ],
   "note": ""
  },
  {
   "property": "C242",
   "status": "proved",
   "theorems": [
    "Nalu.UserFn.c242_boundary_layer_solenoidal",
    "Nalu.UserFn.c242_boundary_layer_bounds",
    "Nalu.UserFn.c242_plug"
   ],
   "note": ""
  },
  {
   "property": "C243",
   "status": "partial",
   "theorems": [
    "Nalu.UserFn.c243_mixfrac_bounded",
    "Nalu.UserFn.c243_layer_ends_partial",
    "Nalu.UserFn.c243_layer_inverted",
    "Nalu.UserFn.c243_indicators"
   ],
   "note": "Missing: continuity for ratios that are not odd integers; c243_layer_inverted shows the inversion for even ones."
  },
  {
   "property": "C244",
   "status": "proved",
   "theorems": [
    "Nalu.Png.c244_elem",
    "Nalu.Png.c244_bdry",
    "Nalu.Png.c244_rowsum",
    "Nalu.Png.c244_linear"
   ],
   "note": ""
  },
  {
   "property": "C245",
   "status": "proved",
   "theorems": [
    "Nalu.Png.c245_exact",
    "Nalu.Png.c245_error",
    "Nalu.Png.c245_momentum",
    "Nalu.Png.c245_momentum_start"
   ],
   "note": ""
  },
  {
   "property": "C246",
   "status": "proved",
   "theorems": [
    "Verif.ElemGeom.c246_linear",
    "Verif.ElemGeom.c246_const"
   ],
   "note": ""
  },
  {
   "property": "C247",
   "status": "proved",
   "theorems": [
    "Verif.ElemGeom.c247_linear",
    "Verif.ElemGeom.c247_open"
   ],
   "note": ""
  },
  {
   "property": "C248",
   "status": "proved",
   "theorems": [
    "Verif.ElemGeom.c248_const",
    "Verif.ElemGeom.c248_shift"
   ],
   "note": ""
  },
  {
   "property": "C249",
   "status": "proved",
   "theorems": [
    "Verif.ElemGeom.c249_exact",
    "Verif.ElemGeom.c249_const",
    "Verif.ElemGeom.c249_lumped",
    "Verif.ElemGeom.c249_rowsum"
   ],
   "note": ""
  },
  {
   "property": "C250",
   "status": "proved",
   "theorems": [
    "Nalu.Png.c250_set",
    "Nalu.Png.c250_registers",
    "Nalu.Png.c250_field",
    "Nalu.Png.c250_pressure",
    "Nalu.Png.c250_fem"
   ],
   "note": ""
  },
  {
   "property": "C251",
   "status": "proved",
   "theorems": [
    "Nalu.SixDof.c251_total",
    "Nalu.SixDof.c251_history",
    "Nalu.SixDof.c251_closed"
   ],
   "note": ""
  },
  {
   "property": "C252",
   "status": "partial",
   "theorems": [
    "Nalu.SixDof.c252_attached",
    "Nalu.SixDof.c252_arm",
    "Nalu.SixDof.c252_spring",
    "Nalu.SixDof.c252_slack",
    "Nalu.SixDof.c252_restoring",
    "Nalu.SixDof.c252_coincident_partial",
    "Nalu.SixDof.c252_power",
    "Nalu.SixDof.c252_conservative"
   ],
   "note": "partial: when attachment point and anchor coincide the code divides by zero (unless the tether may slacken and has a non-negative relaxed length); c252_coincident_partial characterises exactly these inputs"
  },
  {
   "property": "C253",
   "status": "partial",
   "theorems": [
    "Nalu.SixDof.c253_one_call_partial",
    "Nalu.SixDof.c253_accumulates_partial"
   ],
   "note": "partial: the full claim is false of the code; the driver neither zeroes pressure_force, tau_wall and yplus nor sums them over ranks (the surface driver of C109-C111 does), as c253_accumulates_partial shows"
  },
  {
   "property": "C254",
   "status": "proved",
   "theorems": [
    "Nalu.SixDof.c254_read",
    "Nalu.SixDof.c254_fields",
    "Nalu.SixDof.c254_register",
    "Nalu.SixDof.c254_no_surface_no_tether"
   ],
   "note": ""
  },
  {
   "property": "C255",
   "status": "partial",
   "theorems": [
    "Nalu.ElemSource.c255_stress_partial",
    "Nalu.ElemSource.c255_overcounted_partial",
    "Nalu.ElemSource.c255_conservative",
    "Nalu.ElemSource.c255_newton"
   ],
   "note": "partial: the isotropic part 2/3 rho k is added inside the loop over the element's nodes, so it enters nodesPerElement times instead of once (c255_stress_partial, c255_overcounted_partial); anisotropic part, conservation and linearisation are proved in full"
  },
  {
   "property": "C256",
   "status": "proved",
   "theorems": [
    "Nalu.ElemSource.c256_matrix",
    "Nalu.ElemSource.c256_mesh",
    "Nalu.ElemSource.c256_params",
    "Nalu.ElemSource.c256_monolithic"
   ],
   "note": ""
  },
  {
   "property": "C257",
   "status": "proved",
   "theorems": [
    "Nalu.ElemSource.c257_continuity",
    "Nalu.ElemSource.c257_lumped",
    "Nalu.ElemSource.c257_lumped_momentum",
    "Nalu.ElemSource.c257_momentum_total"
   ],
   "note": ""
  },
  {
   "property": "C258",
   "status": "proved",
   "theorems": [
    "Nalu.UserField.c258_height_bounds",
    "Nalu.UserField.c258_height_surface",
    "Nalu.UserField.c258_height_ignored",
    "Nalu.UserField.c258_height_params",
    "Nalu.UserField.c258_tornado",
    "Nalu.UserField.c258_channel",
    "Nalu.UserField.c258_workshop",
    "Nalu.UserField.c258_points"
   ],
   "note": ""
  },
  {
   "property": "C259",
   "status": "partial",
   "theorems": [
    "Nalu.GasNC.c259_mass_conserved",
    "Nalu.GasNC.c259_inviscid_conserved",
    "Nalu.GasNC.c259_consistent_partial",
    "Nalu.GasNC.c259_upwind",
    "Nalu.GasNC.c259_moving_mesh_wrong",
    "Nalu.GasNC.c259_interface_mass_partial"
   ],
   "note": "partial: proved for static meshes; with mesh motion the mesh velocity is subtracted from the current side's Mach number only, so a gas at rest relative to the moving mesh has a mass flux and the two sides do not balance (c259_moving_mesh_wrong)"
  },
  {
   "property": "C260",
   "status": "partial",
   "theorems": [
    "Nalu.GasNC.c260_heat_flux",
    "Nalu.GasNC.c260_heat_conserved",
    "Nalu.GasNC.c260_penalty_dissipative",
    "Nalu.GasNC.c260_divergence_exact",
    "Nalu.GasNC.c260_gradient_repeats_diagonal",
    "Nalu.GasNC.c260_momentum_imbalance",
    "Nalu.GasNC.c260_momentum_conserved_partial",
    "Nalu.GasNC.c260_shear_wrong",
    "Nalu.GasNC.c260_normal_traction_partial"
   ],
   "note": "partial: the velocity gradient repeats the diagonal derivative in every column (c260_gradient_repeats_diagonal; simple shear produces no traction, c260_shear_wrong) and the opposing divergence term uses the current normal, so momentum is conserved exactly when mu div u agrees on both sides (c260_momentum_conserved_partial); heat is proved in full"
  },
  {
   "property": "C261",
   "status": "partial",
   "theorems": [
    "Nalu.GasNC.c261_mass_momentum_history_free",
    "Nalu.GasNC.c261_workspace_accumulates",
    "Nalu.GasNC.c261_clean_stress",
    "Nalu.GasNC.c261_inviscid_stays_clean_partial",
    "Nalu.GasNC.c261_energy_history_wrong"
   ],
   "note": "partial: true for mass and momentum; the off-diagonal stress workspace is never reset and accumulates over all points from an uninitialised value, so the viscous work in the energy row depends on the history (c261_workspace_accumulates, c261_energy_history_wrong); energy proved for inviscid gases with clean workspaces"
  },
  {
   "property": "C262",
   "status": "partial",
   "theorems": [
    "Nalu.GasNC.c262_gather_same_topology_partial",
    "Nalu.GasNC.c262_write_in_bounds_iff",
    "Nalu.GasNC.c262_mixed_topology_wrong"
   ],
   "note": "partial: the opposing gather uses the current face's node count as stride: correct for equal counts; a quadrilateral facing a triangle writes beyond the array (c262_write_in_bounds_iff) and a triangle facing a quadrilateral reads other nodes' values (c262_mixed_topology_wrong)"
  },
  {
   "property": "C263",
   "status": "proved",
   "theorems": [
    "Nalu.Parse.c263_block_order",
    "Nalu.Parse.c263_user_data_order",
    "Nalu.Parse.c263_function_order",
    "Nalu.Parse.c263_blocks_in_order"
   ],
   "note": ""
  },
  {
   "property": "C264",
   "status": "proved",
   "theorems": [
    "Nalu.Parse.c264_wall",
    "Nalu.Parse.c264_inflow",
    "Nalu.Parse.c264_others",
    "Nalu.Parse.c264_wall_velocity"
   ],
   "note": ""
  },
  {
   "property": "C265",
   "status": "proved",
   "theorems": [
    "Nalu.Parse.c265_wall_type",
    "Nalu.Parse.c265_inflow_type"
   ],
   "note": ""
  },
  {
   "property": "C266",
   "status": "proved",
   "theorems": [
    "Nalu.Parse.c266_accepted_iff",
    "Nalu.Parse.c266_wall_forbidden",
    "Nalu.Parse.c266_required",
    "Nalu.Parse.c266_unknown_ignored"
   ],
   "note": ""
  },
  {
   "property": "C267",
   "status": "partial",
   "theorems": [
    "Nalu.Parse.c267_open_partial",
    "Nalu.Parse.c267_open_eps_ignored",
    "Nalu.Parse.c267_open_eps_wrong",
    "Nalu.Parse.c267_emissivity_flag"
   ],
   "note": "partial: all members but the turbulent dissipation, which is looked up under the misspelt key turbulent_dissipation_ and silently ignored (c267_open_eps_wrong); the emissivity flag of wall data is never initialised (c267_emissivity_flag)"
  },
  {
   "property": "C268",
   "status": "proved",
   "theorems": [
    "Nalu.Parse.c268_unknown_refused",
    "Nalu.Parse.c268_kind",
    "Nalu.Parse.c268_rogue_refused",
    "Nalu.Parse.c268_wall_read",
    "Nalu.Parse.c268_nc_targets"
   ],
   "note": ""
  },
  {
   "property": "C269",
   "status": "proved",
   "theorems": [
    "Nalu.Parse.c269_ic_values",
    "Nalu.Parse.c269_ic_comma",
    "Nalu.Parse.c269_solver_lookup",
    "Nalu.Parse.c269_solver_defaults",
    "Nalu.Parse.c269_material_targets",
    "Nalu.Parse.c269_case_insensitive"
   ],
   "note": ""
  },
  {
   "property": "C270",
   "status": "proved",
   "theorems": [
    "Nalu.Registration.c270_momentum_dirichlet",
    "Nalu.Registration.c270_momentum_terms",
    "Nalu.Registration.c270_momentum_gradient"
   ],
   "note": ""
  },
  {
   "property": "C271",
   "status": "proved",
   "theorems": [
    "Nalu.Registration.c271_velocity_last_wins",
    "Nalu.Registration.c271_external"
   ],
   "note": ""
  },
  {
   "property": "C272",
   "status": "proved",
   "theorems": [
    "Nalu.Registration.c272_equation_kept"
   ],
   "note": ""
  },
  {
   "property": "C273",
   "status": "partial",
   "theorems": [
    "Nalu.Registration.c273_tke_wall",
    "Nalu.Registration.c273_tke_wall_function_prevails",
    "Nalu.Registration.c273_sdr_wall_prevails",
    "Nalu.Registration.c273_eps_wall_prevails",
    "Nalu.Registration.c273_sdr_model_partial",
    "Nalu.Registration.c273_sdr_projected_wrong"
   ],
   "note": "partial: with the projected wall function alone the specific dissipation rate is given its resolved-wall value while momentum uses the wall function (c273_sdr_projected_wrong)"
  },
  {
   "property": "C274",
   "status": "partial",
   "theorems": [
    "Nalu.Registration.c274_mixture_fraction_partial",
    "Nalu.Registration.c274_wall_user_function_wrong",
    "Nalu.Registration.c274_enthalpy_last_wins",
    "Nalu.Registration.c274_enthalpy_terms"
   ],
   "note": "partial: a user function named for the mixture fraction at a wall is ignored and the default number zero imposed (c274_wall_user_function_wrong)"
  },
  {
   "property": "C275",
   "status": "partial",
   "theorems": [
    "Nalu.Registration.c275_symmetry_checked",
    "Nalu.Registration.c275_targets_partial",
    "Nalu.Registration.c275_bad_target_wrong"
   ],
   "note": "partial: enforced for symmetry only (c275_symmetry_checked); a misspelt wall, inflow or open target is accepted and the run is the one without the block (c275_bad_target_wrong)"
  },
  {
   "property": "C276",
   "status": "proved",
   "theorems": [
    "Nalu.Registration.c276_order_of_terms",
    "Nalu.Registration.c276_imposed_rows_clean",
    "Nalu.Registration.c276_other_rows"
   ],
   "note": ""
  },
  {
   "property": "C277",
   "status": "partial",
   "theorems": [
    "Nalu.SolnOpts.c277_options_partial",
    "Nalu.SolnOpts.c277_unknown_refused",
    "Nalu.SolnOpts.c277_two_options_wrong"
   ],
   "note": "partial: every entry must carry one option; an entry with two known options has only one of them read, silently (c277_two_options_wrong)"
  },
  {
   "property": "C278",
   "status": "partial",
   "theorems": [
    "Nalu.SolnOpts.c278_sources_accumulate_partial"
   ],
   "note": "partial: one option per entry, as C277"
  },
  {
   "property": "C279",
   "status": "partial",
   "theorems": [
    "Nalu.SolnOpts.c279_model",
    "Nalu.SolnOpts.c279_model_refused",
    "Nalu.SolnOpts.c279_constants_available",
    "Nalu.SolnOpts.c279_constants_partial",
    "Nalu.SolnOpts.c279_unknown_constant_silent_wrong",
    "Nalu.SolnOpts.c279_no_block_wrong"
   ],
   "note": "partial: values need one option per entry; findings: an unknown constant name is ignored silently (c279_unknown_constant_silent_wrong) and without a solution_options block no constant exists, so a lookup ends the run (c279_no_block_wrong)"
  },
  {
   "property": "C280",
   "status": "proved",
   "theorems": [
    "Nalu.SolnOpts.c280_plain_lines",
    "Nalu.SolnOpts.c280_lost_defaults_wrong",
    "Nalu.SolnOpts.c280_dependent_lines"
   ],
   "note": "two defaults are lost when their line is absent: the eigenvalue perturbation bias (3 becomes 0) and the quadrature type (c280_lost_defaults_wrong)"
  },
  {
   "property": "C281",
   "status": "proved",
   "theorems": [
    "Nalu.SolnOpts.c281_motion_entry",
    "Nalu.SolnOpts.c281_motions",
    "Nalu.SolnOpts.c281_displacement_entry",
    "Nalu.SolnOpts.c281_fix_pressure"
   ],
   "note": ""
  },
  {
   "property": "C282",
   "status": "partial",
   "theorems": [
    "Nalu.TurbPost.c282_swirl_2d",
    "Nalu.TurbPost.c282_swirl_3d_partial",
    "Nalu.TurbPost.c282_swirl_3d_nan_wrong",
    "Nalu.TurbPost.c282_example"
   ],
   "note": "partial in 3D: the sign switch of Q is unconditional, so for 3\u00b7(second invariant) = trace\u00b2 with 2B\u00b3-9BC+27D > 0 the code divides 0 by 0 and writes NaN (c282_swirl_3d_nan_wrong, minus the cyclic permutation)"
  },
  {
   "property": "C283",
   "status": "proved",
   "theorems": [
    "Nalu.TurbPost.c283_mean_ke",
    "Nalu.TurbPost.c283_example"
   ],
   "note": ""
  },
  {
   "property": "C284",
   "status": "proved",
   "theorems": [
    "Nalu.TurbPost.c284_dissipation_pointwise",
    "Nalu.TurbPost.c284_dissipation_nonneg",
    "Nalu.TurbPost.c284_example"
   ],
   "note": ""
  },
  {
   "property": "C285",
   "status": "partial",
   "theorems": [
    "Nalu.TurbPost.c285_dissipation_mean_partial",
    "Nalu.TurbPost.c285_dissipation_mean_wrong"
   ],
   "note": "partial: what holds is the integral from the second sample on divided by the whole window; the first sample is skipped but its step is counted, so a steady rate is reported as m/(m+1) of itself (c285_dissipation_mean_wrong)"
  },
  {
   "property": "C286",
   "status": "proved",
   "theorems": [
    "Nalu.TurbPost.c286_production",
    "Nalu.TurbPost.c286_source"
   ],
   "note": ""
  },
  {
   "property": "C287",
   "status": "proved",
   "theorems": [
    "Nalu.TurbPost.c287_realizable",
    "Nalu.TurbPost.c287_example"
   ],
   "note": ""
  },
  {
   "property": "C288",
   "status": "proved",
   "theorems": [
    "Nalu.TurbPost.c288_effective_viscosity",
    "Nalu.TurbPost.c288_clip_inactive"
   ],
   "note": ""
  },
  {
   "property": "C289",
   "status": "proved",
   "theorems": [
    "Nalu.TurbPost.c289_galilean",
    "Nalu.TurbPost.c289_uniform_flow"
   ],
   "note": ""
  },
  {
   "property": "C290",
   "status": "proved",
   "theorems": [
    "Nalu.TurbPost.c290_dsqrtk"
   ],
   "note": ""
  },
  {
   "property": "C291",
   "status": "proved",
   "theorems": [
    "Verif.LinSys.c291_row_pointers",
    "Verif.LinSys.c291_row_length",
    "Verif.LinSys.c291_rows_disjoint"
   ],
   "note": ""
  },
  {
   "property": "C292",
   "status": "proved",
   "theorems": [
    "Verif.LinSys.c292_component_rows"
   ],
   "note": ""
  },
  {
   "property": "C293",
   "status": "partial",
   "theorems": [
    "Verif.LinSys.c293_remove_invalid_partial",
    "Verif.LinSys.c293_empty_row_kept",
    "Verif.LinSys.c293_repeated_column_leaves_invalid"
   ],
   "note": "partial: proved for the owned rows with at least one column. Rows without any column keep all their placeholders (c293_empty_row_kept), and the rows of shared, not owned unknowns are not cleaned at all, so any repeated insertion, e.g. of two periodic images of one node, leaves placeholders there (c293_repeated_column_leaves_invalid)"
  },
  {
   "property": "C294",
   "status": "proved",
   "theorems": [
    "Verif.LinSys.c294_received",
    "Verif.LinSys.c294_every_shared_coupling_sent",
    "Verif.LinSys.c294_only_couplings_sent"
   ],
   "note": "message transport itself (stk::CommNeighbors, MPI) is assumed reliable and ordered"
  },
  {
   "property": "C295",
   "status": "proved",
   "theorems": [
    "Verif.LinSys.c295_received_lengths",
    "Verif.LinSys.c295_final_row"
   ],
   "note": ""
  },
  {
   "property": "C296",
   "status": "proved",
   "theorems": [
    "Verif.LinSys.c296_column_map"
   ],
   "note": ""
  },
  {
   "property": "C297",
   "status": "proved",
   "theorems": [
    "Verif.LinSys.c297_columns_in_blocks"
   ],
   "note": ""
  },
  {
   "property": "C298",
   "status": "proved",
   "theorems": [
    "Verif.LinSys.c298_owner_is_told",
    "Verif.LinSys.c298_reported_nodes_present",
    "Verif.LinSys.c298_owner_row_has_every_coupling"
   ],
   "note": ""
  },
  {
   "property": "C299",
   "status": "proved",
   "theorems": [
    "Verif.LinSys.c299_reserved_suffices"
   ],
   "note": ""
  },
  {
   "property": "C300",
   "status": "proved",
   "theorems": [
    "Verif.LinSys.c300_reduced_elem",
    "Verif.LinSys.c300_face_elem",
    "Verif.LinSys.c300_non_conformal",
    "Verif.LinSys.c300_overset"
   ],
   "note": ""
  },
  {
   "property": "C301",
   "status": "proved",
   "theorems": [
    "Nalu.Mono.c301_unload",
    "Nalu.Mono.c301_load",
    "Nalu.Mono.c301_round_trip"
   ],
   "note": ""
  },
  {
   "property": "C302",
   "status": "proved",
   "theorems": [
    "Nalu.Mono.c302_in_step",
    "Nalu.Mono.c302_predicted",
    "Nalu.Mono.c302_external_data_lost",
    "Nalu.Mono.c302_increments"
   ],
   "note": ""
  },
  {
   "property": "C303",
   "status": "partial",
   "theorems": [
    "Nalu.Mono.c303_old_velocity_partial",
    "Nalu.Mono.c303_restart",
    "Nalu.Mono.c303_restart_not_continuation"
   ],
   "note": "partial: holds for runs that are not restarted and from the second step after a restart; velocity is no restart variable and is not refilled from the unknown, so the first step after a restart uses the initial-condition velocity (c303_restart, c303_restart_not_continuation)"
  },
  {
   "property": "C304",
   "status": "proved",
   "theorems": [
    "Nalu.AvgSetup.c304_lists",
    "Nalu.AvgSetup.c304_no_repetition"
   ],
   "note": ""
  },
  {
   "property": "C305",
   "status": "proved",
   "theorems": [
    "Nalu.AvgSetup.c305_accepted_iff",
    "Nalu.AvgSetup.c305_result"
   ],
   "note": "conversion errors of yaml-cpp are not modelled"
  },
  {
   "property": "C306",
   "status": "proved",
   "theorems": [
    "Nalu.AvgSetup.c306_registered",
    "Nalu.AvgSetup.c306_pairs",
    "Nalu.AvgSetup.c306_special_fields",
    "Nalu.AvgSetup.c306_missing_refused",
    "Nalu.AvgSetup.c306_accepted"
   ],
   "note": "specifications without any target are refused through a null pointer in the code (modelled as crash)"
  },
  {
   "property": "C307",
   "status": "proved",
   "theorems": [
    "Nalu.AvgSetup.c307_names_distinct",
    "Nalu.AvgSetup.c307_blocks_distinct",
    "Nalu.AvgSetup.c307_collision",
    "Nalu.AvgSetup.c307_updated_once",
    "Nalu.AvgSetup.c307_listed_twice_wrong"
   ],
   "note": "a variable listed twice, or two blocks of one name, are accepted and then averaged twice per step (c307_listed_twice_wrong); c307_collision shows that the condition on names is needed"
  },
  {
   "property": "C308",
   "status": "partial",
   "theorems": [
    "Nalu.AvgSetup.c308_mean_fields_exist_partial",
    "Nalu.AvgSetup.c308_dissipation_alone"
   ],
   "note": "partial: requesting only the dissipation rate does not add velocity, so the mean velocity it reads is a null pointer (c308_dissipation_alone)"
  },
  {
   "property": "C309",
   "status": "proved",
   "theorems": [
    "Nalu.EqLoad.c309_item",
    "Nalu.EqLoad.c309_unknown_refused",
    "Nalu.EqLoad.c309_second_in_item_ignored"
   ],
   "note": "a second system written in the same list item is silently dropped (c309_second_in_item_ignored); later effects of constructors are not modelled"
  },
  {
   "property": "C310",
   "status": "proved",
   "theorems": [
    "Nalu.EqLoad.c310_one_per_item",
    "Nalu.EqLoad.c310_vof_options",
    "Nalu.EqLoad.c310_options_in_force",
    "Nalu.EqLoad.c310_vof_options_kept",
    "Nalu.EqLoad.c310_solver_block",
    "Nalu.EqLoad.c310_no_solver_refused"
   ],
   "note": ""
  },
  {
   "property": "C311",
   "status": "proved",
   "theorems": [
    "Nalu.EqLoad.c311_group_size"
   ],
   "note": ""
  },
  {
   "property": "C312",
   "status": "proved",
   "theorems": [
    "Nalu.EqLoad.c312_loaded",
    "Nalu.EqLoad.c312_registered"
   ],
   "note": ""
  },
  {
   "property": "C313",
   "status": "proved",
   "theorems": [
    "Nalu.XferSetup.c313_accepted_iff",
    "Nalu.XferSetup.c313_meaning"
   ],
   "note": "independent checks are grouped, so only the kind of the first error may differ; yaml-cpp is not modelled"
  },
  {
   "property": "C314",
   "status": "proved",
   "theorems": [
    "Nalu.XferSetup.c314_find_realm",
    "Nalu.XferSetup.c314_accepted_iff",
    "Nalu.XferSetup.c314_queues",
    "Nalu.XferSetup.c314_once"
   ],
   "note": ""
  },
  {
   "property": "C315",
   "status": "proved",
   "theorems": [
    "Nalu.XferSetup.c315_legal",
    "Nalu.XferSetup.c315_once"
   ],
   "note": ""
  },
  {
   "property": "C316",
   "status": "proved",
   "theorems": [
    "Nalu.XferSetup.c316_run_count",
    "Nalu.XferSetup.c316_unlisted_never",
    "Nalu.XferSetup.c316_pass_order"
   ],
   "note": "one time integrator; zero frequencies (division by zero) are excluded by type"
  },
  {
   "property": "C317",
   "status": "proved",
   "theorems": [
    "Nalu.KernelBuild.c317_registered",
    "Nalu.KernelBuild.c317_accepted_iff",
    "Nalu.KernelBuild.c317_every_request_built",
    "Nalu.KernelBuild.c317_accepted_not_built_wrong",
    "Nalu.KernelBuild.c317_no_list_refused"
   ],
   "note": "findings: the log is shared by all realms, so a name offered by another realm is accepted and nothing is built; an equation without a list is refused"
  },
  {
   "property": "C318",
   "status": "proved",
   "theorems": [
    "Nalu.KernelBuild.c318_interior",
    "Nalu.KernelBuild.c318_fem",
    "Nalu.KernelBuild.c318_face",
    "Nalu.KernelBuild.c318_face_elem",
    "Nalu.KernelBuild.c318_face_elem_checked"
   ],
   "note": "line faces are not checked against the element: an impossible pair would get another element's kernel"
  },
  {
   "property": "C319",
   "status": "proved",
   "theorems": [
    "Nalu.KernelBuild.c319_succeeds_iff",
    "Nalu.KernelBuild.c319_same_object",
    "Nalu.KernelBuild.c319_different_objects",
    "Nalu.KernelBuild.c319_clear_invalidates"
   ],
   "note": ""
  },
  {
   "property": "C320",
   "status": "proved",
   "theorems": [
    "Nalu.LookAhead.c320_has_mass",
    "Nalu.LookAhead.c320_lumped",
    "Nalu.LookAhead.c320_edge",
    "Nalu.LookAhead.c320_edge_wrong",
    "Nalu.LookAhead.c320_two_keys_wrong"
   ],
   "note": "findings: with the edge-based scheme, or with two keys in one option, the review counts an accumulation the equation does not contain"
  },
  {
   "property": "C321",
   "status": "proved",
   "theorems": [
    "Nalu.LookAhead.c321_find_iff",
    "Nalu.LookAhead.c321_find_order",
    "Nalu.LookAhead.c321_look_ahead",
    "Nalu.LookAhead.c321_nested_dangling"
   ],
   "note": "finding: a block that is not written directly in the realm is created from a node that no longer exists (the search stores addresses of its local variables)"
  },
  {
   "property": "C322",
   "status": "proved",
   "theorems": [
    "Nalu.Residual.c322_detects",
    "Nalu.Residual.c322_other_ranks",
    "Nalu.Residual.c322_message"
   ],
   "note": "finding: on all other ranks the check never reports, so in parallel one rank stops and the others go on"
  },
  {
   "property": "C323",
   "status": "proved",
   "theorems": [
    "Nalu.Residual.c323_scaled",
    "Nalu.Residual.c323_first",
    "Nalu.Residual.c323_converged"
   ],
   "note": ""
  },
  {
   "property": "C324",
   "status": "proved",
   "theorems": [
    "Nalu.Residual.c324_sweep",
    "Nalu.Residual.c324_norms",
    "Nalu.Residual.c324_first_iteration",
    "Nalu.Residual.c324_zero_never_converged",
    "Nalu.Residual.c324_radiation"
   ],
   "note": "findings: with several passes the first iteration always ends with scaled residual one; a first residual of exactly zero makes the species never converge"
  },
  {
   "property": "C325",
   "status": "proved",
   "theorems": [
    "Nalu.Schedule.c325_step_keeps_np1",
    "Nalu.Schedule.c325_gradient_current",
    "Nalu.Schedule.c325_later_passes_fresh",
    "Nalu.Schedule.c325_first_pass",
    "Nalu.Schedule.c325_fixed_mesh_always_fresh",
    "Nalu.Schedule.c325_enthalpy_fresh_if_bc_unchanged",
    "Nalu.Schedule.c325_enthalpy_stale_after_bc_change",
    "Nalu.Schedule.c325_stale_after_mesh_motion"
   ],
   "note": "findings: after mesh motion, or after a change of the boundary enthalpy, the first assembly of a call reads a gradient that is not that of the unknown it reads"
  },
  {
   "property": "C326",
   "status": "proved",
   "theorems": [
    "Nalu.Schedule.c326_fem_gradient_frozen",
    "Nalu.Schedule.c326_fem_gradient_after_solve",
    "Nalu.Schedule.c326_fem_one_pass_fresh",
    "Nalu.Schedule.c326_fem_two_passes_stale"
   ],
   "note": "finding: with two or more passes the later ones read the gradient of the unknown before the first update (the code comments it as decoupled)"
  },
  {
   "property": "C327",
   "status": "proved",
   "theorems": [
    "Nalu.Schedule.c327_jacobi",
    "Nalu.Schedule.c327_coefficients_of_first_pass",
    "Nalu.Schedule.c327_fixed_mesh_fresh",
    "Nalu.Schedule.c327_coefficients_lag"
   ],
   "note": "the state swap is left out of this pair's model, it leaves Np1 as it was (C325)"
  },
  {
   "property": "C328",
   "status": "proved",
   "theorems": [
    "Nalu.Schedule.c328_relative_velocity_current",
    "Nalu.Schedule.c328_fixed_mesh_gradients_current",
    "Nalu.Schedule.c328_mdot_is_the_conservative_one",
    "Nalu.Schedule.c328_first_mdot",
    "Nalu.Schedule.c328_example",
    "Nalu.Schedule.c328_stale_after_mesh_motion"
   ],
   "note": "finding: after mesh motion the first assemblies of a call read pressure and velocity gradients of the old mesh"
  },
  {
   "property": "C329",
   "status": "proved",
   "theorems": [
    "Nalu.Schedule2.c329_flux_of_last_continuity",
    "Nalu.Schedule2.c329_fields_current",
    "Nalu.Schedule2.c329_first_flux"
   ],
   "note": ""
  },
  {
   "property": "C330",
   "status": "proved",
   "theorems": [
    "Nalu.Schedule2.c330_auxiliary_current",
    "Nalu.Schedule2.c330_dirichlet_kept",
    "Nalu.Schedule2.c330_start_states_agree",
    "Nalu.Schedule2.c330_sweeps_do_not_accumulate"
   ],
   "note": "overset nodes are not in this model (C116)"
  },
  {
   "property": "C331",
   "status": "proved",
   "theorems": [
    "Nalu.Schedule2.c331_properties_current_at_every_sweep",
    "Nalu.Schedule2.c331_state_after_advance",
    "Nalu.Schedule2.c331_enthalpy_of_temperature"
   ],
   "note": ""
  },
  {
   "property": "C332",
   "status": "proved",
   "theorems": [
    "Nalu.Schedule2.c332_start_value_ranking",
    "Nalu.Schedule2.c332_transfers_read_ranked_values",
    "Nalu.Schedule2.c332_start_time",
    "Nalu.Schedule2.c332_last_input_time_wins"
   ],
   "note": "finding: with mesh-file input in several realms the time of the last realm is taken, even if earlier than the others and than the start time"
  },
  {
   "property": "C333",
   "status": "proved",
   "theorems": [
    "Nalu.Schedule2.c333_graph_matches_connectivity",
    "Nalu.Schedule2.c333_rigid_motion_current",
    "Nalu.Schedule2.c333_deformation_geometry",
    "Nalu.Schedule2.c333_step_coordinates",
    "Nalu.Schedule2.c333_deformation_keeps_old_interface",
    "Nalu.Schedule2.c333_initial_work_geometry_old"
   ],
   "note": "findings: with deformation but no prescribed motion the matching of the undeformed mesh is kept for the whole run; between a restart and the first time step the geometry is that of the set-up coordinates"
  },
  {
   "property": "C334",
   "status": "proved",
   "theorems": [
    "Verif.SolveBack.c334_never_throws",
    "Verif.SolveBack.c334_correction_at_nodes",
    "Verif.SolveBack.c334_partition_independent"
   ],
   "note": ""
  },
  {
   "property": "C335",
   "status": "proved",
   "theorems": [
    "Verif.SolveBack.c335_inactive_keeps_old",
    "Verif.SolveBack.c335_inactive_drifts",
    "Verif.SolveBack.c335_active_advances",
    "Verif.SolveBack.c335_unpaired_subject_not_updated"
   ],
   "note": "findings: a node that becomes inactive drifts by its last correction in every iteration; a node of a periodic subject part the search did not pair has a row of its own whose solution is never copied back"
  },
  {
   "property": "C336",
   "status": "partial",
   "theorems": [
    "Verif.SolveBack.c336_scalar_rows_partial",
    "Verif.SolveBack.c336_vector_rows_misplaced",
    "Verif.SolveBack.c336_vector_rows_left_zero",
    "Verif.SolveBack.c336_vector_rows_wrong_example"
   ],
   "note": "partial because the full claim is false of the code for two or more unknowns per node (proved: c336_vector_rows_misplaced, c336_vector_rows_left_zero, c336_vector_rows_wrong_example)"
  },
  {
   "property": "C337",
   "status": "proved",
   "theorems": [
    "Nalu.ProjWall.c337_throws",
    "Nalu.ProjWall.c337_own_point",
    "Nalu.ProjWall.c337_numbers",
    "Nalu.ProjWall.c337_listed_twice_wrong",
    "Nalu.ProjWall.c337_points_follow_mesh",
    "Nalu.ProjWall.c337_slip_only",
    "Nalu.ProjWall.c337_log_law",
    "Nalu.ProjWall.c337_ode_law"
   ],
   "note": "finding: a wall listed in two boundary conditions uses the first entry's points and law in both passes, with the second entry's distance in the formulas (c337_listed_twice_wrong)"
  },
  {
   "property": "C338",
   "status": "proved",
   "theorems": [
    "Nalu.ProjWall.c338_exchange_velocity",
    "Nalu.ProjWall.c338_first_iteration_depends_on_partition"
   ],
   "note": "finding: the ghosting pointer handed to the momentum and force algorithms is a copy of a null pointer, so they never communicate (LowMachEquationSystem.C:1022, 2004)"
  },
  {
   "property": "C339",
   "status": "proved",
   "theorems": [
    "Nalu.ProjWall.c339_box_contains",
    "Nalu.ProjWall.c339_found",
    "Nalu.ProjWall.c339_candidates_present",
    "Nalu.ProjWall.c339_nothing_else_sent"
   ],
   "note": ""
  },
  {
   "property": "C340",
   "status": "proved",
   "theorems": [
    "Nalu.MainLog.c340_extension_replaced",
    "Nalu.MainLog.c340_no_extension",
    "Nalu.MainLog.c340_log_file_given",
    "Nalu.MainLog.c340_directory_dot",
    "Nalu.MainLog.c340_same_name_iff",
    "Nalu.MainLog.c340_input_read",
    "Nalu.MainLog.c340_input_destroyed",
    "Nalu.MainLog.c340_missing_input",
    "Nalu.MainLog.c340_help"
   ],
   "note": "findings: -i x.log destroys the input (c340_input_destroyed); inputs without extension in a directory with a dot share one log (c340_directory_dot); --log-file leaves the base name empty; missing input exits with 0"
  },
  {
   "property": "C341",
   "status": "proved",
   "theorems": [
    "Nalu.MainLog.c341_places",
    "Nalu.MainLog.c341_one_process",
    "Nalu.MainLog.c341_names_sorted",
    "Nalu.MainLog.c341_log_contents",
    "Nalu.MainLog.c341_parallel_contents",
    "Nalu.MainLog.c341_stdout"
   ],
   "note": "finding: with one process --pprint computes log10(0) and converts minus infinity to int (c341_one_process)"
  },
  {
   "property": "C342",
   "status": "proved",
   "theorems": [
    "Nalu.MainLog.c342_item",
    "Nalu.MainLog.c342_block"
   ],
   "note": ""
  },
  {
   "property": "C343",
   "status": "proved",
   "theorems": [
    "Nalu.StartFields.c343_wetted",
    "Nalu.StartFields.c343_nothing_else_matters",
    "Nalu.StartFields.c343_off",
    "Nalu.StartFields.c343_transfer",
    "Nalu.StartFields.c343_restart_overwritten",
    "Nalu.StartFields.c343_restart_fills",
    "Nalu.StartFields.c343_default_distance",
    "Nalu.StartFields.c343_default_off",
    "Nalu.StartFields.c343_distance_source"
   ],
   "note": "findings: restart overwrites the volume fraction (c343_restart_overwritten, c343_restart_fills); the default distance empties the domain"
  },
  {
   "property": "C344",
   "status": "proved",
   "theorems": [
    "Nalu.StartFields.c344_fields",
    "Nalu.StartFields.c344_nonneg",
    "Nalu.StartFields.c344_scaled_range",
    "Nalu.StartFields.c344_scaled",
    "Nalu.StartFields.c344_uniform",
    "Nalu.StartFields.c344_local",
    "Nalu.StartFields.c344_jump"
   ],
   "note": ""
  },
  {
   "property": "C345",
   "status": "proved",
   "theorems": [
    "Nalu.DebugCheck.c345_solved_iff",
    "Nalu.DebugCheck.c345_who_throws",
    "Nalu.DebugCheck.c345_waits",
    "Nalu.DebugCheck.c345_zero_row_others_go_on"
   ],
   "note": "findings: c345_waits, c345_zero_row_others_go_on"
  },
  {
   "property": "C346",
   "status": "proved",
   "theorems": [
    "Nalu.SplineFile.c346_round_trip",
    "Nalu.SplineFile.c346_later_writes",
    "Nalu.SplineFile.c346_identity",
    "Nalu.SplineFile.c346_version_one",
    "Nalu.SplineFile.c346_missing_silent",
    "Nalu.SplineFile.c346_twice",
    "Nalu.SplineFile.c346_name_taken"
   ],
   "note": "findings: a file of version one is not readable back, its arrays are looked for in data sets (c346_version_one); reads are unchecked, a missing attribute is silently zero (c346_missing_silent); clipping and the order of splines of several dimensions are not in the file"
  },
  {
   "property": "C347",
   "status": "proved",
   "theorems": [
    "Nalu.InitConst.c347_bucket",
    "Nalu.InitConst.c347_outside",
    "Nalu.InitConst.c347_overflow",
    "Nalu.InitConst.c347_setup",
    "Nalu.InitConst.c347_untouched",
    "Nalu.InitConst.c347_last_wins",
    "Nalu.InitConst.c347_targets",
    "Nalu.InitConst.c347_foreign"
   ],
   "note": "findings: c347_overflow (too many values), c347_targets (unknown target is a null part)"
  },
  {
   "property": "C348",
   "status": "proved",
   "theorems": [
    "Nalu.NC.c348_mass",
    "Nalu.NC.c348_uniform_density",
    "Nalu.NC.c348_opposite",
    "Nalu.NC.c348_after_solve",
    "Nalu.NC.c348_balanced",
    "Nalu.NC.c348_hydrostatic",
    "Nalu.NC.c348_rigid",
    "Nalu.NC.c348_neither_density"
   ],
   "note": "finding: the mass flow rate uses the mean density, not the upstream one (c348_neither_density)"
  },
  {
   "property": "C349",
   "status": "proved",
   "theorems": [
    "Nalu.P2.c349_hex_converged",
    "Nalu.P2.c349_hex_affine",
    "Nalu.P2.c349_hex_flat",
    "Nalu.P2.c349_tet_converged",
    "Nalu.P2.c349_tet_affine",
    "Nalu.P2.c349_tet_flat",
    "Nalu.P2.c349_tet_interpolate",
    "Nalu.P2.c349_start"
   ],
   "note": "on a curved element success only says that the last correction was short, which is all the code checks"
  },
  {
   "property": "C350",
   "status": "proved",
   "theorems": [
    "Nalu.P2.c350_interpolate",
    "Nalu.P2.c350_step",
    "Nalu.P2.c350_fixed_point",
    "Nalu.P2.c350_every_point",
    "Nalu.P2.c350_bulged",
    "Nalu.P2.c350_affine",
    "Nalu.P2.c350_not_perpendicular"
   ],
   "note": "finding: on a curved face the position found is not the foot of the perpendicular (c350_not_perpendicular), and the iteration is not Newton's, because only the corners enter the Jacobian and the normal"
  },
  {
   "property": "C351",
   "status": "proved",
   "theorems": [
    "Nalu.WallAsm.c351_weighted_average",
    "Nalu.WallAsm.c351_partition",
    "Nalu.WallAsm.c351_between",
    "Nalu.WallAsm.c351_periodic",
    "Nalu.WallAsm.c351_written",
    "Nalu.WallAsm.c351_tke_weighted_average",
    "Nalu.WallAsm.c351_tke_quadratic",
    "Nalu.WallAsm.c351_model_quadratic"
   ],
   "note": "finding: on nine-node faces the turbulent kinetic energy algorithm adds one integration point per node and divides by the area of all of them, so every node gets a quarter of a uniform value (c351_tke_quadratic), and the wall model for the other two credits points to the wrong nodes (c351_model_quadratic)"
  },
  {
   "property": "C352",
   "status": "proved",
   "theorems": [
    "Nalu.BcCheck.c352_goes_on",
    "Nalu.BcCheck.c352_all_processes",
    "Nalu.BcCheck.c352_order",
    "Nalu.BcCheck.c352_misspelt",
    "Nalu.BcCheck.c352_refused",
    "Nalu.BcCheck.c352_opposing_not_covered",
    "Nalu.BcCheck.c352_interior",
    "Nalu.BcCheck.c352_not_collective"
   ],
   "note": "findings: an unknown surface of a wall, inflow or open condition is never refused (c352_misspelt), and the check throws only on processes that have a copy of an uncovered face, so that the others go on and wait (c352_not_collective)"
  },
  {
   "property": "C353",
   "status": "proved",
   "theorems": [
    "Nalu.XferMesh.c353_fields",
    "Nalu.XferMesh.c353_fields_world",
    "Nalu.XferMesh.c353_refusal_local",
    "Nalu.XferMesh.c353_box",
    "Nalu.XferMesh.c353_box_inside",
    "Nalu.XferMesh.c353_offered",
    "Nalu.XferMesh.c353_values",
    "Nalu.XferMesh.c353_values_last",
    "Nalu.XferMesh.c353_coords",
    "Nalu.XferMesh.c353_coords_still",
    "Nalu.XferMesh.c353_coords_stale"
   ],
   "note": "two further facts proved: the refusal is thrown by the processes concerned only (c353_refusal_local), and coordinates of copies go stale on a moving source until the next search (c353_coords_stale)"
  }
 ]
}