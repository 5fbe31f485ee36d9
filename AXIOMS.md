# Axioms each theorem depends on

Generated by tools/mk_axioms.sh from the compiled environment (`collectAxioms`).

## none (14 theorems)

* `Nalu.Averaging.c15_packed_order`
* `Nalu.Loop.c79_silent_mismatch`
* `Nalu.UserFn.c233_range`
* `Nalu.Png.c250_fem`
* `Nalu.Png.c250_set`
* `Nalu.Mono.c302_external_data_lost`
* `Nalu.Mono.c302_predicted`
* `Nalu.Schedule.c325_step_keeps_np1`
* `Nalu.Schedule.c327_coefficients_lag`
* `Nalu.Schedule.c328_example`
* `Nalu.Schedule2.c333_deformation_keeps_old_interface`
* `Nalu.Schedule2.c333_initial_work_geometry_old`
* `Nalu.MainLog.c340_log_file_given`
* `Nalu.MainLog.c340_missing_input`

## propext (32 theorems)

* `Nalu.Control.c10_old_state_first_order`
* `Nalu.Control.c10_old_states`
* `Nalu.Control.c10_predictor`
* `Verif.Periodic.c36_exactly_once`
* `Verif.Periodic.c36_right_monarch`
* `Nalu.Loop.c78_reported_size`
* `Nalu.Loop.c79_accepted_requests_partial`
* `Nalu.Loop.c79_interleaved_results`
* `Nalu.Loop.c79_not_interleaved`
* `Nalu.Loop.c79_request_honoured`
* `Nalu.Loop.c79_result_conflicts`
* `Nalu.Loop.c79_view_shape_mismatch`
* `Nalu.Actuator.c163_one_rank`
* `Nalu.Diag.c231_heat`
* `Nalu.Diag.c231_low_mach`
* `Nalu.Png.c250_field`
* `Nalu.Parse.c269_material_targets`
* `Nalu.TurbPost.c286_source`
* `Nalu.Mono.c302_increments`
* `Nalu.AvgSetup.c307_collision`
* `Nalu.AvgSetup.c308_dissipation_alone`
* `Nalu.KernelBuild.c318_face_elem_checked`
* `Nalu.KernelBuild.c319_same_object`
* `Nalu.LookAhead.c320_edge_wrong`
* `Nalu.Schedule.c325_enthalpy_stale_after_bc_change`
* `Nalu.Schedule.c325_stale_after_mesh_motion`
* `Nalu.Schedule.c326_fem_two_passes_stale`
* `Nalu.Schedule.c327_coefficients_of_first_pass`
* `Nalu.Schedule.c327_fixed_mesh_fresh`
* `Nalu.Schedule.c327_jacobi`
* `Nalu.Schedule.c328_stale_after_mesh_motion`
* `Nalu.MainLog.c340_help`

## Quot.sound, propext (155 theorems)

* `Nalu.Time.c01_reported_limits`
* `Nalu.Time.c02_time_termination`
* `Nalu.Time.c08_restart_last_record`
* `Nalu.Time.c08_restart_time_is_latest`
* `Nalu.Output.c09_zero_frequency_crashes`
* `Nalu.Control.c11_inactive_step`
* `Nalu.Control.c12_overall_convergence`
* `Nalu.Control.c12_reported_mean_norm`
* `Nalu.Averaging.c13_first`
* `Nalu.Averaging.c13_first_sample`
* `Nalu.Averaging.c13_recurrence`
* `Nalu.Averaging.c17_sfs_stress_ignores_own_gradient`
* `Verif.LinSys.c18_gid_injective`
* `Verif.LinSys.c21_other_rows_unchanged`
* `Verif.LinSys.c21_owned_rows`
* `Verif.LinSys.c21_shared_rows`
* `Nalu.Edge.c27_velocity_gradient`
* `Nalu.Edge.c29_ghosted_counted_twice`
* `Nalu.Edge.c29_partition_independent_partial`
* `Nalu.Edge.c29_review_boundary_totals`
* `Verif.Thermo.c33_bounds`
* `Verif.Thermo.c33_consistent`
* `Verif.Numerics.c34_above`
* `Verif.Numerics.c34_below`
* `Verif.Numerics.c34_too_small`
* `Verif.Numerics.c35_not_ready`
* `Verif.Periodic.c36_box_roots`
* `Verif.Periodic.c37_global_id`
* `Verif.Periodic.c37_max_single`
* `Verif.Periodic.c37_max_two_subjects_stale`
* `Verif.Periodic.c37_parallel_add`
* `Verif.Periodic.c37_parallel_set`
* `Verif.Periodic.c37_undefined_skipped`
* `Verif.Periodic.c38_accepted_bijective`
* `Verif.Periodic.c38_accepted_not_bijective`
* `Verif.Periodic.c38_first_two`
* `Verif.Periodic.c38_loose_user_tolerance_ignored`
* `Verif.Periodic.c38_starting_tolerance`
* `Verif.ElemGeom.c42_quad2d_closed`
* `Verif.ElemGeom.c42_tri2d_closed`
* `Verif.Motion.c45_relative_velocity`
* `Nalu.Control.c49_inactive_steps_partial`
* `Verif.LinSys.c57_empty_row`
* `Verif.LinSys.c58_couplings_inserted`
* `Verif.LinSys.c58_row_length`
* `Nalu.Loop.c78_face_scratch_suffices`
* `Nalu.Loop.c79_consistent_requests_accepted`
* `Nalu.Loop.c79_view_shape_partial`
* `Verif.MeshGeom.c80_edge_orientation`
* `Verif.MeshGeom.c80_independent_of_decomposition`
* `Verif.MeshGeom.c81_own_share`
* `Verif.MeshGeom.c81_plane_own_share`
* `Verif.MeshGeom.c82_detects_negative_partial`
* `Nalu.NC.c90_use_current_normal`
* `Nalu.NcSearch.c94_found_is_served`
* `Nalu.NcSearch.c94_nearest_face`
* `Nalu.Rad.c102_div_lin`
* `Nalu.Vof.c103_projection_fixed`
* `Nalu.Xfer.c111_dropped`
* `Nalu.Xfer.c111_map`
* `Nalu.Xfer.c111_nearest`
* `Nalu.Xfer.c111_no_closer`
* `Nalu.Xfer.c111_report`
* `Nalu.Xfer.c111_report_bounds`
* `Nalu.Xfer.c112_clip`
* `Nalu.Xfer.c113_counts`
* `Nalu.Xfer.c113_fresh`
* `Nalu.Xfer.c113_start`
* `Nalu.Overset.c115_inside_wins`
* `Nalu.Overset.c115_nearest`
* `Nalu.Overset.c117_cut_meets`
* `Nalu.Overset.c117_cylinder_region`
* `Nalu.Cht.c119_on_face`
* `Nalu.Bc.c127_runs_last`
* `Nalu.Probe.c132_restart`
* `Nalu.Probe.c136_file`
* `Nalu.Probe.c136_one_banner`
* `Nalu.MeshDisp.c172_constants_partial`
* `Nalu.MeshDisp.c172_right_iff`
* `Nalu.MeshDisp.c173_coordinates`
* `Nalu.MeshDisp.c173_fixed`
* `Nalu.MeshDisp.c173_increments`
* `Nalu.MeshDisp.c173_velocity`
* `Nalu.Diag.c231_unknown_partial`
* `Nalu.UserFn.c234_short_table_refused`
* `Nalu.UserFn.c234_variable`
* `Nalu.Png.c245_exact`
* `Nalu.ElemSource.c256_monolithic`
* `Nalu.ElemSource.c256_params`
* `Nalu.GasNC.c262_write_in_bounds_iff`
* `Nalu.Parse.c268_nc_targets`
* `Nalu.Registration.c273_sdr_model_partial`
* `Nalu.Registration.c273_sdr_projected_wrong`
* `Nalu.Registration.c273_tke_wall`
* `Nalu.Registration.c275_bad_target_wrong`
* `Nalu.Registration.c275_symmetry_checked`
* `Nalu.Registration.c275_targets_partial`
* `Verif.LinSys.c294_every_shared_coupling_sent`
* `Verif.LinSys.c294_only_couplings_sent`
* `Verif.LinSys.c294_received`
* `Verif.LinSys.c298_owner_is_told`
* `Verif.LinSys.c299_reserved_suffices`
* `Nalu.Mono.c302_in_step`
* `Nalu.Mono.c303_old_velocity_partial`
* `Nalu.Mono.c303_restart`
* `Nalu.Mono.c303_restart_not_continuation`
* `Nalu.AvgSetup.c304_lists`
* `Nalu.AvgSetup.c304_no_repetition`
* `Nalu.AvgSetup.c307_updated_once`
* `Nalu.EqLoad.c310_no_solver_refused`
* `Nalu.EqLoad.c310_solver_block`
* `Nalu.EqLoad.c312_loaded`
* `Nalu.XferSetup.c316_pass_order`
* `Nalu.KernelBuild.c318_face`
* `Nalu.KernelBuild.c318_face_elem`
* `Nalu.KernelBuild.c318_fem`
* `Nalu.KernelBuild.c318_interior`
* `Nalu.KernelBuild.c319_clear_invalidates`
* `Nalu.KernelBuild.c319_different_objects`
* `Nalu.KernelBuild.c319_succeeds_iff`
* `Nalu.Residual.c322_message`
* `Nalu.Residual.c322_other_ranks`
* `Nalu.Residual.c323_scaled`
* `Nalu.Residual.c324_norms`
* `Nalu.Residual.c324_zero_never_converged`
* `Nalu.Schedule.c325_enthalpy_fresh_if_bc_unchanged`
* `Nalu.Schedule.c325_first_pass`
* `Nalu.Schedule.c325_fixed_mesh_always_fresh`
* `Nalu.Schedule.c325_gradient_current`
* `Nalu.Schedule.c326_fem_gradient_after_solve`
* `Nalu.Schedule.c326_fem_gradient_frozen`
* `Nalu.Schedule.c326_fem_one_pass_fresh`
* `Nalu.Schedule.c328_first_mdot`
* `Nalu.Schedule.c328_fixed_mesh_gradients_current`
* `Nalu.Schedule.c328_mdot_is_the_conservative_one`
* `Nalu.Schedule.c328_relative_velocity_current`
* `Nalu.Schedule2.c329_fields_current`
* `Nalu.Schedule2.c329_first_flux`
* `Nalu.Schedule2.c329_flux_of_last_continuity`
* `Nalu.Schedule2.c331_enthalpy_of_temperature`
* `Nalu.Schedule2.c331_properties_current_at_every_sweep`
* `Nalu.Schedule2.c331_state_after_advance`
* `Nalu.Schedule2.c332_start_value_ranking`
* `Nalu.Schedule2.c332_transfers_read_ranked_values`
* `Nalu.Schedule2.c333_deformation_geometry`
* `Nalu.Schedule2.c333_graph_matches_connectivity`
* `Nalu.Schedule2.c333_rigid_motion_current`
* `Nalu.Schedule2.c333_step_coordinates`
* `Verif.SolveBack.c335_unpaired_subject_not_updated`
* `Verif.SolveBack.c336_vector_rows_left_zero`
* `Verif.SolveBack.c336_vector_rows_misplaced`
* `Verif.SolveBack.c336_vector_rows_wrong_example`
* `Nalu.MainLog.c340_input_read`
* `Nalu.XferMesh.c353_fields`
* `Nalu.XferMesh.c353_offered`

## Classical.choice, Quot.sound, propext (1531 theorems)

* `Nalu.Time.c01_step_count_termination`
* `Nalu.Time.c02_fixed_final_time`
* `Nalu.Time.c03_fixed_step_time`
* `Nalu.Time.c03_time_is_sum_of_steps`
* `Nalu.Time.c04_backward_euler_exact`
* `Nalu.Time.c04_bdf2_exact`
* `Nalu.Time.c05_adaptive_bounds`
* `Nalu.Time.c05_adaptive_run_bounds`
* `Nalu.Output.c06_forced_once`
* `Nalu.Output.c06_results_schedule`
* `Nalu.Output.c07_restart_schedule`
* `Nalu.Time.c08_restart_continues`
* `Nalu.Output.c09_output_fresh_partial`
* `Nalu.Output.c09_output_not_fresh`
* `Nalu.Control.c11_final_flag`
* `Nalu.Control.c11_iteration_control`
* `Nalu.Control.c12_iteration_statistics`
* `Nalu.Control.c12_norms`
* `Nalu.Averaging.c13_bounds`
* `Nalu.Averaging.c13_convex_combination`
* `Nalu.Averaging.c14_running_means`
* `Nalu.Averaging.c15_favre_stress_nan_after_reset`
* `Nalu.Averaging.c15_favre_stress_partial`
* `Nalu.Averaging.c15_packed_pairs`
* `Nalu.Averaging.c15_reynolds_diagonal_nonneg`
* `Nalu.Averaging.c15_reynolds_stress`
* `Nalu.Averaging.c15_tke`
* `Nalu.Averaging.c16_run_wrong`
* `Nalu.Averaging.c16_variance_partial`
* `Nalu.Averaging.c16_variance_wrong`
* `Nalu.Averaging.c17_sfs_stress_depends_on_neighbour`
* `Nalu.Averaging.c17_sfs_stress_first_node_partial`
* `Verif.LinSys.c18_contiguous`
* `Verif.LinSys.c18_owned_first`
* `Verif.LinSys.c18_periodic_same_block`
* `Verif.LinSys.c18_row_is_position_of_gid`
* `Verif.LinSys.c18_rows_disjoint`
* `Verif.LinSys.c18_subject_of_owned`
* `Verif.LinSys.c18_succeeds`
* `Verif.LinSys.c19_nothing_else_changes`
* `Verif.LinSys.c19_single_entry`
* `Verif.LinSys.c19_sumInto_exact`
* `Verif.LinSys.c20_fails_for_repeated_nodes`
* `Verif.LinSys.c20_three_dof_agrees_partial`
* `Verif.LinSys.c21_global_row`
* `Verif.LinSys.c21_reset_rows`
* `Verif.LinSys.c21_solution_takes_bc_value`
* `Verif.LinSys.c22_global_is_serial_sum`
* `Verif.LinSys.c22_partition_independent`
* `Nalu.Edge.c23_diffusion_edge_dissipates`
* `Nalu.Edge.c23_diffusion_edge_jacobian`
* `Nalu.Edge.c23_diffusion_edge_symmetric`
* `Nalu.Edge.c23_momentum`
* `Nalu.Edge.c23_scalar_columns`
* `Nalu.Edge.c23_scalar_residual`
* `Nalu.Edge.c24_constant`
* `Nalu.Edge.c24_interface_bounds`
* `Nalu.Edge.c24_maximum_principle`
* `Nalu.Edge.c24_upwind`
* `Nalu.Edge.c25_extrapolation_bounded`
* `Nalu.Edge.c25_limiter`
* `Nalu.Edge.c26_edge_peclet_symmetric`
* `Nalu.Edge.c26_edge_peclet_uniform`
* `Nalu.Peclet.c26_classic`
* `Nalu.Peclet.c26_tanh`
* `Nalu.Edge.c27_constant`
* `Nalu.Edge.c27_gradient_telescopes`
* `Nalu.Edge.c28_antisymmetric`
* `Nalu.Edge.c28_consistent`
* `Nalu.Edge.c29_uniform_accumulation`
* `Verif.Thermo.c30_equation_of_state`
* `Verif.Thermo.c30_mixture_weight_bounds`
* `Verif.Thermo.c30_scaling`
* `Verif.Thermo.c31_mixture_bounds`
* `Verif.Thermo.c31_mole_fractions`
* `Verif.Thermo.c31_sutherland_at_reference`
* `Verif.Thermo.c31_sutherland_mono`
* `Verif.Thermo.c31_sutherland_pos`
* `Verif.Thermo.c32_const_cp`
* `Verif.Thermo.c32_const_cpk`
* `Verif.Thermo.c32_polynomial`
* `Verif.Thermo.c32_water`
* `Verif.Thermo.c33_accepted_accuracy`
* `Verif.Thermo.c33_const_cp_exact`
* `Verif.Thermo.c33_const_cpk_exact`
* `Verif.Numerics.c34_affine`
* `Verif.Numerics.c34_bounded`
* `Verif.Numerics.c34_knots`
* `Verif.Numerics.c34_monotone`
* `Verif.Numerics.c35_lu_solves`
* `Verif.Periodic.c36_many_disjoint`
* `Verif.Periodic.c36_seven_pairs_dropped`
* `Verif.Periodic.c36_translation_exact`
* `Verif.Periodic.c37_sum_and_copy`
* `Verif.Periodic.c38_terminates`
* `Verif.Periodic.c39_decision`
* `Verif.Periodic.c39_sweep`
* `Verif.Shape.c40_affine_field`
* `Verif.Shape.c40_kronecker`
* `Verif.Shape.c40_linear`
* `Verif.Shape.c40_partition_of_unity`
* `Verif.Shape.c40_pyr_kronecker`
* `Verif.Shape.c40_pyr_linear`
* `Verif.Shape.c40_pyr_partition_of_unity`
* `Verif.Shape.c40_pyr_shifted_not_linear`
* `Verif.Shape.c41_derivatives`
* `Verif.Shape.c41_derivatives_sum_zero`
* `Verif.Shape.c41_gradient_exact`
* `Verif.Shape.c41_gradient_exact_2d`
* `Verif.Shape.c41_gradop2_chain_rule`
* `Verif.Shape.c41_gradop2_exact_linear`
* `Verif.Shape.c41_gradop3_chain_rule`
* `Verif.Shape.c41_gradop3_exact_linear`
* `Verif.Shape.c41_inverted_gradient`
* `Verif.Shape.c41_metric_tensors`
* `Verif.Shape.c41_pyr_derivatives`
* `Verif.Shape.c41_pyr_gradient_exact`
* `Verif.ElemGeom.c42_hex_closed`
* `Verif.ElemGeom.c42_interior_node`
* `Verif.ElemGeom.c42_mesh_closed`
* `Verif.ElemGeom.c42_pyr_closed`
* `Verif.ElemGeom.c42_tet_closed`
* `Verif.ElemGeom.c42_wed_closed`
* `Verif.MeshGeom.c42_plane_mesh_closed`
* `Verif.ElemGeom.c43_hex_eighths`
* `Verif.ElemGeom.c43_hex_volume`
* `Verif.ElemGeom.c43_mesh_volume`
* `Verif.ElemGeom.c43_pyr_shares`
* `Verif.ElemGeom.c43_pyr_volume`
* `Verif.ElemGeom.c43_quad2d_area`
* `Verif.ElemGeom.c43_tet_closed_form`
* `Verif.ElemGeom.c43_tet_quarters`
* `Verif.ElemGeom.c43_tet_volume`
* `Verif.ElemGeom.c43_tri2d_area`
* `Verif.ElemGeom.c43_tri2d_thirds`
* `Verif.ElemGeom.c43_wed_sixths`
* `Verif.ElemGeom.c43_wed_volume`
* `Verif.Shape.c44_edge_distance`
* `Verif.Shape.c44_edge_projection`
* `Verif.Shape.c44_fixed_point`
* `Verif.Shape.c44_hex_accuracy`
* `Verif.Shape.c44_hex_affine`
* `Verif.Shape.c44_hex_newton`
* `Verif.Shape.c44_hex_newton_derivative`
* `Verif.Shape.c44_pyr_affine`
* `Verif.Shape.c44_pyr_newton`
* `Verif.Shape.c44_quad3d_affine`
* `Verif.Shape.c44_quad3d_distance`
* `Verif.Shape.c44_quad3d_fixed_point`
* `Verif.Shape.c44_quad3d_newton`
* `Verif.Shape.c44_quad_accuracy`
* `Verif.Shape.c44_quad_affine`
* `Verif.Shape.c44_quad_newton`
* `Verif.Shape.c44_quad_newton_derivative`
* `Verif.Shape.c44_tet_distance`
* `Verif.Shape.c44_tet_exact`
* `Verif.Shape.c44_tri2d_clockwise_mirrored`
* `Verif.Shape.c44_tri2d_exact`
* `Verif.Shape.c44_tri3d_projection`
* `Verif.Shape.c44_tri_distance`
* `Verif.Shape.c44_wed_accuracy`
* `Verif.Shape.c44_wed_affine`
* `Verif.Shape.c44_wed_newton`
* `Verif.Shape.c44_zero_update`
* `Verif.Motion.c45_axis_fixed`
* `Verif.Motion.c45_blended_velocity_mismatch`
* `Verif.Motion.c45_distance_scaling`
* `Verif.Motion.c45_initial_rotation`
* `Verif.Motion.c45_isometry`
* `Verif.Motion.c45_nonunit_axis_distorts`
* `Verif.Motion.c45_rotation`
* `Verif.Motion.c45_sixdof_velocity_rigid`
* `Verif.Motion.c45_velocity_is_derivative`
* `Verif.Motion.c45_velocity_tangential`
* `Verif.Motion.c46_acceleration_lag`
* `Verif.Motion.c46_attitude_first_order_partial`
* `Verif.Motion.c46_attitude_not_rk4`
* `Verif.Motion.c46_euler_equations`
* `Verif.Motion.c46_kinematics`
* `Verif.Motion.c46_kinematics_keeps_length`
* `Verif.Motion.c46_moment_in_wrong_frame`
* `Verif.Motion.c46_omega_spherical_partial`
* `Verif.Motion.c46_one_advance_per_part`
* `Verif.Motion.c46_rest_spins_up`
* `Verif.Motion.c46_velocity_constant_force`
* `Verif.Motion.c47_euler_composition`
* `Verif.Motion.c47_euler_round_trip`
* `Verif.Motion.c47_euler_unit`
* `Verif.Motion.c47_frame_round_trip`
* `Verif.Motion.c47_gimbal_lock`
* `Verif.Motion.c47_inverse_option`
* `Verif.Motion.c47_rotmat_is_conjugation`
* `Verif.Motion.c47_rotmat_orthogonal`
* `Verif.Motion.c47_sixdof_isometry`
* `Nalu.Control.c48_last_can_be_negative`
* `Nalu.Control.c48_mass_fractions_partial`
* `Nalu.Control.c49_inactive_step_stale`
* `Nalu.Averaging.c50_forced_reset_scales`
* `Nalu.Averaging.c50_long_step_overshoots`
* `Nalu.Averaging.c50_moving_exponential_partial`
* `Nalu.Averaging.c51_resolved_stress_misses_first`
* `Nalu.Averaging.c51_resolved_stress_partial`
* `Nalu.Averaging.c52_q_criterion`
* `Nalu.Averaging.c52_vorticity`
* `Nalu.Edge.c53_momentum_linearisation`
* `Nalu.Edge.c53_scalar_linearisation`
* `Nalu.Edge.c54_discrete_continuity`
* `Nalu.Edge.c54_projection_balanced`
* `Nalu.Edge.c54_projection_keeps_mdot`
* `Nalu.Edge.c54_total_mass_closure`
* `Nalu.Edge.c55_linear_scalar`
* `Nalu.Edge.c55_linear_velocity`
* `Verif.Periodic.c56_three_processes_worse`
* `Verif.Periodic.c56_two_processes_partial`
* `Verif.LinSys.c57_insert_indices`
* `Verif.LinSys.c57_row_accepts`
* `Verif.LinSys.c57_trimmed_length`
* `Verif.LinSys.c58_built_graph_accepts`
* `Verif.Shape.c59_pyramid_side_coordinates`
* `Verif.Shape.c59_side_coordinates`
* `Verif.Shape.c59_wedge_side_coordinates`
* `Verif.Motion.c60_centroid_midpoint`
* `Verif.Motion.c60_centroid_translation`
* `Verif.ElemGeom.c61_hex_left_to_right`
* `Verif.ElemGeom.c61_positive`
* `Verif.ElemGeom.c61_pyr_left_to_right`
* `Verif.ElemGeom.c61_quad2d_left_to_right`
* `Verif.ElemGeom.c61_tet_left_to_right`
* `Verif.ElemGeom.c61_tri2d_left_to_right`
* `Verif.ElemGeom.c61_wed_left_to_right`
* `Nalu.Gas.c62_conserved`
* `Nalu.Gas.c62_dirichlet_kept`
* `Nalu.Gas.c62_dirichlet_value_kept`
* `Nalu.Gas.c62_flux_antisymmetric`
* `Nalu.Gas.c62_orientation_free`
* `Nalu.Gas.c62_residual_sum`
* `Nalu.Gas.c62_step_budget`
* `Nalu.Gas.c62_symmetry_no_mass`
* `Nalu.Gas.c63_consistent`
* `Nalu.Gas.c63_continuous`
* `Nalu.Gas.c63_energy_diffusion_exact`
* `Nalu.Gas.c63_free_stream`
* `Nalu.Gas.c63_heat_flows_down`
* `Nalu.Gas.c63_mirror`
* `Nalu.Gas.c63_pressure_no_jump`
* `Nalu.Gas.c63_split_mach`
* `Nalu.Gas.c63_split_pressure`
* `Nalu.Gas.c63_supersonic`
* `Nalu.Gas.c63_upwind`
* `Nalu.Gas.c63_viscous_flux_exact`
* `Nalu.Gas.c64_ideal_gas`
* `Nalu.Gas.c64_mach`
* `Nalu.Gas.c64_positive`
* `Nalu.Gas.c64_pressure_energy_inverse`
* `Nalu.Gas.c64_velocity_momentum_inverse`
* `Nalu.Gas.c65_mass_flux_sign`
* `Nalu.Gas.c65_static_pressure_partial`
* `Nalu.Gas.c65_supersonic_outflow`
* `Nalu.Gas.c65_total_pressure_wrong`
* `Nalu.Wall.c66_converges_eventually`
* `Nalu.Wall.c66_friction_velocity`
* `Nalu.Wall.c66_law_has_unique_solution`
* `Nalu.Wall.c67_coefficient_pos`
* `Nalu.Wall.c67_force_in_sublayer`
* `Nalu.Wall.c67_force_is_wall_shear_stress`
* `Nalu.Wall.c67_force_tangential_and_opposing`
* `Nalu.Wall.c67_jacobian`
* `Nalu.Wall.c67_tangential_speed`
* `Nalu.Wall.c67_unit_normal`
* `Nalu.Wall.c68_clip_is_max`
* `Nalu.Wall.c68_clip_restart_idempotent`
* `Nalu.Wall.c68_nodal_average_between`
* `Nalu.Wall.c68_nodal_average_order`
* `Nalu.Wall.c68_wall_distance_axis_partial`
* `Nalu.Wall.c68_wall_distance_bounds_partial`
* `Nalu.Wall.c68_wall_distance_wrong_at_angle`
* `Nalu.Wall.c69_keps_mixing_length`
* `Nalu.Wall.c69_positive`
* `Nalu.Wall.c69_sst_mixing_length`
* `Nalu.Turb.c70_blend_between`
* `Nalu.Turb.c70_blending_exact`
* `Nalu.Turb.c70_blending_range`
* `Nalu.Turb.c70_dynamic_viscosity_bounded_below`
* `Nalu.Turb.c70_fTwo_antitone`
* `Nalu.Turb.c70_fTwo_far`
* `Nalu.Turb.c70_frame_indifferent`
* `Nalu.Turb.c70_kepsilon`
* `Nalu.Turb.c70_ksgs_damping`
* `Nalu.Turb.c70_production_is_strain`
* `Nalu.Turb.c70_smagorinsky`
* `Nalu.Turb.c70_sst`
* `Nalu.Turb.c70_wale`
* `Nalu.Turb.c71_keps_initial`
* `Nalu.Turb.c71_keps_update`
* `Nalu.Turb.c71_sst_update_nonneg`
* `Nalu.Turb.c71_sst_update_partial`
* `Nalu.Turb.c71_sst_zero_dissipation`
* `Nalu.Turb.c71_tke_update`
* `Nalu.Turb.c72_des_length`
* `Nalu.Turb.c72_keps`
* `Nalu.Turb.c72_limited_production`
* `Nalu.Turb.c72_sdr_sst`
* `Nalu.Turb.c72_tke_des`
* `Nalu.Turb.c72_tke_ksgs`
* `Nalu.Turb.c72_tke_sst`
* `Nalu.Turb.c73_clip_is_projection`
* `Nalu.Turb.c74_idempotent`
* `Nalu.Turb.c74_last_negative`
* `Nalu.Turb.c74_last_partial`
* `Nalu.Turb.c74_sum_is_one`
* `Nalu.Turb.c75_diagnostics_partial`
* `Nalu.Turb.c75_flags`
* `Nalu.Turb.c75_maximum_partial`
* `Nalu.Turb.c75_shared_node_counted_repeatedly`
* `Nalu.Loop.c76_each_entity_once`
* `Nalu.Loop.c76_group_sizes`
* `Nalu.Loop.c76_groups_are_the_bucket`
* `Nalu.Loop.c76_simd_loop_is_scalar_loop`
* `Nalu.Loop.c77_face_runs`
* `Nalu.Loop.c78_scratch_memory_suffices`
* `Verif.MeshGeom.c80_control_volumes_close`
* `Verif.MeshGeom.c80_interior_node_closes`
* `Verif.MeshGeom.c80_plane_control_volumes_close`
* `Verif.MeshGeom.c80_uniform_field_no_gradient`
* `Verif.MeshGeom.c81_plane_total_area`
* `Verif.MeshGeom.c81_total_volume`
* `Verif.MeshGeom.c82_accepted_volumes`
* `Verif.MeshGeom.c82_flat_element_accepted`
* `Verif.MeshGeom.c82_not_collective`
* `Nalu.Kernel.c83_continuityAdv`
* `Nalu.Kernel.c83_mesh_total`
* `Nalu.Kernel.c83_momentumAdvDiff`
* `Nalu.Kernel.c83_momentumUpw`
* `Nalu.Kernel.c83_scalarAdvDiff`
* `Nalu.Kernel.c83_scalarDiff`
* `Nalu.Kernel.c83_scalarUpw`
* `Nalu.Kernel.c84_continuityAdv`
* `Nalu.Kernel.c84_continuityOpen`
* `Nalu.Kernel.c84_fluxPenalty`
* `Nalu.Kernel.c84_mesh_newton`
* `Nalu.Kernel.c84_momentumAdvDiff`
* `Nalu.Kernel.c84_momentumAdvDiff_exact`
* `Nalu.Kernel.c84_momentumGcl`
* `Nalu.Kernel.c84_momentumMass`
* `Nalu.Kernel.c84_momentumOpen`
* `Nalu.Kernel.c84_momentumUpw`
* `Nalu.Kernel.c84_scalarAdvDiff`
* `Nalu.Kernel.c84_scalarDiff`
* `Nalu.Kernel.c84_scalarGcl`
* `Nalu.Kernel.c84_scalarMass`
* `Nalu.Kernel.c84_scalarOpen`
* `Nalu.Kernel.c84_scalarUpw`
* `Nalu.Kernel.c84_sequence`
* `Nalu.Kernel.c84_solved_row`
* `Nalu.Kernel.c85_linear_diffusion`
* `Nalu.Kernel.c85_linear_momentumUpw`
* `Nalu.Kernel.c85_linear_pressure`
* `Nalu.Kernel.c85_linear_scalar`
* `Nalu.Kernel.c85_linear_scalarUpw`
* `Nalu.Kernel.c85_linear_velocity`
* `Nalu.Kernel.c85_rigid_motion`
* `Nalu.Kernel.c85_uniform_momentumUpw`
* `Nalu.Kernel.c85_uniform_pressure`
* `Nalu.Kernel.c85_uniform_scalar`
* `Nalu.Kernel.c85_uniform_scalarUpw`
* `Nalu.Kernel.c86_boussinesq_linearises`
* `Nalu.Kernel.c86_buoyancy`
* `Nalu.Kernel.c86_continuity_gcl`
* `Nalu.Kernel.c86_gcl_uniform`
* `Nalu.Kernel.c86_lumped_diagonal`
* `Nalu.Kernel.c86_momentum_content`
* `Nalu.Kernel.c86_momentum_steady`
* `Nalu.Kernel.c86_scalar_content`
* `Nalu.Kernel.c86_scalar_steady`
* `Nalu.Kernel.c87_balance_total`
* `Nalu.Kernel.c87_compatibility`
* `Nalu.Kernel.c87_converse`
* `Nalu.Kernel.c87_discrete_continuity`
* `Nalu.Kernel.c87_pressure_level`
* `Nalu.Kernel.c87_rhs_is_imbalance`
* `Nalu.Kernel.c87_total_mass_closure`
* `Nalu.Kernel.c88_entrained_moving_mesh`
* `Nalu.Kernel.c88_entrained_velocity`
* `Nalu.Kernel.c88_flux_penalty_consistent`
* `Nalu.Kernel.c88_momentum_leaving`
* `Nalu.Kernel.c88_open_divU_spurious`
* `Nalu.Kernel.c88_open_mdot_consistent`
* `Nalu.Kernel.c88_open_viscous_tangential_partial`
* `Nalu.Kernel.c88_scalar_open_entering`
* `Nalu.Kernel.c88_scalar_open_leaving`
* `Nalu.Kernel.c88_scalar_open_uniform`
* `Nalu.Kernel.c88_upwind_extrapolates`
* `Nalu.Kernel.c88_upwind_mmatrix`
* `Nalu.Kernel.c89_free_stream_momentum`
* `Nalu.Kernel.c89_free_stream_scalar`
* `Nalu.Kernel.c89_uniform_after_solve`
* `Nalu.NC.c90_mass_flux`
* `Nalu.NC.c90_momentum_flux`
* `Nalu.NC.c90_scalar_flux`
* `Nalu.NC.c90_volume_flux`
* `Nalu.NC.c90_whole_interface`
* `Nalu.NC.c90_whole_interface_mass`
* `Nalu.NC.c91_divU_wrong`
* `Nalu.NC.c91_gradient`
* `Nalu.NC.c91_linear`
* `Nalu.NC.c91_linear_oblique`
* `Nalu.NC.c91_mdot_linear_pressure`
* `Nalu.NC.c91_mdot_rigid`
* `Nalu.NC.c91_momentum_linear_partial`
* `Nalu.NC.c91_rigid_motion`
* `Nalu.NC.c91_uniform`
* `Nalu.NC.c92_continuity`
* `Nalu.NC.c92_continuity_vof`
* `Nalu.NC.c92_mdot_after_solve`
* `Nalu.NC.c92_momentum_partial`
* `Nalu.NC.c92_png`
* `Nalu.NC.c92_scalar`
* `Nalu.NC.c92_scalar_diffusion`
* `Nalu.NC.c92_vof_central_not_newton`
* `Nalu.NC.c92_vof_partial`
* `Nalu.NC.c93_central`
* `Nalu.NC.c93_inverse_length`
* `Nalu.NC.c93_jump_dissipation`
* `Nalu.NC.c93_png_indefinite`
* `Nalu.NC.c93_png_penalty_sign`
* `Nalu.NC.c93_pressure_drives`
* `Nalu.NC.c93_upwind`
* `Nalu.NC.c93_vof_always_upwind`
* `Nalu.NcSearch.c94_missing_match_unnoticed`
* `Nalu.NcSearch.c94_no_silent_miss_partial`
* `Nalu.NcSearch.c94_point_in_box`
* `Nalu.NcSearch.c95_distance_partial`
* `Nalu.NcSearch.c95_radius_can_shrink`
* `Nalu.NcSearch.c95_retry_exact`
* `Nalu.NcSearch.c96_candidates_available`
* `Nalu.NcSearch.c96_history`
* `Nalu.NcSearch.c96_round_exact`
* `Nalu.Rad.c97_count`
* `Nalu.Rad.c97_first_moment`
* `Nalu.Rad.c97_half_range_order_one`
* `Nalu.Rad.c97_second_moment`
* `Nalu.Rad.c97_unit`
* `Nalu.Rad.c97_vertices`
* `Nalu.Rad.c97_weights_pos`
* `Nalu.Rad.c97_weights_sum`
* `Nalu.Rad.c98_edge_newton`
* `Nalu.Rad.c98_edge_sucv_conservative`
* `Nalu.Rad.c98_edge_upw_conservative`
* `Nalu.Rad.c98_elem_newton`
* `Nalu.Rad.c98_elem_sucv_conservative`
* `Nalu.Rad.c98_one_solve`
* `Nalu.Rad.c99_edge_equilibrium_partial`
* `Nalu.Rad.c99_elem_equilibrium_partial`
* `Nalu.Rad.c99_emission`
* `Nalu.Rad.c99_grey_wall`
* `Nalu.Rad.c99_partial_scalar_flux`
* `Nalu.Rad.c99_scattering_not_equilibrium`
* `Nalu.Rad.c99_window`
* `Nalu.Rad.c100_lower`
* `Nalu.Rad.c100_nonneg`
* `Nalu.Rad.c100_nonsingular`
* `Nalu.Rad.c100_unique`
* `Nalu.Rad.c100_upper`
* `Nalu.Rad.c101_energy_balance_partial`
* `Nalu.Rad.c101_irradiation`
* `Nalu.Rad.c101_moments`
* `Nalu.Rad.c101_scattering_loss`
* `Nalu.Rad.c101_wall_split`
* `Nalu.Rad.c102_norm_decomposition`
* `Nalu.Rad.c102_norm_parallel`
* `Nalu.Rad.c102_sources`
* `Nalu.Rad.c102_wall_equilibrium`
* `Nalu.Rad.c102_wall_flux`
* `Nalu.Vof.c103_hydrostatic`
* `Nalu.Vof.c103_laplace`
* `Nalu.Vof.c103_momentum_rest`
* `Nalu.Vof.c103_nonconformal_defect`
* `Nalu.Vof.c103_open_accelerating`
* `Nalu.Vof.c103_open_vdot_formula`
* `Nalu.Vof.c103_paw_gradient`
* `Nalu.Vof.c103_paw_ratio`
* `Nalu.Vof.c103_paw_weight`
* `Nalu.Vof.c103_projection_balanced`
* `Nalu.Vof.c103_rest_continuity`
* `Nalu.Vof.c103_vdot_accelerating`
* `Nalu.Vof.c103_vdot_formula`
* `Nalu.Vof.c104_conservative`
* `Nalu.Vof.c104_divergence_free`
* `Nalu.Vof.c104_inflow_flux`
* `Nalu.Vof.c104_newton_interior`
* `Nalu.Vof.c104_newton_open`
* `Nalu.Vof.c104_open_stored`
* `Nalu.Vof.c104_rhs_is_imbalance`
* `Nalu.Vof.c104_stored_mdot`
* `Nalu.Vof.c104_total_volume`
* `Nalu.Vof.c105_clip_bounds`
* `Nalu.Vof.c105_clip_closest`
* `Nalu.Vof.c105_clip_identity`
* `Nalu.Vof.c105_clip_mono`
* `Nalu.Vof.c105_smoothing_affine`
* `Nalu.Vof.c105_smoothing_conserves`
* `Nalu.Vof.c105_smoothing_diffuses`
* `Nalu.Vof.c105_smoothing_uniform`
* `Nalu.Vof.c106_curvature_affine`
* `Nalu.Vof.c106_curvature_odd`
* `Nalu.Vof.c106_normal_bounded`
* `Nalu.Vof.c106_normal_phase_swap`
* `Nalu.Vof.c106_normal_planar`
* `Nalu.Vof.c106_normal_uniform`
* `Nalu.Vof.c106_planar_curvature`
* `Nalu.Vof.c107_capillary_tangential`
* `Nalu.Vof.c107_capillary_translation`
* `Nalu.Vof.c107_conservative_advection`
* `Nalu.Vof.c107_conservative_capillary`
* `Nalu.Vof.c107_conservative_momentum_sharpen`
* `Nalu.Vof.c107_conservative_noPstab`
* `Nalu.Vof.c107_conservative_stabilisation`
* `Nalu.Vof.c107_conservative_upwind`
* `Nalu.Vof.c107_free_stream`
* `Nalu.Vof.c107_mass_consistent`
* `Nalu.Vof.c107_newton_advection`
* `Nalu.Vof.c107_newton_capillary`
* `Nalu.Vof.c107_newton_div`
* `Nalu.Vof.c107_newton_gcl`
* `Nalu.Vof.c107_newton_mass`
* `Nalu.Vof.c107_newton_momentum_sharpen`
* `Nalu.Vof.c107_newton_noPstab`
* `Nalu.Vof.c107_newton_open`
* `Nalu.Vof.c107_newton_scvAdv`
* `Nalu.Vof.c107_newton_upwind_forward`
* `Nalu.Vof.c107_noPstab_rate`
* `Nalu.Vof.c107_open_flux`
* `Nalu.Vof.c107_scvAdv_affine`
* `Nalu.Vof.c107_sharpen_defect`
* `Nalu.Vof.c107_sharpen_pure`
* `Nalu.Vof.c107_stabilisation_row`
* `Nalu.Vof.c107_uniform_advection`
* `Nalu.Vof.c107_uniform_stabilisation`
* `Nalu.Vof.c107_uniform_upwind`
* `Nalu.Vof.c107_upwind_defect`
* `Nalu.Vof.c107_upwind_lost_column`
* `Nalu.Vof.c108_consistent`
* `Nalu.Vof.c108_constant_squared`
* `Nalu.Vof.c108_gradient_used`
* `Nalu.Vof.c108_no_matrix`
* `Nalu.Vof.c108_pure_phase`
* `Nalu.Vof.c108_sign`
* `Nalu.Vof.c108_uniform_defect`
* `Nalu.Force.c109_closed_surface`
* `Nalu.Force.c109_decomposition`
* `Nalu.Force.c109_moment_transfer`
* `Nalu.Force.c109_moment_vector_product`
* `Nalu.Force.c109_nodal_sum`
* `Nalu.Force.c109_planar`
* `Nalu.Force.c109_pressure_force`
* `Nalu.Force.c109_pressure_gauge`
* `Nalu.Force.c109_rotation_invariant`
* `Nalu.Force.c109_totals`
* `Nalu.Force.c109_wall_reaction`
* `Nalu.Force.c110_average`
* `Nalu.Force.c110_distance`
* `Nalu.Force.c110_driver`
* `Nalu.Force.c110_extremes`
* `Nalu.Force.c110_listed_twice`
* `Nalu.Force.c110_mixed_kinds_add`
* `Nalu.Force.c110_nodal_fields`
* `Nalu.Force.c110_projected`
* `Nalu.Force.c110_simple_shear`
* `Nalu.Force.c110_tau_tangential`
* `Nalu.Force.c110_viscous_force`
* `Nalu.Force.c110_wall_function`
* `Nalu.Xfer.c112_affine`
* `Nalu.Xfer.c112_bounded`
* `Nalu.Xfer.c112_order_and_repeat`
* `Nalu.Xfer.c112_tet_mesh`
* `Nalu.Xfer.c112_values`
* `Nalu.Overset.c114_affine_hex`
* `Nalu.Overset.c114_constraint`
* `Nalu.Overset.c114_others`
* `Nalu.Overset.c114_scaling`
* `Nalu.Overset.c115_clip`
* `Nalu.Overset.c115_clip_nearest`
* `Nalu.Overset.c115_output_changes_donor`
* `Nalu.Overset.c115_ranks_agree`
* `Nalu.Overset.c116_fixed`
* `Nalu.Overset.c116_gas_dynamics_swapped`
* `Nalu.Overset.c116_order_matters`
* `Nalu.Overset.c116_other_sizes`
* `Nalu.Overset.c116_update`
* `Nalu.Overset.c117_cylinder_cross_section`
* `Nalu.Overset.c117_cylinder_displaced`
* `Nalu.Overset.c117_extent`
* `Nalu.Overset.c117_inner_cut`
* `Nalu.Overset.c117_no_active_in_box`
* `Nalu.Overset.c117_obb_attitude`
* `Nalu.Overset.c117_obb_cut`
* `Nalu.Overset.c117_obb_displaced`
* `Nalu.Overset.c117_obb_region`
* `Nalu.Overset.c117_shrink`
* `Nalu.Overset.c118_active_nodes_have_rows`
* `Nalu.Overset.c118_classes`
* `Nalu.Overset.c118_fixed_accumulates`
* `Nalu.Overset.c118_memoryless`
* `Nalu.Cht.c119_balance_edge`
* `Nalu.Cht.c119_balance_elem`
* `Nalu.Cht.c119_coefficient_edge`
* `Nalu.Cht.c119_coefficient_elem`
* `Nalu.Cht.c119_coefficient_not_local`
* `Nalu.Cht.c119_fourier_edge`
* `Nalu.Cht.c119_fourier_elem`
* `Nalu.Cht.c119_length_elem`
* `Nalu.Cht.c119_noc_sign`
* `Nalu.Cht.c119_reference_edge`
* `Nalu.Cht.c120_diagonal`
* `Nalu.Cht.c120_direction`
* `Nalu.Cht.c120_interface_convection`
* `Nalu.Cht.c120_interface_convection_elem`
* `Nalu.Cht.c120_interface_robin`
* `Nalu.Cht.c120_newton`
* `Nalu.Cht.c120_total`
* `Nalu.Cht.c121_bounds`
* `Nalu.Cht.c121_closed`
* `Nalu.Cht.c121_edge_parameter`
* `Nalu.Cht.c121_element_parameter`
* `Nalu.Cht.c121_impedance`
* `Nalu.Cht.c121_monotone`
* `Nalu.Cht.c121_nodal`
* `Nalu.Cht.c121_one_step`
* `Nalu.Node.c122_first_step`
* `Nalu.Node.c122_heat_iteration`
* `Nalu.Node.c122_heat_newton`
* `Nalu.Node.c122_momentum_newton`
* `Nalu.Node.c122_scalar_newton`
* `Nalu.Node.c123_bdf2_history`
* `Nalu.Node.c123_euler_history`
* `Nalu.Node.c123_exact_quadratic`
* `Nalu.Node.c123_no_source`
* `Nalu.Node.c123_scalar_rate`
* `Nalu.Node.c124_momentum_residual`
* `Nalu.Node.c124_scalar_residual`
* `Nalu.Node.c124_uniform_after_solve`
* `Nalu.Node.c125_actuator`
* `Nalu.Node.c125_dissipation_nonneg`
* `Nalu.Node.c125_forces`
* `Nalu.Node.c125_low_speed_newton`
* `Nalu.Node.c125_material_derivative`
* `Nalu.Node.c125_pressure_work`
* `Nalu.Node.c125_rigid`
* `Nalu.Node.c125_viscous_work`
* `Nalu.Node.c126_block_diagonal`
* `Nalu.Node.c126_once`
* `Nalu.Bc.c127_nearest`
* `Nalu.Bc.c127_other_rows`
* `Nalu.Bc.c127_partition_independent`
* `Nalu.Bc.c127_pinned_row`
* `Nalu.Bc.c127_pressure_value`
* `Nalu.Bc.c128_gradient_exact`
* `Nalu.Bc.c128_open_advection`
* `Nalu.Bc.c128_open_tangential`
* `Nalu.Bc.c129_kernel_divU`
* `Nalu.Bc.c129_symmetry_kernel_partial`
* `Nalu.Bc.c129_symmetry_normal`
* `Nalu.Bc.c130_open_3d_fails`
* `Nalu.Bc.c130_open_matrix_error`
* `Nalu.Bc.c130_open_newton_2d`
* `Nalu.Bc.c130_open_newton_partial`
* `Nalu.Bc.c130_symmetry_kernel`
* `Nalu.Bc.c130_symmetry_newton_partial`
* `Nalu.Bc.c130_symmetry_skew_fails`
* `Nalu.Bc.c131_dynamic_scaling`
* `Nalu.Bc.c131_flux_total`
* `Nalu.Bc.c131_flux_uniform`
* `Nalu.Bc.c131_gradient_total`
* `Nalu.Bc.c131_gradient_uniform`
* `Nalu.Bc.c131_total_pressure`
* `Nalu.Probe.c132_balanced`
* `Nalu.Probe.c132_nodes`
* `Nalu.Probe.c132_one_rank`
* `Nalu.Probe.c133_between`
* `Nalu.Probe.c133_ends`
* `Nalu.Probe.c133_frame`
* `Nalu.Probe.c133_line`
* `Nalu.Probe.c133_single`
* `Nalu.Probe.c133_split_restart`
* `Nalu.Probe.c134_circle`
* `Nalu.Probe.c134_first`
* `Nalu.Probe.c134_frame`
* `Nalu.Probe.c134_position`
* `Nalu.Probe.c135_corners`
* `Nalu.Probe.c135_position`
* `Nalu.Probe.c135_two_rows`
* `Nalu.Probe.c136_fresh`
* `Nalu.Norm.c137_decomposition`
* `Nalu.Norm.c137_ordered`
* `Nalu.Norm.c137_restart_truncates`
* `Nalu.Norm.c137_rows`
* `Nalu.Norm.c137_zero`
* `Nalu.Mms.c138_continuity`
* `Nalu.Mms.c138_mixfrac`
* `Nalu.Mms.c138_momentum0`
* `Nalu.Mms.c138_momentum1`
* `Nalu.Mms.c138_momentum2`
* `Nalu.Mms.c139_continuity`
* `Nalu.Mms.c139_enthalpy`
* `Nalu.Mms.c139_momentum0`
* `Nalu.Mms.c139_momentum1`
* `Nalu.Mms.c139_momentum2`
* `Nalu.Mms.c139_temperature`
* `Nalu.Exact.c140_boussinesq`
* `Nalu.Exact.c140_conduction`
* `Nalu.Exact.c140_steady_taylor_vortex`
* `Nalu.Exact.c140_stv_continuity`
* `Nalu.Exact.c141_convecting_taylor_vortex`
* `Nalu.Exact.c141_inviscid_undefined`
* `Nalu.Exact.c141_kovasznay`
* `Nalu.Exact.c141_kovasznay_decays`
* `Nalu.Exact.c141_wind_energy_pressure`
* `Nalu.Exact.c141_wind_energy_vortex`
* `Nalu.Exact.c142_taylor_green`
* `Nalu.Fem.c143_advection`
* `Nalu.Fem.c143_body_force`
* `Nalu.Fem.c143_continuity`
* `Nalu.Fem.c143_diffusion`
* `Nalu.Fem.c143_heat_mass`
* `Nalu.Fem.c143_mass`
* `Nalu.Fem.c143_momentum_adv`
* `Nalu.Fem.c143_momentum_mass`
* `Nalu.Fem.c143_png`
* `Nalu.Fem.c144_advection`
* `Nalu.Fem.c144_continuity`
* `Nalu.Fem.c144_continuity_open`
* `Nalu.Fem.c144_diffusion`
* `Nalu.Fem.c144_flux_penalty`
* `Nalu.Fem.c144_heat_mass`
* `Nalu.Fem.c144_mass`
* `Nalu.Fem.c144_momentum_adv`
* `Nalu.Fem.c144_momentum_diff`
* `Nalu.Fem.c144_momentum_mass`
* `Nalu.Fem.c144_momentum_open`
* `Nalu.Fem.c144_png`
* `Nalu.Fem.c144_scalar_open`
* `Nalu.Fem.c145_mass`
* `Nalu.Fem.c145_nonneg`
* `Nalu.Fem.c145_null`
* `Nalu.Fem.c145_symmetric`
* `Nalu.Fem.c146_advection_conservative`
* `Nalu.Fem.c146_body_force_total`
* `Nalu.Fem.c146_continuity_conservative`
* `Nalu.Fem.c146_diffusion_conservative`
* `Nalu.Fem.c146_mass_total`
* `Nalu.Fem.c146_momentum_adv_conservative`
* `Nalu.Fem.c147_continuity_open`
* `Nalu.Fem.c147_continuity_open_total`
* `Nalu.Fem.c147_flux_penalty`
* `Nalu.Fem.c147_inflow`
* `Nalu.Fem.c147_open_flux_consistent`
* `Nalu.Fem.c147_patch`
* `Nalu.Fem.c147_penalty_consistent`
* `Nalu.Fem.c147_scalar_open`
* `Nalu.Fem.c147_scalar_open_matrix`
* `Nalu.Fem.c148_conservative`
* `Nalu.Fem.c148_dilatation_overcounted`
* `Nalu.Fem.c148_dissipative`
* `Nalu.Fem.c148_entrained`
* `Nalu.Fem.c148_open`
* `Nalu.Fem.c148_rigid`
* `Nalu.Fem.c148_viscous_actual`
* `Nalu.Fem.c148_viscous_partial`
* `Nalu.Fem.c149_affine_exact`
* `Nalu.Fem.c149_face_total`
* `Nalu.Fem.c149_l2_projection`
* `Nalu.Fem.c149_volume_total`
* `Verif.Shape.c150_complete`
* `Verif.Shape.c150_derivatives`
* `Verif.Shape.c150_hex_consistent`
* `Verif.Shape.c150_hex_shifted_nodal`
* `Verif.Shape.c150_kronecker`
* `Verif.Shape.c150_partition_of_unity`
* `Verif.Shape.c150_tet_consistent`
* `Verif.Shape.c150_tet_shifted_is_node0`
* `Verif.Shape.c151_hex_exact`
* `Verif.Shape.c151_hex_mass`
* `Verif.Shape.c151_hex_volume`
* `Verif.Shape.c151_points_inside`
* `Verif.Shape.c151_tet_accurate`
* `Verif.Shape.c151_tri_accurate`
* `Verif.Shape.c152_area`
* `Verif.Shape.c152_normal`
* `Verif.Shape.c152_side_range`
* `Verif.Shape.c152_trace`
* `Nalu.BSpline.c153_find_ends`
* `Nalu.BSpline.c153_find_span`
* `Nalu.BSpline.c153_find_total`
* `Nalu.BSpline.c153_knots`
* `Nalu.BSpline.c153_order_zero_reads_outside`
* `Nalu.BSpline.c153_span_unique`
* `Nalu.BSpline.c153_too_few_sites`
* `Nalu.BSpline.c154_cox_de_boor`
* `Nalu.BSpline.c154_marsden`
* `Nalu.BSpline.c154_nonneg`
* `Nalu.BSpline.c154_partition`
* `Nalu.BSpline.c154_piece`
* `Nalu.BSpline.c154_polynomials`
* `Nalu.BSpline.c155_factors`
* `Nalu.BSpline.c155_identity`
* `Nalu.BSpline.c155_no_pivoting`
* `Nalu.BSpline.c155_solves`
* `Nalu.BSpline.c155_success_of_matrix`
* `Nalu.BSpline.c155_unique`
* `Nalu.BSpline.c156_clipping`
* `Nalu.BSpline.c156_constant`
* `Nalu.BSpline.c156_direction`
* `Nalu.BSpline.c156_hull`
* `Nalu.BSpline.c156_interpolates`
* `Nalu.BSpline.c156_linear`
* `Nalu.BSpline.c156_order_one`
* `Nalu.BSpline.c156_polynomials`
* `Nalu.BSpline.c156_success_of_sites`
* `Nalu.BSpline.c157_accepts`
* `Nalu.BSpline.c157_decreasing`
* `Nalu.BSpline.c157_increasing`
* `Nalu.BSpline.c157_pairs`
* `Nalu.BSpline.c158_history`
* `Nalu.BSpline.c158_interpolates`
* `Nalu.Eigen.c159_decomposition`
* `Nalu.Eigen.c159_order`
* `Nalu.Eigen.c159_reconstruct`
* `Nalu.Eigen.c160_diagonal_fixed`
* `Nalu.Eigen.c160_early_exit_partial`
* `Nalu.Eigen.c160_invariants`
* `Nalu.Eigen.c160_output_overwritten`
* `Nalu.Eigen.c160_rotation_inexact`
* `Nalu.Eigen.c160_simd_agrees_partial`
* `Nalu.Eigen.c160_simd_lane_independent`
* `Nalu.Eigen.c160_simd_not_diagonal`
* `Nalu.Eigen.c160_simd_similarity`
* `Nalu.Eigen.c160_simd_tie_gives_up`
* `Nalu.Eigen.c160_similarity`
* `Nalu.Eigen.c161_boussinesq`
* `Nalu.Eigen.c161_kinetic_energy`
* `Nalu.Eigen.c161_limiting_state`
* `Nalu.Eigen.c161_no_perturbation`
* `Nalu.Eigen.c161_perturb_entries`
* `Nalu.Eigen.c161_realizable`
* `Nalu.Eigen.c161_realizable_up_to_residue`
* `Nalu.Eigen.c161_sort`
* `Nalu.Eigen.c161_trace`
* `Nalu.Eigen.c162_conservative`
* `Nalu.Eigen.c162_dissipative`
* `Nalu.Eigen.c162_exact_newton`
* `Nalu.Eigen.c162_isotropic_flux`
* `Nalu.Eigen.c162_laminar_correction_always_on`
* `Nalu.Eigen.c162_linear_field`
* `Nalu.Eigen.c162_orientation`
* `Nalu.Eigen.c162_uniform`
* `Nalu.Eigen.c162_unperturbed_stress`
* `Nalu.Actuator.c163_about_middle`
* `Nalu.Actuator.c163_all_points`
* `Nalu.Actuator.c163_centre`
* `Nalu.Actuator.c163_ends`
* `Nalu.Actuator.c163_even`
* `Nalu.Actuator.c163_ids`
* `Nalu.Actuator.c163_periodic`
* `Nalu.Actuator.c163_rank_points`
* `Nalu.Actuator.c163_rest`
* `Nalu.Actuator.c163_rigid`
* `Nalu.Actuator.c163_rotation`
* `Nalu.Actuator.c164_not_the_velocity`
* `Nalu.Actuator.c164_speed_partial`
* `Nalu.Actuator.c164_two_dimensions`
* `Nalu.Actuator.c164_velocity_reversed`
* `Nalu.Actuator.c165_along_slip`
* `Nalu.Actuator.c165_at_least_stokes`
* `Nalu.Actuator.c165_continuous`
* `Nalu.Actuator.c165_dissipative`
* `Nalu.Actuator.c165_galilean`
* `Nalu.Actuator.c165_monotone`
* `Nalu.Actuator.c165_sphere_drag`
* `Nalu.Actuator.c165_stokes`
* `Nalu.Actuator.c166_decreasing`
* `Nalu.Actuator.c166_default`
* `Nalu.Actuator.c166_integral`
* `Nalu.Actuator.c166_last_wins`
* `Nalu.Actuator.c166_overlap_lost`
* `Nalu.Actuator.c166_superposition_partial`
* `Nalu.Actuator.c166_total_partial`
* `Nalu.Actuator.c166_width_ignored`
* `Nalu.Actuator.c167_best`
* `Nalu.Actuator.c167_best_none`
* `Nalu.Actuator.c167_lhs_total`
* `Nalu.Actuator.c167_nodes`
* `Nalu.Actuator.c167_uniform_gas`
* `Nalu.Actuator.c168_element_matrix`
* `Nalu.Actuator.c168_element_total`
* `Nalu.Actuator.c168_element_uniform`
* `Nalu.Actuator.c168_isotropic`
* `Nalu.Actuator.c168_nonneg`
* `Nalu.MeshDisp.c169_affine`
* `Nalu.MeshDisp.c169_conservative`
* `Nalu.MeshDisp.c169_instance`
* `Nalu.MeshDisp.c169_newton`
* `Nalu.MeshDisp.c169_residual`
* `Nalu.MeshDisp.c169_rigid`
* `Nalu.MeshDisp.c170_inertia_partial`
* `Nalu.MeshDisp.c170_instance`
* `Nalu.MeshDisp.c170_newton`
* `Nalu.MeshDisp.c170_total`
* `Nalu.MeshDisp.c170_two_states`
* `Nalu.MeshDisp.c170_uniform`
* `Nalu.MeshDisp.c170_wrong_acceleration`
* `Nalu.MeshDisp.c171_conservative`
* `Nalu.MeshDisp.c171_law_rigid`
* `Nalu.MeshDisp.c171_picard`
* `Nalu.MeshDisp.c171_residual_partial`
* `Nalu.MeshDisp.c171_rest_2d`
* `Nalu.MeshDisp.c171_rotation`
* `Nalu.MeshDisp.c171_rotation_instance`
* `Nalu.MeshDisp.c171_translation`
* `Nalu.MeshDisp.c172_elastic_exchanged`
* `Nalu.MeshDisp.c172_instance`
* `Nalu.MeshDisp.c173_divergence`
* `Nalu.MeshDisp.c173_velocity_exact`
* `Nalu.MeshDisp.c174_closed`
* `Nalu.MeshDisp.c174_local`
* `Nalu.MeshDisp.c174_matrix`
* `Nalu.MeshDisp.c174_total`
* `Nalu.MeshDisp.c174_uniform`
* `Nalu.Nso.c175_alt_residual`
* `Nalu.Nso.c175_conservative`
* `Nalu.Nso.c175_down_gradient`
* `Nalu.Nso.c175_exact_fields`
* `Nalu.Nso.c175_flux`
* `Nalu.Nso.c175_flux_ke`
* `Nalu.Nso.c175_matrix`
* `Nalu.Nso.c175_pde_residual`
* `Nalu.Nso.c175_residual`
* `Nalu.Nso.c175_viscosity`
* `Nalu.Nso.c175_viscosity_ke`
* `Nalu.Nso.c176_conservative`
* `Nalu.Nso.c176_exact_fields`
* `Nalu.Nso.c176_flux`
* `Nalu.Nso.c176_matrix`
* `Nalu.Nso.c176_residual`
* `Nalu.Nso.c176_smooth_pressure`
* `Nalu.Nso.c176_uniform_stream`
* `Nalu.Nso.c177_conservative`
* `Nalu.Nso.c177_expansion`
* `Nalu.Nso.c177_rigid`
* `Nalu.Nso.c177_stress_incompressible`
* `Nalu.Nso.c177_stress_partial`
* `Nalu.Nso.c178_fem_operator`
* `Nalu.Nso.c178_fem_viscosity`
* `Nalu.Nso.c179_metric_psd`
* `Nalu.Nso.c179_simd_counterexample`
* `Nalu.Nso.c179_simd_partial`
* `Nalu.Nso.c179_threed`
* `Nalu.Nso.c179_twod`
* `Nalu.TurbElem.c180_limited`
* `Nalu.TurbElem.c180_sdr`
* `Nalu.TurbElem.c180_tke`
* `Nalu.TurbElem.c180_tke_des`
* `Nalu.TurbElem.c181_eps`
* `Nalu.TurbElem.c181_incompressible`
* `Nalu.TurbElem.c181_tke`
* `Nalu.TurbElem.c182_design`
* `Nalu.TurbElem.c182_lumped`
* `Nalu.TurbElem.c183_keps`
* `Nalu.TurbElem.c183_ksgs`
* `Nalu.TurbElem.c183_mesh`
* `Nalu.TurbElem.c183_sdr`
* `Nalu.TurbElem.c183_sst`
* `Nalu.TurbElem.c183_update`
* `Nalu.TurbElem.c184_agree_partial`
* `Nalu.TurbElem.c184_des_matrix`
* `Nalu.TurbElem.c184_ksgs`
* `Nalu.TurbElem.c184_sdr_des_les`
* `Nalu.TurbElem.c184_sdr_des_rans`
* `Nalu.TurbElem.c185_rodi`
* `Nalu.TurbElem.c185_sign`
* `Nalu.TurbElem.c185_source`
* `Nalu.TurbElem.c186_race`
* `Nalu.TurbElem.c186_serial_partial`
* `Nalu.ExpFilter.c187_bounds`
* `Nalu.ExpFilter.c187_box_mean`
* `Nalu.ExpFilter.c187_constant`
* `Nalu.ExpFilter.c187_linear`
* `Nalu.ExpFilter.c188_ghosting`
* `Nalu.ExpFilter.c188_neighbourhood`
* `Nalu.ExpFilter.c188_partition`
* `Nalu.ExpFilter.c188_support_monotone`
* `Nalu.ExpFilter.c189_hydrostatic`
* `Nalu.ExpFilter.c189_normalized_uniform_partial`
* `Nalu.ExpFilter.c189_residual_integral_partial`
* `Nalu.ExpFilter.c189_volume_index_counterexample`
* `Nalu.HdfTable.c190_accepts`
* `Nalu.HdfTable.c190_in_box`
* `Nalu.HdfTable.c190_inside`
* `Nalu.HdfTable.c190_lookup`
* `Nalu.HdfTable.c190_nodes`
* `Nalu.HdfTable.c190_order_free`
* `Nalu.HdfTable.c191_no_new_input_counterexample`
* `Nalu.HdfTable.c191_one_converter_partial`
* `Nalu.HdfTable.c191_order_counterexample`
* `Nalu.HdfTable.c191_two_converters_counterexample`
* `Nalu.HdfTable.c191_two_new_inputs_counterexample`
* `Nalu.HdfTable.c192_log`
* `Nalu.HdfTable.c192_resize_counterexample`
* `Nalu.HdfTable.c192_severity`
* `Nalu.HdfTable.c192_severity_outside`
* `Nalu.HdfTable.c193_chi_inner_counterexample`
* `Nalu.HdfTable.c193_chi_proportional_partial`
* `Nalu.HdfTable.c193_delta_chi`
* `Nalu.HdfTable.c193_enthalpy_degenerate`
* `Nalu.HdfTable.c193_enthalpy_inverse`
* `Nalu.HdfTable.c193_mixture_bounds`
* `Nalu.HdfTable.c193_streams`
* `Nalu.HdfTable.c194_chi_profile`
* `Nalu.HdfTable.c194_delta_gamma`
* `Nalu.HdfTable.c194_erf_odd`
* `Nalu.HdfTable.c194_gamma_tent`
* `Nalu.HdfTable.c194_gamma_two`
* `Nalu.HdfTable.c194_gamma_two_ends`
* `Nalu.HdfTable.c194_gamma_two_zero`
* `Nalu.HdfTable.c194_order_counterexample`
* `Nalu.P2.c195_derivatives`
* `Nalu.P2.c195_one_at_own_node`
* `Nalu.P2.c195_reproduces_quadratics`
* `Nalu.P2.c195_sides`
* `Nalu.P2.c195_sides_continuous`
* `Nalu.P2.c196_exact_for_cubics`
* `Nalu.P2.c196_points_inside`
* `Nalu.P2.c196_quartic_counterexample`
* `Nalu.P2.c196_shifted_points_at_nodes`
* `Nalu.P2.c196_weights_total`
* `Nalu.P2.c197_element_volume`
* `Nalu.P2.c197_error_flag`
* `Nalu.P2.c197_node_volume`
* `Nalu.P2.c198_closed`
* `Nalu.P2.c198_segments`
* `Nalu.P2.c199_faces_match_edges`
* `Nalu.P2.c199_neighbours`
* `Nalu.P2.c199_opposing`
* `Nalu.P2.c200_hex_chain_rule`
* `Nalu.P2.c200_hex_linear`
* `Nalu.P2.c200_quad_chain_rule`
* `Nalu.P2.c200_quad_linear`
* `Nalu.P2.c201_closed`
* `Nalu.P2.c201_orientation`
* `Nalu.P2.c202_faces_match`
* `Nalu.P2.c202_neighbours`
* `Nalu.P2.c202_opposing`
* `Nalu.P2.c203_curved_counterexample`
* `Nalu.P2.c203_straight_partial`
* `Nalu.P2.c204_faces`
* `Nalu.P2.c204_one_edge_partial`
* `Nalu.P2.c204_two_edges_counterexample`
* `Nalu.P2.c205_affine`
* `Nalu.P2.c205_converged`
* `Nalu.P2.c206_first_points_partial`
* `Nalu.P2.c206_last_points_counterexample`
* `Nalu.Legacy.c207_continuityElem`
* `Nalu.Legacy.c207_momentumElem`
* `Nalu.Legacy.c207_momentumElem_conserves`
* `Nalu.Legacy.c207_scalarDiff`
* `Nalu.Legacy.c207_scalarElem`
* `Nalu.Legacy.c207_scalarElem_conserves`
* `Nalu.Legacy.c208_continuityOpen`
* `Nalu.Legacy.c208_inflow`
* `Nalu.Legacy.c208_momentumOpen`
* `Nalu.Legacy.c208_scalarOpen`
* `Nalu.Legacy.c208_symmetry`
* `Nalu.WallElem.c209_legacy_is_kernel`
* `Nalu.WallElem.c209_lumped_is_edge`
* `Nalu.WallElem.c210_dissipates`
* `Nalu.WallElem.c210_exact_newton`
* `Nalu.WallElem.c210_no_slip_no_normal`
* `Nalu.WallElem.c210_rows`
* `Nalu.WallElem.c210_sum_is_reported_force`
* `Nalu.WallElem.c211_log_law`
* `Nalu.WallElem.c211_ode_denominator`
* `Nalu.WallElem.c211_ode_force`
* `Nalu.WallElem.c211_rhs_only_and_reported`
* `Nalu.WallOde.c212_grid`
* `Nalu.WallOde.c212_projected_point`
* `Nalu.WallOde.c213_dominant`
* `Nalu.WallOde.c213_tdma`
* `Nalu.WallOde.c214_profile`
* `Nalu.WallOde.c215_bounds`
* `Nalu.WallOde.c215_fixed_point_exists`
* `Nalu.WallOde.c215_no_memory`
* `Nalu.WallOde.c215_no_slip`
* `Nalu.WallOde.c215_reported_below_carried_partial`
* `Nalu.WallOde.c215_solve`
* `Nalu.WallOde.c215_utau`
* `Nalu.WallOde.c215_utau_ode`
* `Nalu.WallOde.c216_collision_hides_unowned_partial`
* `Nalu.WallOde.c216_nearest_owner`
* `Nalu.WallOde.c216_throws`
* `Nalu.MatProps.c217_fields`
* `Nalu.MatProps.c217_throws`
* `Nalu.MatProps.c217_uncovered`
* `Nalu.MatProps.c218_leak_partial`
* `Nalu.MatProps.c218_own_constants`
* `Nalu.MatProps.c218_table_file_partial`
* `Nalu.MatProps.c219_density`
* `Nalu.MatProps.c219_linear`
* `Nalu.MatProps.c220_enthalpy`
* `Nalu.MatProps.c220_gamma`
* `Nalu.MatProps.c221_null_evaluator_partial`
* `Nalu.MatProps.c221_paired`
* `Nalu.MatProps.c222_effective`
* `Nalu.MatProps.c222_prandtl`
* `Nalu.MatProps.c223_species_constant_zero_partial`
* `Nalu.MatProps.c223_specs`
* `Nalu.MatProps.c224_copy`
* `Nalu.MatProps.c224_wrong_stride_partial`
* `Nalu.Diag.c225_edge`
* `Nalu.Diag.c225_elements`
* `Nalu.Diag.c225_invariant`
* `Nalu.Diag.c225_no_elements`
* `Nalu.Diag.c225_realm`
* `Nalu.Diag.c225_target`
* `Nalu.Diag.c226_courant`
* `Nalu.Diag.c226_reynolds_partial`
* `Nalu.Diag.c227_brick`
* `Nalu.Diag.c227_courant2`
* `Nalu.Diag.c227_courant3`
* `Nalu.Diag.c227_cube`
* `Nalu.Diag.c228_linear_partial`
* `Nalu.Diag.c228_range`
* `Nalu.Diag.c228_uniform_partial`
* `Nalu.Diag.c229_dudx2`
* `Nalu.Diag.c229_length_partial`
* `Nalu.Diag.c229_scalar_vorticity_partial`
* `Nalu.Diag.c229_vorticity_2d_partial`
* `Nalu.Diag.c229_vorticity_3d`
* `Nalu.Diag.c230_edge`
* `Nalu.Diag.c230_edge_noc_partial`
* `Nalu.Diag.c230_elem`
* `Nalu.Diag.c230_heat_partial`
* `Nalu.Diag.c231_heat_vorticity_partial`
* `Nalu.Diag.c232_longest`
* `Nalu.UserFn.c233_component_not_checked_partial`
* `Nalu.UserFn.c233_each_point_written`
* `Nalu.UserFn.c233_linear_function`
* `Nalu.UserFn.c233_ramp_written`
* `Nalu.UserFn.c233_sin_displacement_third_component_kept`
* `Nalu.UserFn.c233_sin_displacement_two_dim`
* `Nalu.UserFn.c234_order_irrelevant`
* `Nalu.UserFn.c234_table_bounded`
* `Nalu.UserFn.c234_table_is_piecewise_linear`
* `Nalu.UserFn.c234_table_unchecked_partial`
* `Nalu.UserFn.c235_bilinear`
* `Nalu.UserFn.c235_bounded`
* `Nalu.UserFn.c235_exact_at_grid_points`
* `Nalu.UserFn.c236_file_values_reproduced`
* `Nalu.UserFn.c236_grid_file_stored`
* `Nalu.UserFn.c236_trailing_newline_out_of_bounds_partial`
* `Nalu.UserFn.c237_blend`
* `Nalu.UserFn.c237_mesh_motion_is_mesh_velocity`
* `Nalu.UserFn.c237_wind_energy_is_mesh_velocity`
* `Nalu.UserFn.c237_wind_energy_two_dim`
* `Nalu.UserFn.c238_momentum`
* `Nalu.UserFn.c238_symmetric`
* `Nalu.UserFn.c238_walls_x`
* `Nalu.UserFn.c238_walls_y`
* `Nalu.UserFn.c239_angle`
* `Nalu.UserFn.c239_interpolation`
* `Nalu.UserFn.c239_temperature_range`
* `Nalu.UserFn.c239_wraps`
* `Nalu.UserFn.c240_concentric`
* `Nalu.UserFn.c241_gaussian`
* `Nalu.UserFn.c241_pipe`
* `Nalu.UserFn.c241_powerlaw`
* `Nalu.UserFn.c241_pulse`
* `Nalu.UserFn.c241_sin_pipe`
* `Nalu.UserFn.c242_boundary_layer_bounds`
* `Nalu.UserFn.c242_boundary_layer_solenoidal`
* `Nalu.UserFn.c242_plug`
* `Nalu.UserFn.c243_indicators`
* `Nalu.UserFn.c243_layer_ends_partial`
* `Nalu.UserFn.c243_layer_inverted`
* `Nalu.UserFn.c243_mixfrac_bounded`
* `Nalu.Png.c244_bdry`
* `Nalu.Png.c244_elem`
* `Nalu.Png.c244_linear`
* `Nalu.Png.c244_rowsum`
* `Nalu.Png.c245_error`
* `Nalu.Png.c245_momentum`
* `Nalu.Png.c245_momentum_start`
* `Verif.ElemGeom.c246_const`
* `Verif.ElemGeom.c246_linear`
* `Verif.ElemGeom.c247_linear`
* `Verif.ElemGeom.c247_open`
* `Verif.ElemGeom.c248_const`
* `Verif.ElemGeom.c248_shift`
* `Verif.ElemGeom.c249_const`
* `Verif.ElemGeom.c249_exact`
* `Verif.ElemGeom.c249_lumped`
* `Verif.ElemGeom.c249_rowsum`
* `Nalu.Png.c250_pressure`
* `Nalu.Png.c250_registers`
* `Nalu.SixDof.c251_closed`
* `Nalu.SixDof.c251_history`
* `Nalu.SixDof.c251_total`
* `Nalu.SixDof.c252_arm`
* `Nalu.SixDof.c252_attached`
* `Nalu.SixDof.c252_coincident_partial`
* `Nalu.SixDof.c252_conservative`
* `Nalu.SixDof.c252_power`
* `Nalu.SixDof.c252_restoring`
* `Nalu.SixDof.c252_slack`
* `Nalu.SixDof.c252_spring`
* `Nalu.SixDof.c253_accumulates_partial`
* `Nalu.SixDof.c253_one_call_partial`
* `Nalu.SixDof.c254_fields`
* `Nalu.SixDof.c254_no_surface_no_tether`
* `Nalu.SixDof.c254_read`
* `Nalu.SixDof.c254_register`
* `Nalu.ElemSource.c255_conservative`
* `Nalu.ElemSource.c255_newton`
* `Nalu.ElemSource.c255_overcounted_partial`
* `Nalu.ElemSource.c255_stress_partial`
* `Nalu.ElemSource.c256_matrix`
* `Nalu.ElemSource.c256_mesh`
* `Nalu.ElemSource.c257_continuity`
* `Nalu.ElemSource.c257_lumped`
* `Nalu.ElemSource.c257_lumped_momentum`
* `Nalu.ElemSource.c257_momentum_total`
* `Nalu.UserField.c258_channel`
* `Nalu.UserField.c258_height_bounds`
* `Nalu.UserField.c258_height_ignored`
* `Nalu.UserField.c258_height_params`
* `Nalu.UserField.c258_height_surface`
* `Nalu.UserField.c258_points`
* `Nalu.UserField.c258_tornado`
* `Nalu.UserField.c258_workshop`
* `Nalu.GasNC.c259_consistent_partial`
* `Nalu.GasNC.c259_interface_mass_partial`
* `Nalu.GasNC.c259_inviscid_conserved`
* `Nalu.GasNC.c259_mass_conserved`
* `Nalu.GasNC.c259_moving_mesh_wrong`
* `Nalu.GasNC.c259_upwind`
* `Nalu.GasNC.c260_divergence_exact`
* `Nalu.GasNC.c260_gradient_repeats_diagonal`
* `Nalu.GasNC.c260_heat_conserved`
* `Nalu.GasNC.c260_heat_flux`
* `Nalu.GasNC.c260_momentum_conserved_partial`
* `Nalu.GasNC.c260_momentum_imbalance`
* `Nalu.GasNC.c260_normal_traction_partial`
* `Nalu.GasNC.c260_penalty_dissipative`
* `Nalu.GasNC.c260_shear_wrong`
* `Nalu.GasNC.c261_clean_stress`
* `Nalu.GasNC.c261_energy_history_wrong`
* `Nalu.GasNC.c261_inviscid_stays_clean_partial`
* `Nalu.GasNC.c261_mass_momentum_history_free`
* `Nalu.GasNC.c261_workspace_accumulates`
* `Nalu.GasNC.c262_gather_same_topology_partial`
* `Nalu.GasNC.c262_mixed_topology_wrong`
* `Nalu.Parse.c263_block_order`
* `Nalu.Parse.c263_blocks_in_order`
* `Nalu.Parse.c263_function_order`
* `Nalu.Parse.c263_user_data_order`
* `Nalu.Parse.c264_inflow`
* `Nalu.Parse.c264_others`
* `Nalu.Parse.c264_wall`
* `Nalu.Parse.c264_wall_velocity`
* `Nalu.Parse.c265_inflow_type`
* `Nalu.Parse.c265_wall_type`
* `Nalu.Parse.c266_accepted_iff`
* `Nalu.Parse.c266_required`
* `Nalu.Parse.c266_unknown_ignored`
* `Nalu.Parse.c266_wall_forbidden`
* `Nalu.Parse.c267_emissivity_flag`
* `Nalu.Parse.c267_open_eps_ignored`
* `Nalu.Parse.c267_open_eps_wrong`
* `Nalu.Parse.c267_open_partial`
* `Nalu.Parse.c268_kind`
* `Nalu.Parse.c268_rogue_refused`
* `Nalu.Parse.c268_unknown_refused`
* `Nalu.Parse.c268_wall_read`
* `Nalu.Parse.c269_case_insensitive`
* `Nalu.Parse.c269_ic_comma`
* `Nalu.Parse.c269_ic_values`
* `Nalu.Parse.c269_solver_defaults`
* `Nalu.Parse.c269_solver_lookup`
* `Nalu.Registration.c270_momentum_dirichlet`
* `Nalu.Registration.c270_momentum_gradient`
* `Nalu.Registration.c270_momentum_terms`
* `Nalu.Registration.c271_external`
* `Nalu.Registration.c271_velocity_last_wins`
* `Nalu.Registration.c272_equation_kept`
* `Nalu.Registration.c273_eps_wall_prevails`
* `Nalu.Registration.c273_sdr_wall_prevails`
* `Nalu.Registration.c273_tke_wall_function_prevails`
* `Nalu.Registration.c274_enthalpy_last_wins`
* `Nalu.Registration.c274_enthalpy_terms`
* `Nalu.Registration.c274_mixture_fraction_partial`
* `Nalu.Registration.c274_wall_user_function_wrong`
* `Nalu.Registration.c276_imposed_rows_clean`
* `Nalu.Registration.c276_order_of_terms`
* `Nalu.Registration.c276_other_rows`
* `Nalu.SolnOpts.c277_options_partial`
* `Nalu.SolnOpts.c277_two_options_wrong`
* `Nalu.SolnOpts.c277_unknown_refused`
* `Nalu.SolnOpts.c278_sources_accumulate_partial`
* `Nalu.SolnOpts.c279_constants_available`
* `Nalu.SolnOpts.c279_constants_partial`
* `Nalu.SolnOpts.c279_model`
* `Nalu.SolnOpts.c279_model_refused`
* `Nalu.SolnOpts.c279_no_block_wrong`
* `Nalu.SolnOpts.c279_unknown_constant_silent_wrong`
* `Nalu.SolnOpts.c280_dependent_lines`
* `Nalu.SolnOpts.c280_lost_defaults_wrong`
* `Nalu.SolnOpts.c280_plain_lines`
* `Nalu.SolnOpts.c281_displacement_entry`
* `Nalu.SolnOpts.c281_fix_pressure`
* `Nalu.SolnOpts.c281_motion_entry`
* `Nalu.SolnOpts.c281_motions`
* `Nalu.TurbPost.c282_example`
* `Nalu.TurbPost.c282_swirl_2d`
* `Nalu.TurbPost.c282_swirl_3d_nan_wrong`
* `Nalu.TurbPost.c282_swirl_3d_partial`
* `Nalu.TurbPost.c283_example`
* `Nalu.TurbPost.c283_mean_ke`
* `Nalu.TurbPost.c284_dissipation_nonneg`
* `Nalu.TurbPost.c284_dissipation_pointwise`
* `Nalu.TurbPost.c284_example`
* `Nalu.TurbPost.c285_dissipation_mean_partial`
* `Nalu.TurbPost.c285_dissipation_mean_wrong`
* `Nalu.TurbPost.c286_production`
* `Nalu.TurbPost.c287_example`
* `Nalu.TurbPost.c287_realizable`
* `Nalu.TurbPost.c288_clip_inactive`
* `Nalu.TurbPost.c288_effective_viscosity`
* `Nalu.TurbPost.c289_galilean`
* `Nalu.TurbPost.c289_uniform_flow`
* `Nalu.TurbPost.c290_dsqrtk`
* `Verif.LinSys.c291_row_length`
* `Verif.LinSys.c291_row_pointers`
* `Verif.LinSys.c291_rows_disjoint`
* `Verif.LinSys.c292_component_rows`
* `Verif.LinSys.c293_empty_row_kept`
* `Verif.LinSys.c293_remove_invalid_partial`
* `Verif.LinSys.c293_repeated_column_leaves_invalid`
* `Verif.LinSys.c295_final_row`
* `Verif.LinSys.c295_received_lengths`
* `Verif.LinSys.c296_column_map`
* `Verif.LinSys.c297_columns_in_blocks`
* `Verif.LinSys.c298_owner_row_has_every_coupling`
* `Verif.LinSys.c298_reported_nodes_present`
* `Verif.LinSys.c300_face_elem`
* `Verif.LinSys.c300_non_conformal`
* `Verif.LinSys.c300_overset`
* `Verif.LinSys.c300_reduced_elem`
* `Nalu.Mono.c301_load`
* `Nalu.Mono.c301_round_trip`
* `Nalu.Mono.c301_unload`
* `Nalu.AvgSetup.c305_accepted_iff`
* `Nalu.AvgSetup.c305_result`
* `Nalu.AvgSetup.c306_accepted`
* `Nalu.AvgSetup.c306_missing_refused`
* `Nalu.AvgSetup.c306_pairs`
* `Nalu.AvgSetup.c306_registered`
* `Nalu.AvgSetup.c306_special_fields`
* `Nalu.AvgSetup.c307_blocks_distinct`
* `Nalu.AvgSetup.c307_listed_twice_wrong`
* `Nalu.AvgSetup.c307_names_distinct`
* `Nalu.AvgSetup.c308_mean_fields_exist_partial`
* `Nalu.EqLoad.c309_item`
* `Nalu.EqLoad.c309_second_in_item_ignored`
* `Nalu.EqLoad.c309_unknown_refused`
* `Nalu.EqLoad.c310_one_per_item`
* `Nalu.EqLoad.c310_options_in_force`
* `Nalu.EqLoad.c310_vof_options`
* `Nalu.EqLoad.c310_vof_options_kept`
* `Nalu.EqLoad.c311_group_size`
* `Nalu.EqLoad.c312_registered`
* `Nalu.XferSetup.c313_accepted_iff`
* `Nalu.XferSetup.c313_meaning`
* `Nalu.XferSetup.c314_accepted_iff`
* `Nalu.XferSetup.c314_find_realm`
* `Nalu.XferSetup.c314_once`
* `Nalu.XferSetup.c314_queues`
* `Nalu.XferSetup.c315_legal`
* `Nalu.XferSetup.c315_once`
* `Nalu.XferSetup.c316_run_count`
* `Nalu.XferSetup.c316_unlisted_never`
* `Nalu.KernelBuild.c317_accepted_iff`
* `Nalu.KernelBuild.c317_accepted_not_built_wrong`
* `Nalu.KernelBuild.c317_every_request_built`
* `Nalu.KernelBuild.c317_no_list_refused`
* `Nalu.KernelBuild.c317_registered`
* `Nalu.LookAhead.c320_edge`
* `Nalu.LookAhead.c320_has_mass`
* `Nalu.LookAhead.c320_lumped`
* `Nalu.LookAhead.c320_two_keys_wrong`
* `Nalu.LookAhead.c321_find_iff`
* `Nalu.LookAhead.c321_find_order`
* `Nalu.LookAhead.c321_look_ahead`
* `Nalu.LookAhead.c321_nested_dangling`
* `Nalu.Residual.c322_detects`
* `Nalu.Residual.c323_converged`
* `Nalu.Residual.c323_first`
* `Nalu.Residual.c324_first_iteration`
* `Nalu.Residual.c324_radiation`
* `Nalu.Residual.c324_sweep`
* `Nalu.Schedule.c325_later_passes_fresh`
* `Nalu.Schedule2.c330_auxiliary_current`
* `Nalu.Schedule2.c330_dirichlet_kept`
* `Nalu.Schedule2.c330_start_states_agree`
* `Nalu.Schedule2.c330_sweeps_do_not_accumulate`
* `Nalu.Schedule2.c332_last_input_time_wins`
* `Nalu.Schedule2.c332_start_time`
* `Verif.SolveBack.c334_correction_at_nodes`
* `Verif.SolveBack.c334_never_throws`
* `Verif.SolveBack.c334_partition_independent`
* `Verif.SolveBack.c335_active_advances`
* `Verif.SolveBack.c335_inactive_drifts`
* `Verif.SolveBack.c335_inactive_keeps_old`
* `Verif.SolveBack.c336_scalar_rows_partial`
* `Nalu.ProjWall.c337_listed_twice_wrong`
* `Nalu.ProjWall.c337_log_law`
* `Nalu.ProjWall.c337_numbers`
* `Nalu.ProjWall.c337_ode_law`
* `Nalu.ProjWall.c337_own_point`
* `Nalu.ProjWall.c337_points_follow_mesh`
* `Nalu.ProjWall.c337_slip_only`
* `Nalu.ProjWall.c337_throws`
* `Nalu.ProjWall.c338_exchange_velocity`
* `Nalu.ProjWall.c338_first_iteration_depends_on_partition`
* `Nalu.ProjWall.c339_box_contains`
* `Nalu.ProjWall.c339_candidates_present`
* `Nalu.ProjWall.c339_found`
* `Nalu.ProjWall.c339_nothing_else_sent`
* `Nalu.MainLog.c340_directory_dot`
* `Nalu.MainLog.c340_extension_replaced`
* `Nalu.MainLog.c340_input_destroyed`
* `Nalu.MainLog.c340_no_extension`
* `Nalu.MainLog.c340_same_name_iff`
* `Nalu.MainLog.c341_log_contents`
* `Nalu.MainLog.c341_names_sorted`
* `Nalu.MainLog.c341_one_process`
* `Nalu.MainLog.c341_parallel_contents`
* `Nalu.MainLog.c341_places`
* `Nalu.MainLog.c341_stdout`
* `Nalu.MainLog.c342_block`
* `Nalu.MainLog.c342_item`
* `Nalu.StartFields.c343_default_distance`
* `Nalu.StartFields.c343_default_off`
* `Nalu.StartFields.c343_distance_source`
* `Nalu.StartFields.c343_nothing_else_matters`
* `Nalu.StartFields.c343_off`
* `Nalu.StartFields.c343_restart_fills`
* `Nalu.StartFields.c343_restart_overwritten`
* `Nalu.StartFields.c343_transfer`
* `Nalu.StartFields.c343_wetted`
* `Nalu.StartFields.c344_fields`
* `Nalu.StartFields.c344_jump`
* `Nalu.StartFields.c344_local`
* `Nalu.StartFields.c344_nonneg`
* `Nalu.StartFields.c344_scaled`
* `Nalu.StartFields.c344_scaled_range`
* `Nalu.StartFields.c344_uniform`
* `Nalu.DebugCheck.c345_solved_iff`
* `Nalu.DebugCheck.c345_waits`
* `Nalu.DebugCheck.c345_who_throws`
* `Nalu.DebugCheck.c345_zero_row_others_go_on`
* `Nalu.SplineFile.c346_identity`
* `Nalu.SplineFile.c346_later_writes`
* `Nalu.SplineFile.c346_missing_silent`
* `Nalu.SplineFile.c346_name_taken`
* `Nalu.SplineFile.c346_round_trip`
* `Nalu.SplineFile.c346_twice`
* `Nalu.SplineFile.c346_version_one`
* `Nalu.InitConst.c347_bucket`
* `Nalu.InitConst.c347_foreign`
* `Nalu.InitConst.c347_last_wins`
* `Nalu.InitConst.c347_outside`
* `Nalu.InitConst.c347_overflow`
* `Nalu.InitConst.c347_setup`
* `Nalu.InitConst.c347_targets`
* `Nalu.InitConst.c347_untouched`
* `Nalu.NC.c348_after_solve`
* `Nalu.NC.c348_balanced`
* `Nalu.NC.c348_hydrostatic`
* `Nalu.NC.c348_mass`
* `Nalu.NC.c348_neither_density`
* `Nalu.NC.c348_opposite`
* `Nalu.NC.c348_rigid`
* `Nalu.NC.c348_uniform_density`
* `Nalu.P2.c349_hex_affine`
* `Nalu.P2.c349_hex_converged`
* `Nalu.P2.c349_hex_flat`
* `Nalu.P2.c349_start`
* `Nalu.P2.c349_tet_affine`
* `Nalu.P2.c349_tet_converged`
* `Nalu.P2.c349_tet_flat`
* `Nalu.P2.c349_tet_interpolate`
* `Nalu.P2.c350_affine`
* `Nalu.P2.c350_bulged`
* `Nalu.P2.c350_every_point`
* `Nalu.P2.c350_fixed_point`
* `Nalu.P2.c350_interpolate`
* `Nalu.P2.c350_not_perpendicular`
* `Nalu.P2.c350_step`
* `Nalu.WallAsm.c351_between`
* `Nalu.WallAsm.c351_model_quadratic`
* `Nalu.WallAsm.c351_partition`
* `Nalu.WallAsm.c351_periodic`
* `Nalu.WallAsm.c351_tke_quadratic`
* `Nalu.WallAsm.c351_tke_weighted_average`
* `Nalu.WallAsm.c351_weighted_average`
* `Nalu.WallAsm.c351_written`
* `Nalu.BcCheck.c352_all_processes`
* `Nalu.BcCheck.c352_goes_on`
* `Nalu.BcCheck.c352_interior`
* `Nalu.BcCheck.c352_misspelt`
* `Nalu.BcCheck.c352_not_collective`
* `Nalu.BcCheck.c352_opposing_not_covered`
* `Nalu.BcCheck.c352_order`
* `Nalu.BcCheck.c352_refused`
* `Nalu.XferMesh.c353_box`
* `Nalu.XferMesh.c353_box_inside`
* `Nalu.XferMesh.c353_coords`
* `Nalu.XferMesh.c353_coords_stale`
* `Nalu.XferMesh.c353_coords_still`
* `Nalu.XferMesh.c353_fields_world`
* `Nalu.XferMesh.c353_refusal_local`
* `Nalu.XferMesh.c353_values`
* `Nalu.XferMesh.c353_values_last`
