# Axioms of the theorems in MANIFEST.json

Output of `#print axioms`, collected by `tools/axioms.py`; 709 theorems.

## no axioms (5 theorems)

* C28: `Coeffs.C28_needs_mpol`
* C94: `Output.C94_status_not_injective`
* C103: `PyFiles.C103_input_json_fails`, `PyFiles.C103_indata_fails`, `PyFiles.C103_convert_fails`

## `propext` (11 theorems)

* C25: `Resize.C25_short_axis_ub`
* C37: `PyInput.C37_out_of_range_dropped`
* C41: `Coils.C41_columns`
* C43: `HotRestart.C43_accepts_matching`, `HotRestart.C43_nfp_unchecked`
* C98: `PyJson.C98_scalar_fails`
* C103: `PyFiles.C103_context_fails`
* C115: `Race.C115_barrier_needed`
* C119: `Bounds.C119_two_surfaces_out_of_range`
* C120: `Views.C120_moved_from_spans_alias`, `Views.C120_assignment_keeps_the_sizes`

## `Quot.sound`, `propext` (47 theorems)

* C05: `Partition.C05_vacuum_threads`
* C25: `Resize.C25_identity`, `Resize.C25_python_2d_rejects`
* C35: `Mgrid.C35_fixed`, `Mgrid.C35_single_point_not_a_number`
* C36: `Mgrid.C36_fields_rejected_unchanged`, `Mgrid.C36_file_rejected_unchanged_partial`
* C37: `PyInput.C37_sparse_to_dense`, `PyInput.C37_rejects`
* C39: `PyDriver.C39_damping_partial`, `PyDriver.C39_damping_start`
* C41: `Coils.C41_nothing_lost`, `Coils.C41_imported_wound`
* C50: `PyInput.C50_carried_partial`, `PyInput.C50_nothing_invented`, `PyInput.C50_axis_lost`
* C81: `Radial.C81_range`
* C98: `PyJson.C98_standard`, `PyJson.C98_empty_int_fails`, `PyJson.C98_empty_rows_fails`, `PyJson.C98_union_fails`, `PyJson.C98_ragged_fails`
* C103: `PyFiles.C103_names`, `PyFiles.C103_refused`, `PyFiles.C103_wout`, `PyFiles.C103_wout_refused`, `PyFiles.C103_same_output`, `PyFiles.C103_indata_name`, `PyFiles.C103_cli_partial`, `PyFiles.C103_result_lost`, `PyFiles.C103_convert`, `PyFiles.C103_convert_main`, `PyFiles.C103_context`
* C110: `OnlyCoils.C110_input`
* C111: `FieldTable.C111_import`, `FieldTable.C111_errors`, `FieldTable.C111_parameters`, `FieldTable.C111_tables`, `FieldTable.C111_identity`, `FieldTable.C111_ignored_fails`, `FieldTable.C111_stale_fails`, `FieldTable.C111_shared_fails`, `FieldTable.C111_file_fails`, `FieldTable.C111_wrap_fails`, `FieldTable.C111_nan_fails`
* C113: `PyWout.C113_snapshot_fails`
* C117: `Logger.C117_memory_fails`

## `Classical.choice`, `Quot.sound`, `propext` (646 theorems)

* C01: `Partition.C01_team_exists`, `Partition.C01_radial_split`
* C02: `Partition.C02_halo`
* C03: `Partition.C03_unique_half_point`, `Partition.C03_integrals`, `Partition.C03_thread_count_independent`
* C04: `Partition.C04_adjusted_thread_count`
* C05: `Partition.C05_split`
* C06: `Team.C06_residuals`, `Team.C06_residuals_no_partial_sum`, `Team.C06_preconditioned_residuals`, `Team.C06_initial_volume`, `Team.C06_energies_and_norms`
* C07: `Sizes.C07_sizes`
* C08: `Sizes.C08_average_const`, `Sizes.C08_reduced_eq_full`
* C09: `Fourier.C09_mode_table`, `Fourier.C09_table_sizes`, `Fourier.C09_python_table`
* C10: `Fourier.C10_index_bounds`, `Fourier.C10_cos_roundtrip`, `Fourier.C10_sin_roundtrip`, `Fourier.C10_cc_ss_roundtrip`, `Fourier.C10_sc_cs_roundtrip`
* C11: `Fourier.C11_cos_same_function`, `Fourier.C11_sin_same_function`
* C12: `Fourier.C12_even`, `Fourier.C12_odd`
* C13: `Tridiag.C13_thomas`, `Tridiag.C13_dominant`
* C14: `Control.C14_termination`, `Control.C14_attempt`, `Control.C14_loop_is_loop`
* C15: `Control.C15_success_partial`, `Control.C15_rollback_after_success`
* C16: `Control.C16_no_advance_after_nonfinite`, `Control.C16_not_success`
* C17: `Control.C17_escalation`, `Control.C17_give_up`
* C18: `Control.C18_time_step`
* C19: `Control.C19_rollback`, `Control.C19_final_state`
* C20: `Control.C20_vacuum_partial`, `Control.C20_soft_restart_partial`, `Control.C20_soft_restart_skipped`
* C21: `Control.C21_interval`, `Control.C21_no_zero_modulus`
* C22: `Jacobian.C22_verdict_partial`, `Jacobian.C22_threads_agree_partial`, `Jacobian.C22_no_false_alarm`, `Jacobian.C22_infinity_reported`, `Jacobian.C22_sign_change_reported_partial`, `Jacobian.C22_nan_missed`, `Jacobian.C22_depends_on_threads`, `Jacobian.C22_underflow_missed`
* C23: `Indata.C23_ok_iff`, `Indata.C23_returns_partial`, `Indata.C23_defined_partial`, `Indata.C23_missing_axis_ub`, `Indata.C23_short_tolerances_ub`, `Indata.C23_nan_accepted`, `Indata.C23_lengths_not_compared`
* C24: `Indata.C24_roundtrip_partial`, `Indata.C24_accepted_partial`, `Indata.C24_asymmetric_fails`, `Indata.C24_accepted_asymmetric_fails`, `Indata.C24_asymmetric_witness`
* C25: `Resize.C25_set_mpol_ntor`, `Resize.C25_grow_and_shrink`, `Resize.C25_python_2d`, `Resize.C25_python_1d`, `Resize.C25_python_validated`
* C26: `Boundary.C26_surface`, `Boundary.C26_symmetric`, `Boundary.C26_shift_gauge`
* C27: `Boundary.C27_flip_surface`, `Boundary.C27_flip_involution`, `Boundary.C27_setup_sign`
* C28: `Boundary.C28_boundary_undo`, `Boundary.C28_boundary_others`, `Boundary.C28_boundary_constraint`, `Coeffs.C28_state_undo`, `Coeffs.C28_state_redo`, `Coeffs.C28_state_others`, `Coeffs.C28_state_constraint`, `Coeffs.C28_force_isometry`
* C29: `Coeffs.C29_interpolation`, `Coeffs.C29_boundary`, `Coeffs.C29_axis`, `Coeffs.C29_lambda`
* C30: `Profiles.C30_power_series`, `Profiles.C30_power_series_integrated`, `Profiles.C30_power_series_i`, `Profiles.C30_torflux_hasDerivAt`, `Profiles.C30_torflux_integral`, `Profiles.C30_enclosed_flux`, `Profiles.C30_flux_map_partial`, `Profiles.C30_flux_map_not_normalised`
* C31: `Profiles.C31_knots_and_clamp_partial`, `Profiles.C31_actual`, `Profiles.C31_only_constant`, `Profiles.C31_not_interpolant`, `Profiles.C31_integrated_actual`, `Profiles.C31_integrated_partial`, `Profiles.C31_integrated_error`, `Profiles.C31_integrated_wrong`, `Profiles.C31_integrated_ub`, `Profiles.C31_integrated_axis`
* C32: `Profiles.C32_interpolates`, `Profiles.C32_integrated_hasDerivAt`, `Profiles.C32_integrated_partial`, `Profiles.C32_integrated_drops`
* C33: `Profiles.C33_interpolates`, `Profiles.C33_continuous_slope`, `Profiles.C33_integrated_hasDerivAt`, `Profiles.C33_integrated`, `Profiles.C33_integrated_continuous`
* C34: `Profiles.C34_known_name`, `Profiles.C34_result`, `Profiles.C34_documented_partial`, `Profiles.C34_allowed_is_evaluated`, `Profiles.C34_unknown_name_is_zero`, `Profiles.C34_unimplemented_is_zero`
* C35: `Mgrid.C35_bilinear`, `Mgrid.C35_every_cell`, `Mgrid.C35_range`, `Mgrid.C35_affine_exact`, `Mgrid.C35_nodes_exact`, `Mgrid.C35_interpolate`, `Mgrid.C35_run_check_partial`, `Mgrid.C35_raised_nzeta_reads_outside`
* C36: `Mgrid.C36_file_superposition`, `Mgrid.C36_fields_superposition`, `Mgrid.C36_linear`, `Mgrid.C36_failed_load_breaks_field`, `Mgrid.C36_failed_load_wipes_field`, `Mgrid.C36_unchecked_component`
* C37: `PyInput.C37_read_field`, `PyInput.C37_roundtrip`, `PyInput.C37_roundtrip_explicit`
* C38: `Contin.C38_carries_solution`, `Contin.C38_shared_modes`, `Contin.C38_roundtrip`, `Contin.C38_driver`, `Contin.C38_schedule`, `Contin.C38_nfp_and_lasym_not_checked`, `Contin.C38_unrelated_arrays_resampled`
* C39: `PyDriver.C39_partial`, `PyDriver.C39_usable_jacobian_partial`, `PyDriver.C39_late_jacobian`, `PyDriver.C39_slow_jacobian`, `PyDriver.C39_parvmec_jacobian`, `PyDriver.C39_converged_at_75`, `PyDriver.C39_velocity_kept`, `PyDriver.C39_zero_residual`, `PyDriver.C39_free_boundary`
* C40: `Team.C40_together_partial`, `Team.C40_no_hang_partial`, `Team.C40_bad_jacobian_reported`, `Team.C40_lost_error_hangs`
* C41: `Coils.C41_block`, `Coils.C41_file`, `Coils.C41_import_defined`, `Coils.C41_windings`, `Coils.C41_unfinished_filament_dropped`, `Coils.C41_second_block_misfiled`, `Coils.C41_empty_circuit_ub`, `Coils.C41_zero_windings_divide`, `Coils.C41_unset_windings_lost`
* C42: `TimeStep.C42_step`, `TimeStep.C42_race_free`, `TimeStep.C42_agree`, `TimeStep.C42_run`, `TimeStep.C42_team_independent`, `TimeStep.C42_exists`
* C43: `HotRestart.C43_accepts_partial`, `HotRestart.C43_roundtrip_partial`, `HotRestart.C43_boundary_from_input`, `HotRestart.C43_asymmetric_dropped`
* C44: `AxisGuess.C44_every_plane_partial`, `AxisGuess.C44_search_partial`, `AxisGuess.C44_search_symmetry_plane`, `AxisGuess.C44_search_fails`, `AxisGuess.C44_transform`, `AxisGuess.C44_odd_plane_missing`, `AxisGuess.C44_asym_planes_missing`, `AxisGuess.C44_asym_half_missing`, `AxisGuess.C44_tie_mixes_points`
* C45: `Multigrid.C45_safe_and_team_independent`, `Multigrid.C45_linear_data`, `Multigrid.C45_kept_surfaces`, `Multigrid.C45_boundary`, `Multigrid.C45_range_partial`, `Multigrid.C45_cubic_data`, `Multigrid.C45_cubic_overshoots`
* C46: `Kernels.C46_force_density`, `Kernels.C46_lambda_force`, `Kernels.C46_lambda_preconditioner`, `Kernels.C46_evaluation`, `Kernels.C46_thread_count`, `Kernels.C46_energies`, `Kernels.C46_force_norms`, `Kernels.C46_radial_preconditioner`, `Kernels.C46_force_balance`, `Kernels.C46_force_balance_value`, `Kernels.C46_constraint_multiplier`
* C47: `Transform.C47_geometry`, `Transform.C47_forces`
* C48: `Coeffs.C48_mask_exact`, `Coeffs.C48_mask_idempotent`, `Coeffs.C48_default_noop`, `Coeffs.C48_step_exact`
* C49: `Control.C49_order`, `Control.C49_success`, `Control.C49_last_tolerance`
* C51: `Control.C51_lambda_scale_partial`, `Control.C51_repeated_resolution`
* C52: `Boundary.C52_gauge_without_flip_partial`, `Boundary.C52_gauge_lost_by_flip`, `Boundary.C52_flip_example`
* C53: `Profiles.C53_nice_quadratic`, `Profiles.C53_two_power`, `Profiles.C53_two_power_antitone`, `Profiles.C53_gauss_trunc`, `Profiles.C53_two_lorentz`, `Profiles.C53_two_power_gs`, `Profiles.C53_pedestal_pressure`, `Profiles.C53_pedestal_step`, `Profiles.C53_pedestal_current`, `Profiles.C53_rational`, `Profiles.C53_sum_atan_limit_partial`, `Profiles.C53_sum_atan_jump`
* C54: `Profiles.C54_cubic_C2`, `Profiles.C54_end_slopes`, `Profiles.C54_reproduces_quadratics`
* C55: `Profiles.C55_reproduces_lines`, `Profiles.C55_reflection`
* C56: `Contin.C56_agree_partial`, `Contin.C56_differs`, `Contin.C56_sqrt_linear_lost`
* C57: `Makegrid.C57_table_partial`, `Makegrid.C57_superposition_partial`, `Makegrid.C57_grid_accepted`, `Makegrid.C57_mirror_reads_computed`, `Makegrid.C57_unsymmetric_range`
* C58: `Makegrid.C58_straight`, `Makegrid.C58_on_wire`, `Makegrid.C58_linear`
* C59: `Kernels.C59_gradient`, `Kernels.C59_team`, `Kernels.C59_energy`
* C60: `Kernels.C60_current`, `Kernels.C60_iota`, `Kernels.C60_flux`
* C61: `Kernels.C61_metric`
* C62: `Kernels.C62_gradient`, `Kernels.C62_even_partial`, `Kernels.C62_odd_error`, `Kernels.C62_odd_differs`
* C63: `Transform.C63_geometry`, `Transform.C63_constraint`
* C64: `Transform.C64_transpose`, `Transform.C64_transpose_lambda`, `Transform.C64_geometry`, `Transform.C64_gradient`
* C65: `Transform.C65_geometry_partial`, `Transform.C65_constraint_partial`, `Transform.C65_forces_partial`, `Transform.C65_gradient_partial`, `Transform.C65_other_surface`, `Transform.C65_two_planes_wrong`
* C66: `Indata.C66_returns_partial`, `Indata.C66_accepted`, `Indata.C66_negative_mode_ub`, `Indata.C66_smallest_mode_ub`, `Indata.C66_negative_resolution_ub`, `Indata.C66_missing_axis_throws`, `Indata.C66_integers_wrap`
* C67: `Indata.C67_roundtrip_partial`, `Indata.C67_documented_partial`, `Indata.C67_asymmetric_ub`, `Indata.C67_stale_arrays`, `Indata.C67_nul_truncated`
* C68: `Asym.C68_geometry`, `Asym.C68_constraint`
* C69: `Asym.C69_transpose`, `Asym.C69_transpose_lambda`, `Asym.C69_gradient`
* C70: `Constraint.C70_filter`, `Constraint.C70_bandpass`
* C71: `Constraint.C71_gradient`, `Constraint.C71_gradient_asym`, `Constraint.C71_penalty`
* C72: `Nestor.C72_forward`, `Nestor.C72_second`, `Nestor.C72_backward`, `Nestor.C72_roots`
* C73: `Nestor.C73_coefficients`
* C74: `Nestor.Ctx.C74_bvec_partial`, `Nestor.Ctx.C74_grpmn_partial`, `Nestor.Ctx.C74_redundant`, `Nestor.Ctx.C74_counterexample`
* C75: `Nestor.GCtx.C75_greenp`, `Nestor.GCtx.C75_axisymmetric`, `Nestor.GCtx.C75_subtracted`
* C76: `Nestor.SCtx.C76_series`, `Nestor.SCtx.C76_points`, `Nestor.SCtx.C76_normal`, `Nestor.SCtx.C76_forms`, `Nestor.SCtx.C76_describes`, `Nestor.SCtx.C76_quadratic`, `Nestor.SCtx.C76_green`
* C77: `Nestor.Net.C77_transform`, `Nestor.Net.C77_matrix`, `Nestor.Net.C77_redundant`, `Nestor.Net.C77_equation`
* C78: `Nestor.Net.C78_sine_rows_partial`, `Nestor.Net.C78_even_partial`, `Nestor.Net.C78_sine_rows_fail`
* C79: `Nestor.C79_axis`, `Nestor.C79_segment`, `Nestor.SCtx.C79_components`
* C80: `Nestor.SCtx.C80_potential`, `Nestor.SCtx.C80_field`, `Nestor.Net.C80_net`
* C81: `Radial.C81_form`, `Radial.C81_definite`, `Radial.C81_solution`, `Radial.C81_basis`, `Radial.C81_updown`
* C82: `Output.C82_gather`
* C83: `Output.C83_blending`, `Output.C83_current`, `Output.C83_flux_partial`, `Output.C83_flux_fails`
* C84: `Output.C84_geometry`, `Output.C84_geometry_asym`, `Output.C84_axis`, `Output.C84_lambda_half`
* C85: `Output.C85_basis`, `Output.C85_field`, `Output.C85_full_partial`, `Output.C85_full_fails`
* C86: `Output.C86_filter`, `Output.C86_derivatives_partial`, `Output.C86_exact`, `Output.C86_lasym_s_fails`, `Output.C86_lasym_derivative_fails`
* C87: `Output.C87_current_partial`, `Output.C87_radial_current_fails`, `Output.C87_force`, `Output.C87_parallel`, `Output.C87_bounds`, `Output.C87_perpendicular_partial`, `Output.C87_perpendicular_fails`, `Output.C87_ends_partial`, `Output.C87_ends_fails`
* C88: `Output.MercierIn.C88_gradient`, `Output.MercierIn.C88_mercier`, `Output.MercierIn.C88_signs`, `Output.C88_reversal`, `Output.MercierIn.C88_flux_partial`, `Output.MercierIn.C88_flux_fails`
* C89: `Output.C89_symmetric_partial`, `Output.C89_asymmetric_partial`, `Output.C89_full_mean`, `Output.C89_absB`, `Output.C89_odd_fails`
* C90: `Output.C90_ampere_partial`, `Output.CurrIn.C90_enclosed`, `Output.CurrIn.C90_divergence`, `Output.CurrIn.C90_ends_partial`, `Output.CurrIn.C90_ends_fails`
* C91: `Output.TableIn.C91_beta`, `Output.TableIn.C91_force`, `Output.TableIn.C91_balance`, `Output.TableIn.C91_volume_partial`, `Output.TableIn.C91_volume_fails`, `Output.TableIn.C91_flux`, `Output.TableIn.C91_psi`, `Output.TableIn.C91_chi_fails`, `Output.TableIn.C91_full_grid`, `Output.TableIn.C91_current`, `Output.TableIn.C91_ends_partial`, `Output.TableIn.C91_ends_fails`
* C92: `Output.C92_area`, `Output.C92_volume_partial`, `Output.C92_volume_fails`, `Output.C92_surface_element`, `Output.C92_circular`, `Output.C92_elongation`, `Output.C92_extent`, `Output.C92_zmax_partial`, `Output.C92_zmax_fails`, `Output.C92_zmax_fails_symmetric`, `Output.C92_field`, `Output.C92_waist_partial`, `Output.C92_waist_fails`, `Output.C92_planes_fail`, `Output.C92_height_partial`, `Output.average_exact`, `Output.series_trig`
* C93: `Output.GeomIn.C93_energies`, `Output.GeomIn.C93_energies_nonneg`, `Output.GeomIn.C93_betas`, `Output.GeomIn.C93_averages`, `Output.GeomIn.C93_flux`, `Output.GeomIn.C93_diamagnetic`, `Output.GeomIn.C93_parallel`
* C94: `Output.C94_coefficients`, `Output.C94_knots`, `Output.C94_status`, `Output.C94_status_partial`, `Output.C94_wdot`, `Output.C94_wdot_partial`, `Output.C94_wdot_wrong`, `Output.C94_wdot_counterexample`, `Output.C94_q_factor`, `Output.C94_half_grid`, `Output.C94_axis_coefficients`, `Output.C94_axis`, `Output.C94_total`
* C95: `Output.ShafIn.C95_free_boundary`, `Output.ShafIn.C95_fixed_boundary`, `Output.ShafIn.C95_surface_element`, `Output.ShafIn.C95_sums`, `Output.ShafIn.C95_table`, `Output.ShafIn.C95_factor`, `Output.ShafIn.C95_volume_integrals`, `Output.ShafIn.C95_rshaf`, `Output.ShafIn.C95_uniform_partial`, `Output.ShafIn.C95_rshaf_bounds`, `Output.ShafIn.C95_scaling_partial`, `Output.C95_scaling_fails`
* C96: `Output.C96_extent_partial`, `Output.C96_shape_partial`, `Output.C96_bounds_partial`, `Output.C96_axisymmetric`, `Output.C96_parallel`, `Output.C96_no_current`, `Output.C96_extent_fails`, `Output.C96_plane_fails`
* C97: `PyOutput.C97_roundtrip_partial`, `PyOutput.C97_load_partial`, `PyOutput.C97_defaults`, `PyOutput.C97_padding_fails`, `PyOutput.C97_empty_fails`, `PyOutput.C97_two_empty_fails`, `PyOutput.C97_default_fails`, `PyOutput.C97_ascii_fails`, `PyOutput.C97_strip_fails`
* C98: `PyJson.C98_roundtrip_partial`, `PyJson.C98_numbers`, `PyJson.C98_whole_fails`
* C99: `Coeffs.C99_surface`, `Coeffs.C99_gauge`, `Coeffs.C99_bounds`, `Coeffs.C99_average`, `Coeffs.C99_average_bounds`
* C100: `PyModel.C100_set_get`, `PyModel.C100_get_set`, `PyModel.C100_length`, `PyModel.C100_layout`, `PyModel.C100_step`, `PyModel.C100_hvp_partial`, `PyModel.C100_quadratic_partial`, `PyModel.C100_homogeneous_partial`, `PyModel.C100_stale_fails`, `PyModel.C100_restore_fails`, `PyModel.C100_direction_fails`, `PyModel.C100_memory_fails`
* C101: `Coeffs.C101_team`, `Coeffs.C101_zero`, `Coeffs.C101_isometry`, `Coeffs.C101_virtual_work_partial`, `Coeffs.C101_gradient_fails`, `Coeffs.C101_gauge`, `Coeffs.C101_force`, `Coeffs.C101_m1_weights`, `Coeffs.C101_lambda_scaling`, `Coeffs.C101_norm`
* C102: `Profiles.C102_half_grid`, `Profiles.C102_full_grid`, `Profiles.C102_staggering`, `Profiles.C102_lamscale`, `Profiles.C102_no_reset`, `Profiles.C102_thread_independent`, `Profiles.C102_current_partial`, `Profiles.C102_current_dropped`, `Profiles.C102_pedestal`, `Profiles.C102_flip_fails`, `Profiles.C102_axis_stale`, `Profiles.C102_polflux`
* C103: `PyFiles.C103_indata`
* C104: `Profiles.C104_knots`, `Profiles.C104_refused`, `Profiles.C104_exact_partial`, `Profiles.C104_arrays`, `Profiles.C104_outside`, `Profiles.C104_between`, `Profiles.C104_jump`, `Profiles.C104_flux_fails`, `Profiles.C104_rounding_fails`, `Profiles.C104_current_zero`
* C105: `PySimsopt.C105_fresh`, `PySimsopt.C105_history`, `PySimsopt.C105_once`, `PySimsopt.C105_wout_object`, `PySimsopt.C105_edit_stale`, `PySimsopt.C105_mean_iota`, `PySimsopt.C105_mean_shear`, `PySimsopt.C105_vacuum_well`, `PySimsopt.C105_external_current`
* C106: `Makegrid.C106_contents`, `Makegrid.C106_roundtrip`, `Makegrid.C106_small_table_ub`, `Makegrid.C106_other_grid_accepted`, `Makegrid.C106_currents_one`, `Makegrid.C106_currents_lack_windings`, `Makegrid.C106_half_field`, `Makegrid.C106_mode_number_ub`, `Makegrid.C106_float_tables`
* C107: `CoilGeom.C107_scaleTo`, `CoilGeom.C107_frame_partial`, `CoilGeom.C107_orthonormal_iff`, `CoilGeom.C107_frame_not_unit`, `CoilGeom.C107_frame_zero`, `CoilGeom.C107_vertex`, `CoilGeom.C107_vertex_compose`, `CoilGeom.C107_vertex_back`, `CoilGeom.C107_config`, `CoilGeom.C107_refused`, `CoilGeom.C107_circle_aborts`, `CoilGeom.C107_half_moved`, `CoilGeom.C107_negative_radius`, `CoilGeom.C107_past_axis`, `CoilGeom.C107_on_axis`
* C108: `CoilGeom.C108_complete`, `CoilGeom.C108_roundtrip`, `CoilGeom.C108_incomplete`, `CoilGeom.C108_rewrite`, `CoilGeom.C108_digits_lost`, `CoilGeom.C108_shift`, `CoilGeom.C108_header_only`, `CoilGeom.C108_carriage_return`, `CoilGeom.C108_tangent`, `CoilGeom.C108_integral`, `CoilGeom.C108_wire`, `CoilGeom.C108_superposition`, `CoilGeom.C108_same_curve`, `CoilGeom.C108_no_periods`, `CoilGeom.C108_negative_modes`, `CoilGeom.C108_not_periodic`
* C109: `FreeBound.C109_handover`, `FreeBound.C109_axis`, `FreeBound.C109_same_point`, `FreeBound.C109_edge`, `FreeBound.C109_elsewhere`, `FreeBound.C109_force`, `FreeBound.C109_delbsq`, `FreeBound.C109_check`, `FreeBound.C109_check_fails`, `FreeBound.C109_reference`, `FreeBound.C109_reference_vanishes`, `FreeBound.C109_two_surfaces_fails`
* C110: `OnlyCoils.C110_field`, `OnlyCoils.C110_points`, `OnlyCoils.C110_net`, `OnlyCoils.C110_nestor`, `OnlyCoils.C110_current_fails`
* C112: `OutputIo.C112_result`, `OutputIo.C112_roundtrip_partial`, `OutputIo.C112_old`, `OutputIo.C112_missing`, `OutputIo.C112_square_fails`, `OutputIo.C112_square_witness`, `OutputIo.C112_currents_fails`, `OutputIo.C112_unsaved_fails`, `OutputIo.C112_labels_fails`
* C113: `PyWout.C113_shows`, `PyWout.C113_accepted_iff`, `PyWout.C113_hands`, `PyWout.C113_restart`, `PyWout.C113_restart_state`, `PyWout.C113_back`, `PyWout.C113_back_partial`, `PyWout.C113_padded`, `PyWout.C113_others`, `PyWout.C113_snapshot_partial`, `PyWout.C113_hidden_fails`, `PyWout.C113_extra_fails`, `PyWout.C113_mode_fails`, `PyWout.C113_none_fails`
* C114: `TridiagOmp.C114_exclusive`, `TridiagOmp.C114_no_deadlock`, `TridiagOmp.C114_ends`, `TridiagOmp.C114_order`, `TridiagOmp.C114_result_partial`, `TridiagOmp.C114_serial_partial`, `TridiagOmp.C114_first_fails`, `TridiagOmp.C114_last_fails`
* C115: `Race.C115_no_race_partial`, `Race.C115_same_values_partial`, `Race.C115_roles`, `Race.C115_vacuum_no_race`
* C116: `Csv.C116_complete`, `Csv.C116_roundtrip_partial`, `Csv.C116_identity_partial`, `Csv.C116_surface_identity_partial`, `Csv.C116_accuracy`, `Csv.C116_read_curve`, `Csv.C116_read_surface`, `Csv.C116_digits_lost`, `Csv.C116_throws`, `Csv.C116_line_ends`
* C117: `Logger.C117_range`, `Logger.C117_meaning`, `Logger.C117_bar`, `Logger.C117_infinite`, `Logger.C117_memory`, `Logger.C117_silent`, `Logger.C117_screen`, `Logger.C117_skipped`
* C118: `ParFor.C118_progress`, `ParFor.C118_terminates`, `ParFor.C118_absB`, `ParFor.C118_half`, `ParFor.C118_full`, `ParFor.C118_serial`, `ParFor.C118_work_bounds`, `ParFor.C118_convert`, `ParFor.C118_mirror`, `ParFor.C118_middle_plane`
* C119: `Bounds.C119_no_access_out_of_range`, `Bounds.C119_one_mode_out_of_range`
* C120: `Views.C120_objects_behave_as_values`, `Views.C120_spans_show_own_arrays`, `Views.C120_no_leak`, `Views.C120_spans_fit_the_loops`, `Views.C120_restore_returns_the_saved_state`
* C121: `VacBounds.C121_no_access_out_of_range`, `VacBounds.C121_system_is_filled`, `VacBounds.C121_needs_nyquist_modes`
* C122: `VacSrc.C122_no_access_out_of_range`, `VacSrc.C122_every_other_point_once`, `VacSrc.C122_every_point_of_thread_once`
