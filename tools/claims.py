P = "Verif.Partition."
CLAIMS["C01"] = ("proved", [P+"C01_team_exists", P+"C01_radial_split"], "all ns >= 2, all admissible thread counts, both boundary modes")
CLAIMS["C02"] = ("proved", [P+"C02_halo"], "")
CLAIMS["C03"] = ("proved", [P+"C03_unique_half_point", P+"C03_integrals", P+"C03_thread_count_independent"], "sums in any commutative monoid (exact arithmetic)")
CLAIMS["C04"] = ("proved", [P+"C04_adjusted_thread_count"], "")
CLAIMS["C05"] = ("proved", [P+"C05_split", P+"C05_vacuum_threads"], "")
P = "Verif.Sizes."
CLAIMS["C07"] = ("proved", [P+"C07_sizes"], "")
CLAIMS["C08"] = ("proved", [P+"C08_average_const", P+"C08_reduced_eq_full"], "exact arithmetic")
P = "Verif.Fourier."
CLAIMS["C09"] = ("proved", [P+"C09_mode_table", P+"C09_table_sizes", P+"C09_python_table"], "")
CLAIMS["C10"] = ("proved", [P+"C10_index_bounds", P+"C10_cos_roundtrip", P+"C10_sin_roundtrip", P+"C10_cc_ss_roundtrip", P+"C10_sc_cs_roundtrip"], "any field of characteristic 0, both layouts")
CLAIMS["C11"] = ("proved", [P+"C11_cos_same_function", P+"C11_sin_same_function"], "over the reals")
CLAIMS["C12"] = ("proved", [P+"C12_even", P+"C12_odd"], "over the reals, solver grids of every accepted resolution")
P = "Verif.Tridiag."
CLAIMS["C13"] = ("proved", [P+"C13_thomas", P+"C13_dominant"], "any field; non-vanishing pivots expressed as non-vanishing leading principal minors; diagonal dominance shown sufficient")
P = "Verif.Control."
CLAIMS["C14"] = ("proved", [P+"C14_termination", P+"C14_attempt", P+"C14_loop_is_loop"], "one stage: at most 4 attempts of at most niter evaluations; the number of stages is the length of the schedule (C49)")
CLAIMS["C15"] = ("partial", [P+"C15_success_partial", P+"C15_rollback_after_success"], "the first half is proved; the second half (state handed on is the evaluated one) holds unless a rollback follows the evaluation, and the code does that: proved counterexample")
CLAIMS["C16"] = ("proved", [P+"C16_no_advance_after_nonfinite", P+"C16_not_success"], "")
CLAIMS["C17"] = ("proved", [P+"C17_escalation", P+"C17_give_up"], "one more force evaluation is made after the counter reached 75; it cannot lead to success")
CLAIMS["C18"] = ("proved", [P+"C18_time_step"], "exact arithmetic")
CLAIMS["C19"] = ("proved", [P+"C19_rollback", P+"C19_final_state"], "team view of the state: the per-thread slices are covered by C01/C02")
CLAIMS["C20"] = ("partial", [P+"C20_vacuum_partial", P+"C20_soft_restart_partial", P+"C20_soft_restart_skipped"], "proved except that a continuation stage can skip the soft restart (proved counterexample)")
CLAIMS["C21"] = ("proved", [P+"C21_interval", P+"C21_no_zero_modulus"], "")
CLAIMS["C49"] = ("proved", [P+"C49_order", P+"C49_success", P+"C49_last_tolerance"], "for schedules with at least one usable entry, which the input check guarantees")
CLAIMS["C51"] = ("partial", [P+"C51_lambda_scale_partial", P+"C51_repeated_resolution"], "proved for strictly increasing schedules; false for repeated resolutions (proved counterexample)")
P = "Verif.Team."
CLAIMS["C06"] = ("proved", [P+"C06_residuals", P+"C06_residuals_no_partial_sum", P+"C06_preconditioned_residuals", P+"C06_initial_volume", P+"C06_energies_and_norms"], "interleaving machine with barriers, single and critical regions; exact arithmetic; every schedule")
CLAIMS["C40"] = ("partial", [P+"C40_together_partial", P+"C40_no_hang_partial", P+"C40_bad_jacobian_reported", P+"C40_lost_error_hangs"], "proved for all schedules if the constraint-multiplier error is met by all threads or by none; an error met by some threads only hangs every execution (proved)")
P = "Verif.Jacobian."
CLAIMS["C22"] = ("partial", [P+"C22_verdict_partial", P+"C22_threads_agree_partial", P+"C22_no_false_alarm", P+"C22_infinity_reported", P+"C22_sign_change_reported_partial", P+"C22_nan_missed", P+"C22_depends_on_threads", P+"C22_underflow_missed"], "exact verdict proved without NaN, without surfaces of identically zero Jacobian and without underflow; each exception is a proved counterexample")
P = "Verif.Boundary."
CLAIMS["C26"] = ("proved", [P+"C26_surface", P+"C26_symmetric", P+"C26_shift_gauge"], "over the reals, all angles")
CLAIMS["C27"] = ("proved", [P+"C27_flip_surface", P+"C27_flip_involution", P+"C27_setup_sign"], "over the reals, all angles")
CLAIMS["C52"] = ("partial", [P+"C52_gauge_without_flip_partial", P+"C52_gauge_lost_by_flip", P+"C52_flip_example"], "proved when the poloidal angle is not flipped; false when it is flipped (proved counterexample)")
Q = P
P = "Verif.Coeffs."
CLAIMS["C28"] = ("proved", [Q+"C28_boundary_undo", Q+"C28_boundary_others", Q+"C28_boundary_constraint", P+"C28_state_undo", P+"C28_state_redo", P+"C28_state_others", P+"C28_state_constraint", P+"C28_force_isometry", P+"C28_needs_mpol"], "exact arithmetic; mpol >= 2, which the input check requires and which is shown to be needed")
CLAIMS["C29"] = ("proved", [P+"C29_interpolation", P+"C29_boundary", P+"C29_axis", P+"C29_lambda"], "over the reals")
CLAIMS["C48"] = ("proved", [P+"C48_mask_exact", P+"C48_mask_idempotent", P+"C48_default_noop", P+"C48_step_exact"], "")
P = "Verif.HotRestart."
CLAIMS["C43"] = ("partial", [P+"C43_accepts_partial", P+"C43_accepts_matching", P+"C43_nfp_unchecked", P+"C43_roundtrip_partial", P+"C43_boundary_from_input", P+"C43_asymmetric_dropped"], "shapes and round trip of the stellarator-symmetric geometry proved; the asymmetric part is not read at all and nfp is not compared (proved counterexamples)")
P = "Verif.Resize."
CLAIMS["C25"] = ("proved", [P+"C25_set_mpol_ntor", P+"C25_identity", P+"C25_grow_and_shrink", P+"C25_short_axis_ub", P+"C25_python_2d", P+"C25_python_2d_rejects", P+"C25_python_1d", P+"C25_python_validated"], "for inputs whose arrays have the declared shapes (shown to be needed: too short arrays are read out of bounds)")
P = "Verif.Profiles."
CLAIMS["C30"] = ("partial", [P+"C30_power_series", P+"C30_power_series_integrated", P+"C30_power_series_i", P+"C30_torflux_hasDerivAt", P+"C30_torflux_integral", P+"C30_enclosed_flux", P+"C30_flux_map_partial", P+"C30_flux_map_not_normalised"], "all polynomial and integral statements proved over the reals; the flux map is 1 at 1 only if the coefficients sum to one (proved counterexample), the enclosed flux is right in any case")
CLAIMS["C31"] = ("partial", [P+"C31_knots_and_clamp_partial", P+"C31_actual", P+"C31_only_constant", P+"C31_not_interpolant", P+"C31_integrated_actual", P+"C31_integrated_partial", P+"C31_integrated_error", P+"C31_integrated_wrong", P+"C31_integrated_ub", P+"C31_integrated_axis"], "exact at the knots and clamped; between the knots the code evaluates the wrong segment, and the integrated version is wrong between knots, not finite on the axis and reads out of bounds beyond the last knot (all proved)")
CLAIMS["C32"] = ("partial", [P+"C32_interpolates", P+"C32_integrated_hasDerivAt", P+"C32_integrated_partial", P+"C32_integrated_drops"], "everything proved on the closed knot range; beyond the last knot the integrated profile jumps to 0 (proved)")
CLAIMS["C33"] = ("proved", [P+"C33_interpolates", P+"C33_continuous_slope", P+"C33_integrated_hasDerivAt", P+"C33_integrated", P+"C33_integrated_continuous"], "over the reals, strictly increasing knots")
CLAIMS["C34"] = ("partial", [P+"C34_known_name", P+"C34_result", P+"C34_documented_partial", P+"C34_allowed_is_evaluated", P+"C34_unknown_name_is_zero", P+"C34_unimplemented_is_zero"], "names resolve correctly; unknown, not allowed and unimplemented names silently give a zero profile (proved)")
CLAIMS["C53"] = ("partial", [P+"C53_nice_quadratic", P+"C53_two_power", P+"C53_two_power_antitone", P+"C53_gauss_trunc", P+"C53_two_lorentz", P+"C53_two_power_gs", P+"C53_pedestal_pressure", P+"C53_pedestal_step", P+"C53_pedestal_current", P+"C53_rational", P+"C53_sum_atan_limit_partial", P+"C53_sum_atan_jump"], "sum_atan jumps at the edge (proved); quadrature error of the integrated forms not covered")
CLAIMS["C54"] = ("proved", [P+"C54_cubic_C2", P+"C54_end_slopes", P+"C54_reproduces_quadratics"], "over the reals")
CLAIMS["C55"] = ("proved", [P+"C55_reproduces_lines", P+"C55_reflection"], "over the reals")
P = "Verif.Mgrid."
CLAIMS["C35"] = ("partial", [P+"C35_bilinear", P+"C35_every_cell", P+"C35_range", P+"C35_affine_exact", P+"C35_nodes_exact", P+"C35_interpolate", P+"C35_fixed", P+"C35_run_check_partial", P+"C35_raised_nzeta_reads_outside", P+"C35_single_point_not_a_number"], "exact arithmetic; everything proved when the table has at least as many planes as the solver grid; the check before a run compares with the requested and not with the raised resolution, so the table can be read out of bounds (proved)")
CLAIMS["C36"] = ("partial", [P+"C36_file_superposition", P+"C36_fields_superposition", P+"C36_linear", P+"C36_fields_rejected_unchanged", P+"C36_file_rejected_unchanged_partial", P+"C36_failed_load_breaks_field", P+"C36_failed_load_wipes_field", P+"C36_unchecked_component"], "superposition proved for every successful load; a file rejected after its header has been read damages the loaded field (proved counterexamples)")
P = "Verif.PyInput."
CLAIMS["C37"] = ("partial", [P+"C37_sparse_to_dense", P+"C37_rejects", P+"C37_read_field", P+"C37_roundtrip", P+"C37_roundtrip_explicit", P+"C37_out_of_range_dropped"], "round trip and rejection with a given resolution proved; when an input file is validated, modes beyond mpol or ntor are dropped with a logged warning only (proved)")
CLAIMS["C50"] = ("partial", [P+"C50_carried_partial", P+"C50_nothing_invented", P+"C50_axis_lost"], "everything but the axis is carried over; the axis is lost for every input (proved); text formatting not modelled")
P = "Verif.Multigrid."
CLAIMS["C45"] = ("partial", [P+"C45_safe_and_team_independent", P+"C45_linear_data", P+"C45_kept_surfaces", P+"C45_boundary", P+"C45_range_partial", P+"C45_cubic_data", P+"C45_cubic_overshoots"], "everything proved for all grids, teams and schemes; the range clause holds for the (default) linear scheme and is false for the cubic schemes (proved counterexample); reals instead of doubles")
P = "Verif.Contin."
CLAIMS["C38"] = ("proved", [P+"C38_carries_solution", P+"C38_shared_modes", P+"C38_roundtrip", P+"C38_driver", P+"C38_schedule", P+"C38_nfp_and_lasym_not_checked", P+"C38_unrelated_arrays_resampled"], "for outputs as the solver writes them; also proved: nfp and lasym of the target are not compared with the source, and arrays that merely have length ns are resampled")
CLAIMS["C56"] = ("partial", [P+"C56_agree_partial", P+"C56_differs", P+"C56_sqrt_linear_lost"], "agreement on shared surfaces, the axis and constant data; false in general (proved): the solver interpolates linearly in s, the Python code in sqrt(s)")
P = "Verif.TimeStep."
CLAIMS["C42"] = ("proved", [P+"C42_step", P+"C42_race_free", P+"C42_agree", P+"C42_run", P+"C42_team_independent", P+"C42_exists"], "all interleavings of the assignments between the barriers; exact reals; teams as InitializeRadial sets them up")
P = "Verif.AxisGuess."
CLAIMS["C44"] = ("partial", [P+"C44_every_plane_partial", P+"C44_search_partial", P+"C44_search_symmetry_plane", P+"C44_search_fails", P+"C44_transform", P+"C44_odd_plane_missing", P+"C44_asym_planes_missing", P+"C44_asym_half_missing", P+"C44_tie_mixes_points"], "holds for symmetric runs with an even number of planes or one plane; false for odd plane counts above one and for asymmetric runs (proved); the tie rule of the search can return a point with the wrong sign (proved); exact reals")
P = "Verif.Coils."
CLAIMS["C41"] = ("partial", [P+"C41_block", P+"C41_file", P+"C41_nothing_lost", P+"C41_import_defined", P+"C41_columns", P+"C41_windings", P+"C41_imported_wound", P+"C41_unfinished_filament_dropped", P+"C41_second_block_misfiled", P+"C41_empty_circuit_ub", P+"C41_zero_windings_divide", P+"C41_unset_windings_lost"], "import of one filament block proved (iff); normalisation proved for circuits with coils, set finite windings and a non-zero first winding; false for several blocks, unfinished filaments, empty circuits, zero or unset windings (proved); exact arithmetic")
P = "Verif.Makegrid."
CLAIMS["C57"] = ("partial", [P+"C57_table_partial", P+"C57_superposition_partial", P+"C57_grid_accepted", P+"C57_mirror_reads_computed", P+"C57_unsymmetric_range"], "proved for all grids and configurations; with assumed symmetry only for z ranges symmetric about the midplane, which the parameter check does not demand (counterexample proved); carrier fields linear in the current are a parameter; exact reals")
CLAIMS["C58"] = ("proved", [P+"C58_straight", P+"C58_on_wire", P+"C58_linear"], "exact reals; hypot as a square root")
P = "Verif.Kernels."
CLAIMS["C46"] = ("proved", [P+"C46_force_density", P+"C46_lambda_force", P+"C46_lambda_preconditioner", P+"C46_evaluation", P+"C46_thread_count", P+"C46_energies", P+"C46_force_norms", P+"C46_radial_preconditioner", P+"C46_force_balance", P+"C46_force_balance_value", P+"C46_constraint_multiplier"], "all teams InitializeRadial sets up, all array contents; no kernel leaves its arrays; also proved for the energies (the Jacobian must not change sign), force norms, radial preconditioner, radial force balance and constraint multiplier; exact reals")
CLAIMS["C59"] = ("proved", [P+"C59_gradient", P+"C59_team", P+"C59_energy"], "exact reals; in real space (values of R, Z and their derivatives at the grid points); at fixed fluxes")
CLAIMS["C60"] = ("proved", [P+"C60_current", P+"C60_iota", P+"C60_flux"], "exact reals; the current needs the surface average of guu/gsqrt to be non-zero (otherwise the code leaves the flux alone)")
CLAIMS["C61"] = ("proved", [P+"C61_metric"], "exact reals")
CLAIMS["C62"] = ("partial", [P+"C62_gradient", P+"C62_even_partial", P+"C62_odd_error", P+"C62_odd_differs"], "the exact gradient is derived; the even part agrees off the axis where nothing is blended; the odd part uses sqrt(s) of the surface and differs (proved), by at most the spacing of sqrt(s) times the field")
P = "Verif.Transform."
CLAIMS["C47"] = ("proved", [P+"C47_geometry", P+"C47_forces"], "for every transform library that computes the documented sums; stellarator-symmetric three-dimensional transforms; exact reals")
CLAIMS["C63"] = ("proved", [P+"C63_geometry", P+"C63_constraint"], "stellarator-symmetric three-dimensional transform; exact reals")
CLAIMS["C64"] = ("proved", [P+"C64_transpose", P+"C64_transpose_lambda", P+"C64_geometry", P+"C64_gradient"], "exact reals; without the constraint force and the vacuum pressure; displacements of the m >= 1 modes of the axis are excluded (the force transform has no such modes)")
CLAIMS["C65"] = ("partial", [P+"C65_geometry_partial", P+"C65_constraint_partial", P+"C65_forces_partial", P+"C65_gradient_partial", P+"C65_other_surface", P+"C65_two_planes_wrong"], "proved on one toroidal plane (nzeta <= 1) with mpol >= 2; false otherwise: with nzeta > 1 the grid points hold the values of another surface (C65_two_planes_wrong); stellarator-symmetric; exact reals")
P = "Verif.PyDriver."
CLAIMS["C39"] = ("partial", [P+"C39_partial", P+"C39_usable_jacobian_partial", P+"C39_damping_partial", P+"C39_damping_start", P+"C39_late_jacobian", P+"C39_slow_jacobian", P+"C39_parvmec_jacobian", P+"C39_converged_at_75", P+"C39_velocity_kept", P+"C39_zero_residual", P+"C39_free_boundary"], "simulation proved for fixed boundary runs whose Python run leaves no harmful note (no late or slow bad Jacobian, no zero residual, no convergence at 75 bad Jacobians, no re-guess after the first step); a second form with hypotheses on the forward model only; false in each excluded case (proved witnesses); residuals that are not negative; the damping history is part of the compared state")
P = "Verif.Indata."
CLAIMS["C23"] = ("partial", [P+"C23_ok_iff", P+"C23_returns_partial", P+"C23_defined_partial", P+"C23_missing_axis_ub", P+"C23_short_tolerances_ub", P+"C23_nan_accepted", P+"C23_lengths_not_compared"], "OK is returned exactly for the documented constraints (up to NaN, and without comparing array lengths); a status is returned whenever the arrays the check reads exist; false otherwise (proved witnesses: asymmetric input without its arrays, fewer tolerances than grids)")
CLAIMS["C24"] = ("partial", [P+"C24_roundtrip_partial", P+"C24_accepted_partial", P+"C24_asymmetric_fails", P+"C24_accepted_asymmetric_fails", P+"C24_asymmetric_witness"], "proved for symmetric inputs (given that the JSON library reads back what it wrote; textLayer_exists shows the assumption can be met); false for every asymmetric input: the text written for it is rejected")
CLAIMS["C66"] = ("partial", [P+"C66_returns_partial", P+"C66_accepted", P+"C66_negative_mode_ub", P+"C66_smallest_mode_ub", P+"C66_negative_resolution_ub", P+"C66_missing_axis_throws", P+"C66_integers_wrap"], "proved for documents without negative resolutions and poloidal modes whose asymmetric inputs come with their axis; false otherwise (proved witnesses); overflow of sizes and exhausted memory are not modelled; malformed text throws")
CLAIMS["C67"] = ("partial", [P+"C67_roundtrip_partial", P+"C67_documented_partial", P+"C67_asymmetric_ub", P+"C67_stale_arrays", P+"C67_nul_truncated"], "proved for symmetric inputs without NUL characters in strings, loaded into any object without asymmetric arrays; undefined behaviour for every asymmetric input (proved); stale arrays stay in the object (proved)")
P = "Verif.Asym."
CLAIMS["C68"] = ("proved", [P+"C68_geometry", P+"C68_constraint"], "three-dimensional transforms with lasym; exact reals")
CLAIMS["C69"] = ("proved", [P+"C69_transpose", P+"C69_transpose_lambda", P+"C69_gradient"], "exact reals; without the constraint force and the vacuum pressure; displacements of the m >= 1 modes of the axis are excluded (the force transform has no such modes)")
P = "Verif.Constraint."
CLAIMS["C70"] = ("proved", [P+"C70_filter", P+"C70_bandpass"], "exact reals; array bounds of the work arrays are not part of it")
CLAIMS["C71"] = ("proved", [P+"C71_gradient", P+"C71_gradient_asym", P+"C71_penalty"], "exact reals; references and multipliers held fixed (the solver updates them between iterations); without the vacuum pressure; stellarator-symmetric, or lasym with ntor >= 1")
P = "Verif.Nestor."
CLAIMS["C72"] = ("proved", [P+"C72_forward", P+"C72_second", P+"C72_backward", P+"C72_roots"], "exact reals; the forward branch is exact, the backward branch has a proved error bound before and after the rescaling to T_0")
P = 'Verif.Nestor.'
CLAIMS['C73'] = ('proved', [P+'C73_coefficients'], 'exact reals')
P = 'Verif.Nestor.'
CLAIMS['C74'] = ('partial', [P+'Ctx.C74_bvec_partial', P+'Ctx.C74_grpmn_partial', P+'Ctx.C74_redundant', P+'Ctx.C74_counterexample'], 'holds for the modes with m = 0 or n = 0; for m, n != 0 the code pairs T+ with m u - n v and T- with m u + n v, which is the integral for the metric with the sign of guv reversed (F67); proved for every regular point with guv > 0 to differ at m = n = 1. Forward branch of the recurrence (exact); exact reals')
P = 'Verif.Nestor.GCtx.'
CLAIMS['C75'] = ('proved', [P+'C75_greenp', P+'C75_axisymmetric', P+'C75_subtracted'], 'exact reals; the arrays of SurfaceGeometry are a parameter described by points and normal vectors')
P = 'Verif.Nestor.SCtx.'
CLAIMS['C76'] = ('proved', [P+'C76_series', P+'C76_points', P+'C76_normal', P+'C76_forms', P+'C76_describes', P+'C76_quadratic', P+'C76_green'], 'exact reals')
P = 'Verif.Nestor.Net.'
CLAIMS['C77'] = ('proved', [P+'C77_transform', P+'C77_matrix', P+'C77_redundant', P+'C77_equation'], 'exact reals; dgetrf/dgetrs are a relation (their result solves the system)')
P = 'Verif.Nestor.Net.'
CLAIMS['C78'] = ('partial', [P+'C78_sine_rows_partial', P+'C78_even_partial', P+'C78_sine_rows_fail'], 'F68: the rows of sines are not folded and use only the first half of the surface (proved what they hold); counterexample; right for integrands that are even under reflection')
P = ''
CLAIMS['C79'] = ('proved', [P+'Verif.Nestor.C79_axis', P+'Verif.Nestor.C79_segment', P+'Verif.Nestor.SCtx.C79_components'], 'exact reals; the interpolated field is a parameter (see the properties of MGridProvider); the loops over segments and points are exchanged')
P = ''
CLAIMS['C80'] = ('proved', [P+'Verif.Nestor.SCtx.C80_potential', P+'Verif.Nestor.SCtx.C80_field', P+'Verif.Nestor.Net.C80_net'], 'exact reals; modes below the number of grid points, as with mf = mpol + 1, nf = ntor')
P = ''
CLAIMS['C81'] = ('proved', [P+'Verif.Radial.C81_form', P+'Verif.Radial.C81_definite', P+'Verif.Radial.C81_solution', P+'Verif.Radial.C81_basis', P+'Verif.Radial.C81_updown', P+'Verif.Radial.C81_range'], 'exact reals; the sign conditions are hypotheses on the fields; for m = 1 also that the innermost cell resists a common motion of axis and first surface; C81_updown records that the matrix for the shift in Z with active vacuum is not definite (finding F69)')
P = ''
CLAIMS['C82'] = ('proved', [P+'Verif.Output.C82_gather'], 'exact reals; array bounds not modelled')
P = ''
CLAIMS['C83'] = ('partial', [P+'Verif.Output.C83_blending', P+'Verif.Output.C83_current', P+'Verif.Output.C83_flux_partial', P+'Verif.Output.C83_flux_fails'], 'proved for flux profiles linear in s; C83_flux_fails shows that the edge flux is wrong for other profiles (finding F70)')
P = ''
CLAIMS['C84'] = ('proved', [P+'Verif.Output.C84_geometry', P+'Verif.Output.C84_geometry_asym', P+'Verif.Output.C84_axis', P+'Verif.Output.C84_lambda_half'], 'exact reals; on the axis under the hypothesis that the coefficients with m, n >= 1 vanish there; the scan of mode numbers is C09')
P = ''
CLAIMS['C85'] = ('partial', [P+'Verif.Output.C85_basis', P+'Verif.Output.C85_field', P+'Verif.Output.C85_full_partial', P+'Verif.Output.C85_full_fails'], 'the extrapolation of B_s is proved for ns >= 4; C85_full_fails shows that it is wrong for ns = 3 (finding F71); exact reals')
P = ''
CLAIMS['C86'] = ('partial', [P+'Verif.Output.C86_filter', P+'Verif.Output.C86_derivatives_partial', P+'Verif.Output.C86_exact', P+'Verif.Output.C86_lasym_s_fails', P+'Verif.Output.C86_lasym_derivative_fails'], 'the values of the filter are proved in general, the derivatives without lasym; with lasym they are wrong (C86_lasym_s_fails, C86_lasym_derivative_fails, findings F72, F73); exact reals')
P = ''
CLAIMS['C87'] = ('partial', [P+'Verif.Output.C87_current_partial', P+'Verif.Output.C87_radial_current_fails', P+'Verif.Output.C87_force', P+'Verif.Output.C87_parallel', P+'Verif.Output.C87_bounds', P+'Verif.Output.C87_perpendicular_partial', P+'Verif.Output.C87_perpendicular_fails', P+'Verif.Output.C87_ends_partial', P+'Verif.Output.C87_ends_fails'], "Ampere's law is proved for itheta and izeta without lasym; jsups3 has the reversed sign (F74), the mixed term of jperp2 has the reversed sign (F75), the ends are wrong for ns = 3 (F76); exact reals")
P = ''
CLAIMS['C88'] = ('partial', [P+'Verif.Output.MercierIn.C88_gradient', P+'Verif.Output.MercierIn.C88_mercier', P+'Verif.Output.MercierIn.C88_signs', P+'Verif.Output.C88_reversal', P+'Verif.Output.MercierIn.C88_flux_partial', P+'Verif.Output.MercierIn.C88_flux_fails'], "the toroidal flux column is right only for a constant flux derivative (F77); exact reals; surfaces on which Phi' or the Jacobian vanishes are excluded")
P = ''
CLAIMS['C89'] = ('partial', [P+'Verif.Output.C89_symmetric_partial', P+'Verif.Output.C89_asymmetric_partial', P+'Verif.Output.C89_full_mean', P+'Verif.Output.C89_absB', P+'Verif.Output.C89_odd_fails'], 'proved for nZeta = 1 and for even nZeta; for odd nZeta >= 3 the coefficient of the highest toroidal mode is half of what it must be (F78, C89_odd_fails); exact reals')
P = ''
CLAIMS['C90'] = ('partial', [P+'Verif.Output.C90_ampere_partial', P+'Verif.Output.CurrIn.C90_enclosed', P+'Verif.Output.CurrIn.C90_divergence', P+'Verif.Output.CurrIn.C90_ends_partial', P+'Verif.Output.CurrIn.C90_ends_fails'], "Ampere's law exact only for the radial dependence for which the differences are exact (linear in s, times sqrt(s) for odd m); with three surfaces the end values are wrong (F79)")
P = ''
CLAIMS['C91'] = ('partial', [P+'Verif.Output.TableIn.C91_beta', P+'Verif.Output.TableIn.C91_force', P+'Verif.Output.TableIn.C91_balance', P+'Verif.Output.TableIn.C91_volume_partial', P+'Verif.Output.TableIn.C91_volume_fails', P+'Verif.Output.TableIn.C91_flux', P+'Verif.Output.TableIn.C91_psi', P+'Verif.Output.TableIn.C91_chi_fails', P+'Verif.Output.TableIn.C91_full_grid', P+'Verif.Output.TableIn.C91_current', P+'Verif.Output.TableIn.C91_ends_partial', P+'Verif.Output.TableIn.C91_ends_fails'], 'dV/dPhi has the wrong sign for a negative Jacobian, which is the sign the code uses (F80); the poloidal flux has the opposite sign of its stored derivative (F81); with three surfaces the ends are wrong (F82); surfaces on which a denominator vanishes are excluded')
P = ''
CLAIMS['C92'] = ('partial', [P+'Verif.Output.C92_area', P+'Verif.Output.C92_volume_partial', P+'Verif.Output.C92_volume_fails', P+'Verif.Output.C92_surface_element', P+'Verif.Output.C92_circular', P+'Verif.Output.C92_elongation', P+'Verif.Output.C92_extent', P+'Verif.Output.C92_zmax_partial', P+'Verif.Output.C92_zmax_fails', P+'Verif.Output.C92_zmax_fails_symmetric', P+'Verif.Output.C92_field', P+'Verif.Output.C92_waist_partial', P+'Verif.Output.C92_waist_fails', P+'Verif.Output.C92_planes_fail', P+'Verif.Output.C92_height_partial', P+'Verif.Output.average_exact', P+'Verif.Output.series_trig'], 'the volume is aliased when three times the highest mode number reaches the number of grid points, which happens on the grids the code chooses (F83); vertical extent and height need a surface above the midplane (F84); the waist is read from another surface with lasym (F85); axisymmetric runs with several toroidal points write out of bounds (F86)')
P = ''
CLAIMS['C93'] = ('proved', [P+'Verif.Output.GeomIn.C93_energies', P+'Verif.Output.GeomIn.C93_energies_nonneg', P+'Verif.Output.GeomIn.C93_betas', P+'Verif.Output.GeomIn.C93_averages', P+'Verif.Output.GeomIn.C93_flux', P+'Verif.Output.GeomIn.C93_diamagnetic', P+'Verif.Output.GeomIn.C93_parallel'], "on top of a total pressure p + B^2/2, dV/ds as the sum of the volume elements, and <sqrt(g) B^v> = phi', the properties of the half-grid state (fluxes: C60)")
P = ''
CLAIMS['C94'] = ('partial', [P+'Verif.Output.C94_coefficients', P+'Verif.Output.C94_knots', P+'Verif.Output.C94_status', P+'Verif.Output.C94_status_partial', P+'Verif.Output.C94_status_not_injective', P+'Verif.Output.C94_wdot', P+'Verif.Output.C94_wdot_partial', P+'Verif.Output.C94_wdot_wrong', P+'Verif.Output.C94_wdot_counterexample', P+'Verif.Output.C94_q_factor', P+'Verif.Output.C94_half_grid', P+'Verif.Output.C94_axis_coefficients', P+'Verif.Output.C94_axis', P+'Verif.Output.C94_total'], 'wdot is assigned from itself with an offset, so that later elements use overwritten ones (F87); converged and not converged runs have the same flag (F88); the strings and plain copies of numbers are not modelled')
P = ''
CLAIMS['C95'] = ('partial', [P+'Verif.Output.ShafIn.C95_free_boundary', P+'Verif.Output.ShafIn.C95_fixed_boundary', P+'Verif.Output.ShafIn.C95_surface_element', P+'Verif.Output.ShafIn.C95_sums', P+'Verif.Output.ShafIn.C95_table', P+'Verif.Output.ShafIn.C95_factor', P+'Verif.Output.ShafIn.C95_volume_integrals', P+'Verif.Output.ShafIn.C95_rshaf', P+'Verif.Output.ShafIn.C95_uniform_partial', P+'Verif.Output.ShafIn.C95_rshaf_bounds', P+'Verif.Output.ShafIn.C95_scaling_partial', P+'Verif.Output.C95_scaling_fails'], 'the scaling ratio uses the current of the input file, not that of the plasma (F89); the identities for a uniform pressure need the resolution of C92_volume_partial')
P = ''
CLAIMS['C96'] = ('partial', [P+'Verif.Output.C96_extent_partial', P+'Verif.Output.C96_shape_partial', P+'Verif.Output.C96_bounds_partial', P+'Verif.Output.C96_axisymmetric', P+'Verif.Output.C96_parallel', P+'Verif.Output.C96_no_current', P+'Verif.Output.C96_extent_fails', P+'Verif.Output.C96_plane_fails'], 'without the symmetry the second pass reflects a surface that is not symmetric, and with an odd number of toroidal points the second plane is no plane of symmetry (F90)')
P = ''
CLAIMS['C97'] = ('partial', [P+'Verif.PyOutput.C97_roundtrip_partial', P+'Verif.PyOutput.C97_load_partial', P+'Verif.PyOutput.C97_defaults', P+'Verif.PyOutput.C97_padding_fails', P+'Verif.PyOutput.C97_empty_fails', P+'Verif.PyOutput.C97_two_empty_fails', P+'Verif.PyOutput.C97_default_fails', P+'Verif.PyOutput.C97_ascii_fails', P+'Verif.PyOutput.C97_strip_fails'], 'false for fields of different length on one dimension, for empty arrays, for the default of the current harmonics, and for strings that are not ASCII or end in white space (F91-F93)')
P = ''
CLAIMS['C98'] = ('partial', [P+'Verif.PyJson.C98_roundtrip_partial', P+'Verif.PyJson.C98_standard', P+'Verif.PyJson.C98_numbers', P+'Verif.PyJson.C98_empty_int_fails', P+'Verif.PyJson.C98_empty_rows_fails', P+'Verif.PyJson.C98_scalar_fails', P+'Verif.PyJson.C98_union_fails', P+'Verif.PyJson.C98_ragged_fails', P+'Verif.PyJson.C98_whole_fails'], 'false for empty arrays of integers, arrays without rows, arrays without dimensions, and unions of lists and arrays (F94, F95)')
P = ''
CLAIMS['C99'] = ('proved', [P+'Verif.Coeffs.C99_surface', P+'Verif.Coeffs.C99_gauge', P+'Verif.Coeffs.C99_bounds', P+'Verif.Coeffs.C99_average', P+'Verif.Coeffs.C99_average_bounds'], 'the TODO in vmec.cc:1167 (does <M> include scalxc?) is answered: the state holds physical coefficients apart from the m = 1 gauge, which the routine undoes')
P = ''
CLAIMS['C100'] = ('partial', [P+'Verif.PyModel.C100_set_get', P+'Verif.PyModel.C100_get_set', P+'Verif.PyModel.C100_length', P+'Verif.PyModel.C100_layout', P+'Verif.PyModel.C100_step', P+'Verif.PyModel.C100_hvp_partial', P+'Verif.PyModel.C100_quadratic_partial', P+'Verif.PyModel.C100_homogeneous_partial', P+'Verif.PyModel.C100_stale_fails', P+'Verif.PyModel.C100_restore_fails', P+'Verif.PyModel.C100_direction_fails', P+'Verif.PyModel.C100_memory_fails'], 'the product is wrong if the Jacobian changes sign at a perturbed state or in free-boundary runs, is not restored after an error, and accepts directions of any length (F96)')
P = ''
CLAIMS['C101'] = ('partial', [P+'Verif.Coeffs.C101_team', P+'Verif.Coeffs.C101_zero', P+'Verif.Coeffs.C101_isometry', P+'Verif.Coeffs.C101_virtual_work_partial', P+'Verif.Coeffs.C101_gradient_fails', P+'Verif.Coeffs.C101_gauge', P+'Verif.Coeffs.C101_force', P+'Verif.Coeffs.C101_m1_weights', P+'Verif.Coeffs.C101_lambda_scaling', P+'Verif.Coeffs.C101_norm'], "the force on the state is the gradient only after the m=1 forces of the pairs are multiplied by sqrt(2) (F97); surfaces next to the axis, where the geometry is extrapolated, are outside the virtual-work statement's model")
P = ''
CLAIMS['C102'] = ('partial', [P+'Verif.Profiles.C102_half_grid', P+'Verif.Profiles.C102_full_grid', P+'Verif.Profiles.C102_staggering', P+'Verif.Profiles.C102_lamscale', P+'Verif.Profiles.C102_no_reset', P+'Verif.Profiles.C102_thread_independent', P+'Verif.Profiles.C102_current_partial', P+'Verif.Profiles.C102_current_dropped', P+'Verif.Profiles.C102_pedestal', P+'Verif.Profiles.C102_flip_fails', P+'Verif.Profiles.C102_axis_stale', P+'Verif.Profiles.C102_polflux'], "current profiles small against the net current in amperes are dropped (F98); the full grid is not reversed with the angle (F99), and chi' on the axis keeps that value to the output (F100)")
P = ''
CLAIMS['C103'] = ('partial', [P+'Verif.PyFiles.C103_names', P+'Verif.PyFiles.C103_refused', P+'Verif.PyFiles.C103_wout', P+'Verif.PyFiles.C103_wout_refused', P+'Verif.PyFiles.C103_input_json_fails', P+'Verif.PyFiles.C103_same_output', P+'Verif.PyFiles.C103_indata_name', P+'Verif.PyFiles.C103_indata', P+'Verif.PyFiles.C103_indata_fails', P+'Verif.PyFiles.C103_cli_partial', P+'Verif.PyFiles.C103_result_lost', P+'Verif.PyFiles.C103_convert', P+'Verif.PyFiles.C103_convert_main', P+'Verif.PyFiles.C103_convert_fails', P+'Verif.PyFiles.C103_context', P+'Verif.PyFiles.C103_context_fails'], 'input.json, input.N.json, JSON input with other names, lower-case namelists, converting JSON input and an existing temporary name violate the claim (F101-F106)')
P = ''
CLAIMS['C104'] = ('partial', [P+'Verif.Profiles.C104_knots', P+'Verif.Profiles.C104_refused', P+'Verif.Profiles.C104_exact_partial', P+'Verif.Profiles.C104_arrays', P+'Verif.Profiles.C104_outside', P+'Verif.Profiles.C104_between', P+'Verif.Profiles.C104_jump', P+'Verif.Profiles.C104_flux_fails', P+'Verif.Profiles.C104_rounding_fails', P+'Verif.Profiles.C104_current_zero'], 'exact on the grid in exact arithmetic; the evaluator jumps at every knot, so one unit in the last place or a non-uniform flux gives wrong values (F107); the callable is evaluated below the axis (F108); current profiles need curtor (F109)')
P = ''
CLAIMS['C105'] = ('partial', [P+'Verif.PySimsopt.C105_fresh', P+'Verif.PySimsopt.C105_history', P+'Verif.PySimsopt.C105_once', P+'Verif.PySimsopt.C105_wout_object', P+'Verif.PySimsopt.C105_edit_stale', P+'Verif.PySimsopt.C105_mean_iota', P+'Verif.PySimsopt.C105_mean_shear', P+'Verif.PySimsopt.C105_vacuum_well', P+'Verif.PySimsopt.C105_external_current'], 'assigning to vmec.indata does not invalidate the cache (F110)')
P = ''
CLAIMS['C106'] = ('partial', [P+'Verif.Makegrid.C106_contents', P+'Verif.Makegrid.C106_roundtrip', P+'Verif.Makegrid.C106_small_table_ub', P+'Verif.Makegrid.C106_other_grid_accepted', P+'Verif.Makegrid.C106_currents_one', P+'Verif.Makegrid.C106_currents_lack_windings', P+'Verif.Makegrid.C106_half_field', P+'Verif.Makegrid.C106_mode_number_ub', P+'Verif.Makegrid.C106_float_tables'], 'the currents in the file are always 1 (F112); sizes are not compared (F111)')
P = ''
CLAIMS['C107'] = ('partial', [P+'Verif.CoilGeom.C107_scaleTo', P+'Verif.CoilGeom.C107_frame_partial', P+'Verif.CoilGeom.C107_orthonormal_iff', P+'Verif.CoilGeom.C107_frame_not_unit', P+'Verif.CoilGeom.C107_frame_zero', P+'Verif.CoilGeom.C107_vertex', P+'Verif.CoilGeom.C107_vertex_compose', P+'Verif.CoilGeom.C107_vertex_back', P+'Verif.CoilGeom.C107_config', P+'Verif.CoilGeom.C107_refused', P+'Verif.CoilGeom.C107_circle_aborts', P+'Verif.CoilGeom.C107_half_moved', P+'Verif.CoilGeom.C107_negative_radius', P+'Verif.CoilGeom.C107_past_axis', P+'Verif.CoilGeom.C107_on_axis'], 'the second and third vector of the frame have unit length only for axes with a vanishing component (F114); a refused movement is done in part or terminates the process (F115)')
P = ''
CLAIMS['C108'] = ('partial', [P+'Verif.CoilGeom.C108_complete', P+'Verif.CoilGeom.C108_roundtrip', P+'Verif.CoilGeom.C108_incomplete', P+'Verif.CoilGeom.C108_rewrite', P+'Verif.CoilGeom.C108_digits_lost', P+'Verif.CoilGeom.C108_shift', P+'Verif.CoilGeom.C108_header_only', P+'Verif.CoilGeom.C108_carriage_return', P+'Verif.CoilGeom.C108_tangent', P+'Verif.CoilGeom.C108_integral', P+'Verif.CoilGeom.C108_wire', P+'Verif.CoilGeom.C108_superposition', P+'Verif.CoilGeom.C108_same_curve', P+'Verif.CoilGeom.C108_no_periods', P+'Verif.CoilGeom.C108_negative_modes', P+'Verif.CoilGeom.C108_not_periodic'], 'tables of another form are accepted, 16 digits do not restore a double (F116); unset number of periods gives NaN, mode numbers are not multiplied by the periods (F117)')
P = ''
CLAIMS['C109'] = ('partial', [P+'Verif.FreeBound.C109_handover', P+'Verif.FreeBound.C109_axis', P+'Verif.FreeBound.C109_same_point', P+'Verif.FreeBound.C109_edge', P+'Verif.FreeBound.C109_elsewhere', P+'Verif.FreeBound.C109_force', P+'Verif.FreeBound.C109_delbsq', P+'Verif.FreeBound.C109_check', P+'Verif.FreeBound.C109_check_fails', P+'Verif.FreeBound.C109_reference', P+'Verif.FreeBound.C109_reference_vanishes', P+'Verif.FreeBound.C109_two_surfaces_fails'], 'a vacuum field that is not a number passes both checks, and so does a plasma without toroidal field (F118); same point and work of the force are proved for stellarator-symmetric runs')
P = ''
CLAIMS['C110'] = ('partial', [P+'Verif.OnlyCoils.C110_field', P+'Verif.OnlyCoils.C110_points', P+'Verif.OnlyCoils.C110_net', P+'Verif.OnlyCoils.C110_nestor', P+'Verif.OnlyCoils.C110_input', P+'Verif.OnlyCoils.C110_current_fails'], 'the check looks at curtor and pres_scale only, so a plasma current from a prescribed rotational transform is accepted and ignored (F119)')
P = ''
CLAIMS['C111'] = ('partial', [P+'Verif.FieldTable.C111_import', P+'Verif.FieldTable.C111_errors', P+'Verif.FieldTable.C111_parameters', P+'Verif.FieldTable.C111_tables', P+'Verif.FieldTable.C111_identity', P+'Verif.FieldTable.C111_ignored_fails', P+'Verif.FieldTable.C111_stale_fails', P+'Verif.FieldTable.C111_shared_fails', P+'Verif.FieldTable.C111_file_fails', P+'Verif.FieldTable.C111_wrap_fails', P+'Verif.FieldTable.C111_nan_fails'], 'changed parameters and exchanged arrays are ignored while the arrays are views of a C++ table, a missing file ends the process, integers beyond 32 bits wrap, NaN is a usable extent (F120)')
P = ''
CLAIMS['C112'] = ('partial', [P+'Verif.OutputIo.C112_result', P+'Verif.OutputIo.C112_roundtrip_partial', P+'Verif.OutputIo.C112_old', P+'Verif.OutputIo.C112_missing', P+'Verif.OutputIo.C112_square_fails', P+'Verif.OutputIo.C112_square_witness', P+'Verif.OutputIo.C112_currents_fails', P+'Verif.OutputIo.C112_unsaved_fails', P+'Verif.OutputIo.C112_labels_fails'], 'with as many modes as surfaces the Fourier arrays come back transposed; the currents of a fixed-boundary run and eleven members of wout are lost; labels of currents are undefined behaviour when written (F121). The group /indata is C67')
P = ''
CLAIMS['C113'] = ('partial', [P+'Verif.PyWout.C113_shows', P+'Verif.PyWout.C113_accepted_iff', P+'Verif.PyWout.C113_hands', P+'Verif.PyWout.C113_restart', P+'Verif.PyWout.C113_restart_state', P+'Verif.PyWout.C113_back', P+'Verif.PyWout.C113_back_partial', P+'Verif.PyWout.C113_padded', P+'Verif.PyWout.C113_others', P+'Verif.PyWout.C113_snapshot_partial', P+'Verif.PyWout.C113_hidden_fails', P+'Verif.PyWout.C113_extra_fails', P+'Verif.PyWout.C113_mode_fails', P+'Verif.PyWout.C113_none_fails', P+'Verif.PyWout.C113_snapshot_fails'], 'bsubsmns_full and bsubsmnc_full are not shown, extra attributes are not handed over, None arrays with lasym, a finished run with another mgrid mode is lost, and the output refers to the input object of the caller (F122)')
P = ''
CLAIMS['C114'] = ('partial', [P+'Verif.TridiagOmp.C114_exclusive', P+'Verif.TridiagOmp.C114_no_deadlock', P+'Verif.TridiagOmp.C114_ends', P+'Verif.TridiagOmp.C114_order', P+'Verif.TridiagOmp.C114_result_partial', P+'Verif.TridiagOmp.C114_serial_partial', P+'Verif.TridiagOmp.C114_first_fails', P+'Verif.TridiagOmp.C114_last_fails'], 'the protocol is proved in full; the result needs two rows more on the first thread than the first active row, and a thread that begins with the last active row must end with it, otherwise a stale handover is used (F123)')
P = ''
CLAIMS['C115'] = ('partial', [P+'Verif.Race.C115_no_race_partial', P+'Verif.Race.C115_same_values_partial', P+'Verif.Race.C115_roles', P+'Verif.Race.C115_vacuum_no_race', P+'Verif.Race.C115_barrier_needed'], 'threads follow the same text, which C115_same_values_partial justifies as far as branches depend on shared variables; the one branch on a value of the single thread (error of constraintForceMultiplier, finding of C40) is left out; which functions touch which shared variables was read off the code by hand')
P = ''
CLAIMS['C116'] = ('partial', [P+'Verif.Csv.C116_complete', P+'Verif.Csv.C116_roundtrip_partial', P+'Verif.Csv.C116_identity_partial', P+'Verif.Csv.C116_surface_identity_partial', P+'Verif.Csv.C116_accuracy', P+'Verif.Csv.C116_read_curve', P+'Verif.Csv.C116_read_surface', P+'Verif.Csv.C116_digits_lost', P+'Verif.Csv.C116_throws', P+'Verif.Csv.C116_line_ends'], 'coefficients come back as the doubles closest to their first 16 digits, which is not the identity (F124); a cell that is no number throws (F125)')
P = ''
CLAIMS['C117'] = ('partial', [P+'Verif.Logger.C117_range', P+'Verif.Logger.C117_meaning', P+'Verif.Logger.C117_bar', P+'Verif.Logger.C117_infinite', P+'Verif.Logger.C117_memory', P+'Verif.Logger.C117_memory_fails', P+'Verif.Logger.C117_silent', P+'Verif.Logger.C117_screen', P+'Verif.Logger.C117_skipped'], "proved for the indices of the user's grids; the retry with three surfaces would use index -1 (F126); skipped stages are shown as waiting with NS=0 (F127); other output between two displays is not modelled")
P = ''
CLAIMS['C118'] = ('proved', [P+'Verif.ParFor.C118_progress', P+'Verif.ParFor.C118_terminates', P+'Verif.ParFor.C118_absB', P+'Verif.ParFor.C118_half', P+'Verif.ParFor.C118_full', P+'Verif.ParFor.C118_serial', P+'Verif.ParFor.C118_work_bounds', P+'Verif.ParFor.C118_convert', P+'Verif.ParFor.C118_mirror', P+'Verif.ParFor.C118_middle_plane'], 'sequentially consistent memory, which OpenMP guarantees without data races; fields of one point one after the other')
P = ''
CLAIMS['C119'] = ('proved', [P+'Verif.Bounds.C119_no_access_out_of_range', P+'Verif.Bounds.C119_two_surfaces_out_of_range', P+'Verif.Bounds.C119_one_mode_out_of_range'], 'index arithmetic of the non-FFT path; int overflow not considered; branches on floating-point values contribute the accesses of both sides; the solves between gather and scatter are C13/C114')
P = ''
CLAIMS['C120'] = ('proved', [P+'Verif.Views.C120_objects_behave_as_values', P+'Verif.Views.C120_spans_show_own_arrays', P+'Verif.Views.C120_no_leak', P+'Verif.Views.C120_spans_fit_the_loops', P+'Verif.Views.C120_restore_returns_the_saved_state', P+'Verif.Views.C120_moved_from_spans_alias', P+'Verif.Views.C120_assignment_keeps_the_sizes'], "Eigen's resize, copy and move from their documented behaviour (3.4); objects that were moved from may only be assigned to or destroyed, the last two theorems show what happens otherwise")
P = ''
CLAIMS['C121'] = ('proved', [P+'Verif.VacBounds.C121_no_access_out_of_range', P+'Verif.VacBounds.C121_system_is_filled', P+'Verif.VacBounds.C121_needs_nyquist_modes'], 'accesses only, no values; LAPACK accesses its arguments as its interface says; integers unbounded')
P = ''
CLAIMS['C122'] = ('proved', [P+'Verif.VacSrc.C122_no_access_out_of_range', P+'Verif.VacSrc.C122_every_other_point_once', P+'Verif.VacSrc.C122_every_point_of_thread_once'], 'accesses only, no values; both branches of the recurrence counted; accesses of the mgrid tables are C35; integers unbounded')
