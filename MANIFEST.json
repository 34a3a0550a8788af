{
 "claims": [
  {
   "property": "C01",
   "status": "proved",
   "theorems": [
    "Verif.Partition.C01_team_exists",
    "Verif.Partition.C01_radial_split"
   ],
   "note": "all ns >= 2, all admissible thread counts, both boundary modes"
  },
  {
   "property": "C02",
   "status": "proved",
   "theorems": [
    "Verif.Partition.C02_halo"
   ],
   "note": ""
  },
  {
   "property": "C03",
   "status": "proved",
   "theorems": [
    "Verif.Partition.C03_unique_half_point",
    "Verif.Partition.C03_integrals",
    "Verif.Partition.C03_thread_count_independent"
   ],
   "note": "sums in any commutative monoid (exact arithmetic)"
  },
  {
   "property": "C04",
   "status": "proved",
   "theorems": [
    "Verif.Partition.C04_adjusted_thread_count"
   ],
   "note": ""
  },
  {
   "property": "C05",
   "status": "proved",
   "theorems": [
    "Verif.Partition.C05_split",
    "Verif.Partition.C05_vacuum_threads"
   ],
   "note": ""
  },
  {
   "property": "C06",
   "status": "proved",
   "theorems": [
    "Verif.Team.C06_residuals",
    "Verif.Team.C06_residuals_no_partial_sum",
    "Verif.Team.C06_preconditioned_residuals",
    "Verif.Team.C06_initial_volume",
    "Verif.Team.C06_energies_and_norms"
   ],
   "note": "interleaving machine with barriers, single and critical regions; exact arithmetic; every schedule"
  },
  {
   "property": "C07",
   "status": "proved",
   "theorems": [
    "Verif.Sizes.C07_sizes"
   ],
   "note": ""
  },
  {
   "property": "C08",
   "status": "proved",
   "theorems": [
    "Verif.Sizes.C08_average_const",
    "Verif.Sizes.C08_reduced_eq_full"
   ],
   "note": "exact arithmetic"
  },
  {
   "property": "C09",
   "status": "proved",
   "theorems": [
    "Verif.Fourier.C09_mode_table",
    "Verif.Fourier.C09_table_sizes",
    "Verif.Fourier.C09_python_table"
   ],
   "note": ""
  },
  {
   "property": "C10",
   "status": "proved",
   "theorems": [
    "Verif.Fourier.C10_index_bounds",
    "Verif.Fourier.C10_cos_roundtrip",
    "Verif.Fourier.C10_sin_roundtrip",
    "Verif.Fourier.C10_cc_ss_roundtrip",
    "Verif.Fourier.C10_sc_cs_roundtrip"
   ],
   "note": "any field of characteristic 0, both layouts"
  },
  {
   "property": "C11",
   "status": "proved",
   "theorems": [
    "Verif.Fourier.C11_cos_same_function",
    "Verif.Fourier.C11_sin_same_function"
   ],
   "note": "over the reals"
  },
  {
   "property": "C12",
   "status": "proved",
   "theorems": [
    "Verif.Fourier.C12_even",
    "Verif.Fourier.C12_odd"
   ],
   "note": "over the reals, solver grids of every accepted resolution"
  },
  {
   "property": "C13",
   "status": "proved",
   "theorems": [
    "Verif.Tridiag.C13_thomas",
    "Verif.Tridiag.C13_dominant"
   ],
   "note": "any field; non-vanishing pivots expressed as non-vanishing leading principal minors; diagonal dominance shown sufficient"
  },
  {
   "property": "C14",
   "status": "proved",
   "theorems": [
    "Verif.Control.C14_termination",
    "Verif.Control.C14_attempt",
    "Verif.Control.C14_loop_is_loop"
   ],
   "note": "one stage: at most 4 attempts of at most niter evaluations; the number of stages is the length of the schedule (C49)"
  },
  {
   "property": "C15",
   "status": "partial",
   "theorems": [
    "Verif.Control.C15_success_partial",
    "Verif.Control.C15_rollback_after_success"
   ],
   "note": "the first half is proved; the second half (state handed on is the evaluated one) holds unless a rollback follows the evaluation, and the code does that: proved counterexample"
  },
  {
   "property": "C16",
   "status": "proved",
   "theorems": [
    "Verif.Control.C16_no_advance_after_nonfinite",
    "Verif.Control.C16_not_success"
   ],
   "note": ""
  },
  {
   "property": "C17",
   "status": "proved",
   "theorems": [
    "Verif.Control.C17_escalation",
    "Verif.Control.C17_give_up"
   ],
   "note": "one more force evaluation is made after the counter reached 75; it cannot lead to success"
  },
  {
   "property": "C18",
   "status": "proved",
   "theorems": [
    "Verif.Control.C18_time_step"
   ],
   "note": "exact arithmetic"
  },
  {
   "property": "C19",
   "status": "proved",
   "theorems": [
    "Verif.Control.C19_rollback",
    "Verif.Control.C19_final_state"
   ],
   "note": "team view of the state: the per-thread slices are covered by C01/C02"
  },
  {
   "property": "C20",
   "status": "partial",
   "theorems": [
    "Verif.Control.C20_vacuum_partial",
    "Verif.Control.C20_soft_restart_partial",
    "Verif.Control.C20_soft_restart_skipped"
   ],
   "note": "proved except that a continuation stage can skip the soft restart (proved counterexample)"
  },
  {
   "property": "C21",
   "status": "proved",
   "theorems": [
    "Verif.Control.C21_interval",
    "Verif.Control.C21_no_zero_modulus"
   ],
   "note": ""
  },
  {
   "property": "C22",
   "status": "partial",
   "theorems": [
    "Verif.Jacobian.C22_verdict_partial",
    "Verif.Jacobian.C22_threads_agree_partial",
    "Verif.Jacobian.C22_no_false_alarm",
    "Verif.Jacobian.C22_infinity_reported",
    "Verif.Jacobian.C22_sign_change_reported_partial",
    "Verif.Jacobian.C22_nan_missed",
    "Verif.Jacobian.C22_depends_on_threads",
    "Verif.Jacobian.C22_underflow_missed"
   ],
   "note": "exact verdict proved without NaN, without surfaces of identically zero Jacobian and without underflow; each exception is a proved counterexample"
  },
  {
   "property": "C23",
   "status": "partial",
   "theorems": [
    "Verif.Indata.C23_ok_iff",
    "Verif.Indata.C23_returns_partial",
    "Verif.Indata.C23_defined_partial",
    "Verif.Indata.C23_missing_axis_ub",
    "Verif.Indata.C23_short_tolerances_ub",
    "Verif.Indata.C23_nan_accepted",
    "Verif.Indata.C23_lengths_not_compared"
   ],
   "note": "OK is returned exactly for the documented constraints (up to NaN, and without comparing array lengths); a status is returned whenever the arrays the check reads exist; false otherwise (proved witnesses: asymmetric input without its arrays, fewer tolerances than grids)"
  },
  {
   "property": "C24",
   "status": "partial",
   "theorems": [
    "Verif.Indata.C24_roundtrip_partial",
    "Verif.Indata.C24_accepted_partial",
    "Verif.Indata.C24_asymmetric_fails",
    "Verif.Indata.C24_accepted_asymmetric_fails",
    "Verif.Indata.C24_asymmetric_witness"
   ],
   "note": "proved for symmetric inputs (given that the JSON library reads back what it wrote; textLayer_exists shows the assumption can be met); false for every asymmetric input: the text written for it is rejected"
  },
  {
   "property": "C25",
   "status": "proved",
   "theorems": [
    "Verif.Resize.C25_set_mpol_ntor",
    "Verif.Resize.C25_identity",
    "Verif.Resize.C25_grow_and_shrink",
    "Verif.Resize.C25_short_axis_ub",
    "Verif.Resize.C25_python_2d",
    "Verif.Resize.C25_python_2d_rejects",
    "Verif.Resize.C25_python_1d",
    "Verif.Resize.C25_python_validated"
   ],
   "note": "for inputs whose arrays have the declared shapes (shown to be needed: too short arrays are read out of bounds)"
  },
  {
   "property": "C26",
   "status": "proved",
   "theorems": [
    "Verif.Boundary.C26_surface",
    "Verif.Boundary.C26_symmetric",
    "Verif.Boundary.C26_shift_gauge"
   ],
   "note": "over the reals, all angles"
  },
  {
   "property": "C27",
   "status": "proved",
   "theorems": [
    "Verif.Boundary.C27_flip_surface",
    "Verif.Boundary.C27_flip_involution",
    "Verif.Boundary.C27_setup_sign"
   ],
   "note": "over the reals, all angles"
  },
  {
   "property": "C28",
   "status": "proved",
   "theorems": [
    "Verif.Boundary.C28_boundary_undo",
    "Verif.Boundary.C28_boundary_others",
    "Verif.Boundary.C28_boundary_constraint",
    "Verif.Coeffs.C28_state_undo",
    "Verif.Coeffs.C28_state_redo",
    "Verif.Coeffs.C28_state_others",
    "Verif.Coeffs.C28_state_constraint",
    "Verif.Coeffs.C28_force_isometry",
    "Verif.Coeffs.C28_needs_mpol"
   ],
   "note": "exact arithmetic; mpol >= 2, which the input check requires and which is shown to be needed"
  },
  {
   "property": "C29",
   "status": "proved",
   "theorems": [
    "Verif.Coeffs.C29_interpolation",
    "Verif.Coeffs.C29_boundary",
    "Verif.Coeffs.C29_axis",
    "Verif.Coeffs.C29_lambda"
   ],
   "note": "over the reals"
  },
  {
   "property": "C30",
   "status": "partial",
   "theorems": [
    "Verif.Profiles.C30_power_series",
    "Verif.Profiles.C30_power_series_integrated",
    "Verif.Profiles.C30_power_series_i",
    "Verif.Profiles.C30_torflux_hasDerivAt",
    "Verif.Profiles.C30_torflux_integral",
    "Verif.Profiles.C30_enclosed_flux",
    "Verif.Profiles.C30_flux_map_partial",
    "Verif.Profiles.C30_flux_map_not_normalised"
   ],
   "note": "all polynomial and integral statements proved over the reals; the flux map is 1 at 1 only if the coefficients sum to one (proved counterexample), the enclosed flux is right in any case"
  },
  {
   "property": "C31",
   "status": "partial",
   "theorems": [
    "Verif.Profiles.C31_knots_and_clamp_partial",
    "Verif.Profiles.C31_actual",
    "Verif.Profiles.C31_only_constant",
    "Verif.Profiles.C31_not_interpolant",
    "Verif.Profiles.C31_integrated_actual",
    "Verif.Profiles.C31_integrated_partial",
    "Verif.Profiles.C31_integrated_error",
    "Verif.Profiles.C31_integrated_wrong",
    "Verif.Profiles.C31_integrated_ub",
    "Verif.Profiles.C31_integrated_axis"
   ],
   "note": "exact at the knots and clamped; between the knots the code evaluates the wrong segment, and the integrated version is wrong between knots, not finite on the axis and reads out of bounds beyond the last knot (all proved)"
  },
  {
   "property": "C32",
   "status": "partial",
   "theorems": [
    "Verif.Profiles.C32_interpolates",
    "Verif.Profiles.C32_integrated_hasDerivAt",
    "Verif.Profiles.C32_integrated_partial",
    "Verif.Profiles.C32_integrated_drops"
   ],
   "note": "everything proved on the closed knot range; beyond the last knot the integrated profile jumps to 0 (proved)"
  },
  {
   "property": "C33",
   "status": "proved",
   "theorems": [
    "Verif.Profiles.C33_interpolates",
    "Verif.Profiles.C33_continuous_slope",
    "Verif.Profiles.C33_integrated_hasDerivAt",
    "Verif.Profiles.C33_integrated",
    "Verif.Profiles.C33_integrated_continuous"
   ],
   "note": "over the reals, strictly increasing knots"
  },
  {
   "property": "C34",
   "status": "partial",
   "theorems": [
    "Verif.Profiles.C34_known_name",
    "Verif.Profiles.C34_result",
    "Verif.Profiles.C34_documented_partial",
    "Verif.Profiles.C34_allowed_is_evaluated",
    "Verif.Profiles.C34_unknown_name_is_zero",
    "Verif.Profiles.C34_unimplemented_is_zero"
   ],
   "note": "names resolve correctly; unknown, not allowed and unimplemented names silently give a zero profile (proved)"
  },
  {
   "property": "C35",
   "status": "partial",
   "theorems": [
    "Verif.Mgrid.C35_bilinear",
    "Verif.Mgrid.C35_every_cell",
    "Verif.Mgrid.C35_range",
    "Verif.Mgrid.C35_affine_exact",
    "Verif.Mgrid.C35_nodes_exact",
    "Verif.Mgrid.C35_interpolate",
    "Verif.Mgrid.C35_fixed",
    "Verif.Mgrid.C35_run_check_partial",
    "Verif.Mgrid.C35_raised_nzeta_reads_outside",
    "Verif.Mgrid.C35_single_point_not_a_number"
   ],
   "note": "exact arithmetic; everything proved when the table has at least as many planes as the solver grid; the check before a run compares with the requested and not with the raised resolution, so the table can be read out of bounds (proved)"
  },
  {
   "property": "C36",
   "status": "partial",
   "theorems": [
    "Verif.Mgrid.C36_file_superposition",
    "Verif.Mgrid.C36_fields_superposition",
    "Verif.Mgrid.C36_linear",
    "Verif.Mgrid.C36_fields_rejected_unchanged",
    "Verif.Mgrid.C36_file_rejected_unchanged_partial",
    "Verif.Mgrid.C36_failed_load_breaks_field",
    "Verif.Mgrid.C36_failed_load_wipes_field",
    "Verif.Mgrid.C36_unchecked_component"
   ],
   "note": "superposition proved for every successful load; a file rejected after its header has been read damages the loaded field (proved counterexamples)"
  },
  {
   "property": "C37",
   "status": "partial",
   "theorems": [
    "Verif.PyInput.C37_sparse_to_dense",
    "Verif.PyInput.C37_rejects",
    "Verif.PyInput.C37_read_field",
    "Verif.PyInput.C37_roundtrip",
    "Verif.PyInput.C37_roundtrip_explicit",
    "Verif.PyInput.C37_out_of_range_dropped"
   ],
   "note": "round trip and rejection with a given resolution proved; when an input file is validated, modes beyond mpol or ntor are dropped with a logged warning only (proved)"
  },
  {
   "property": "C38",
   "status": "proved",
   "theorems": [
    "Verif.Contin.C38_carries_solution",
    "Verif.Contin.C38_shared_modes",
    "Verif.Contin.C38_roundtrip",
    "Verif.Contin.C38_driver",
    "Verif.Contin.C38_schedule",
    "Verif.Contin.C38_nfp_and_lasym_not_checked",
    "Verif.Contin.C38_unrelated_arrays_resampled"
   ],
   "note": "for outputs as the solver writes them; also proved: nfp and lasym of the target are not compared with the source, and arrays that merely have length ns are resampled"
  },
  {
   "property": "C39",
   "status": "partial",
   "theorems": [
    "Verif.PyDriver.C39_partial",
    "Verif.PyDriver.C39_usable_jacobian_partial",
    "Verif.PyDriver.C39_damping_partial",
    "Verif.PyDriver.C39_damping_start",
    "Verif.PyDriver.C39_late_jacobian",
    "Verif.PyDriver.C39_slow_jacobian",
    "Verif.PyDriver.C39_parvmec_jacobian",
    "Verif.PyDriver.C39_converged_at_75",
    "Verif.PyDriver.C39_velocity_kept",
    "Verif.PyDriver.C39_zero_residual",
    "Verif.PyDriver.C39_free_boundary"
   ],
   "note": "simulation proved for fixed boundary runs whose Python run leaves no harmful note (no late or slow bad Jacobian, no zero residual, no convergence at 75 bad Jacobians, no re-guess after the first step); a second form with hypotheses on the forward model only; false in each excluded case (proved witnesses); residuals that are not negative; the damping history is part of the compared state"
  },
  {
   "property": "C40",
   "status": "partial",
   "theorems": [
    "Verif.Team.C40_together_partial",
    "Verif.Team.C40_no_hang_partial",
    "Verif.Team.C40_bad_jacobian_reported",
    "Verif.Team.C40_lost_error_hangs"
   ],
   "note": "proved for all schedules if the constraint-multiplier error is met by all threads or by none; an error met by some threads only hangs every execution (proved)"
  },
  {
   "property": "C41",
   "status": "partial",
   "theorems": [
    "Verif.Coils.C41_block",
    "Verif.Coils.C41_file",
    "Verif.Coils.C41_nothing_lost",
    "Verif.Coils.C41_import_defined",
    "Verif.Coils.C41_columns",
    "Verif.Coils.C41_windings",
    "Verif.Coils.C41_imported_wound",
    "Verif.Coils.C41_unfinished_filament_dropped",
    "Verif.Coils.C41_second_block_misfiled",
    "Verif.Coils.C41_empty_circuit_ub",
    "Verif.Coils.C41_zero_windings_divide",
    "Verif.Coils.C41_unset_windings_lost"
   ],
   "note": "import of one filament block proved (iff); normalisation proved for circuits with coils, set finite windings and a non-zero first winding; false for several blocks, unfinished filaments, empty circuits, zero or unset windings (proved); exact arithmetic"
  },
  {
   "property": "C42",
   "status": "proved",
   "theorems": [
    "Verif.TimeStep.C42_step",
    "Verif.TimeStep.C42_race_free",
    "Verif.TimeStep.C42_agree",
    "Verif.TimeStep.C42_run",
    "Verif.TimeStep.C42_team_independent",
    "Verif.TimeStep.C42_exists"
   ],
   "note": "all interleavings of the assignments between the barriers; exact reals; teams as InitializeRadial sets them up"
  },
  {
   "property": "C43",
   "status": "partial",
   "theorems": [
    "Verif.HotRestart.C43_accepts_partial",
    "Verif.HotRestart.C43_accepts_matching",
    "Verif.HotRestart.C43_nfp_unchecked",
    "Verif.HotRestart.C43_roundtrip_partial",
    "Verif.HotRestart.C43_boundary_from_input",
    "Verif.HotRestart.C43_asymmetric_dropped"
   ],
   "note": "shapes and round trip of the stellarator-symmetric geometry proved; the asymmetric part is not read at all and nfp is not compared (proved counterexamples)"
  },
  {
   "property": "C44",
   "status": "partial",
   "theorems": [
    "Verif.AxisGuess.C44_every_plane_partial",
    "Verif.AxisGuess.C44_search_partial",
    "Verif.AxisGuess.C44_search_symmetry_plane",
    "Verif.AxisGuess.C44_search_fails",
    "Verif.AxisGuess.C44_transform",
    "Verif.AxisGuess.C44_odd_plane_missing",
    "Verif.AxisGuess.C44_asym_planes_missing",
    "Verif.AxisGuess.C44_asym_half_missing",
    "Verif.AxisGuess.C44_tie_mixes_points"
   ],
   "note": "holds for symmetric runs with an even number of planes or one plane; false for odd plane counts above one and for asymmetric runs (proved); the tie rule of the search can return a point with the wrong sign (proved); exact reals"
  },
  {
   "property": "C45",
   "status": "partial",
   "theorems": [
    "Verif.Multigrid.C45_safe_and_team_independent",
    "Verif.Multigrid.C45_linear_data",
    "Verif.Multigrid.C45_kept_surfaces",
    "Verif.Multigrid.C45_boundary",
    "Verif.Multigrid.C45_range_partial",
    "Verif.Multigrid.C45_cubic_data",
    "Verif.Multigrid.C45_cubic_overshoots"
   ],
   "note": "everything proved for all grids, teams and schemes; the range clause holds for the (default) linear scheme and is false for the cubic schemes (proved counterexample); reals instead of doubles"
  },
  {
   "property": "C46",
   "status": "proved",
   "theorems": [
    "Verif.Kernels.C46_force_density",
    "Verif.Kernels.C46_lambda_force",
    "Verif.Kernels.C46_lambda_preconditioner",
    "Verif.Kernels.C46_evaluation",
    "Verif.Kernels.C46_thread_count",
    "Verif.Kernels.C46_energies",
    "Verif.Kernels.C46_force_norms",
    "Verif.Kernels.C46_radial_preconditioner",
    "Verif.Kernels.C46_force_balance",
    "Verif.Kernels.C46_force_balance_value",
    "Verif.Kernels.C46_constraint_multiplier"
   ],
   "note": "all teams InitializeRadial sets up, all array contents; no kernel leaves its arrays; also proved for the energies (the Jacobian must not change sign), force norms, radial preconditioner, radial force balance and constraint multiplier; exact reals"
  },
  {
   "property": "C47",
   "status": "proved",
   "theorems": [
    "Verif.Transform.C47_geometry",
    "Verif.Transform.C47_forces"
   ],
   "note": "for every transform library that computes the documented sums; stellarator-symmetric three-dimensional transforms; exact reals"
  },
  {
   "property": "C48",
   "status": "proved",
   "theorems": [
    "Verif.Coeffs.C48_mask_exact",
    "Verif.Coeffs.C48_mask_idempotent",
    "Verif.Coeffs.C48_default_noop",
    "Verif.Coeffs.C48_step_exact"
   ],
   "note": ""
  },
  {
   "property": "C49",
   "status": "proved",
   "theorems": [
    "Verif.Control.C49_order",
    "Verif.Control.C49_success",
    "Verif.Control.C49_last_tolerance"
   ],
   "note": "for schedules with at least one usable entry, which the input check guarantees"
  },
  {
   "property": "C50",
   "status": "partial",
   "theorems": [
    "Verif.PyInput.C50_carried_partial",
    "Verif.PyInput.C50_nothing_invented",
    "Verif.PyInput.C50_axis_lost"
   ],
   "note": "everything but the axis is carried over; the axis is lost for every input (proved); text formatting not modelled"
  },
  {
   "property": "C51",
   "status": "partial",
   "theorems": [
    "Verif.Control.C51_lambda_scale_partial",
    "Verif.Control.C51_repeated_resolution"
   ],
   "note": "proved for strictly increasing schedules; false for repeated resolutions (proved counterexample)"
  },
  {
   "property": "C52",
   "status": "partial",
   "theorems": [
    "Verif.Boundary.C52_gauge_without_flip_partial",
    "Verif.Boundary.C52_gauge_lost_by_flip",
    "Verif.Boundary.C52_flip_example"
   ],
   "note": "proved when the poloidal angle is not flipped; false when it is flipped (proved counterexample)"
  },
  {
   "property": "C53",
   "status": "partial",
   "theorems": [
    "Verif.Profiles.C53_nice_quadratic",
    "Verif.Profiles.C53_two_power",
    "Verif.Profiles.C53_two_power_antitone",
    "Verif.Profiles.C53_gauss_trunc",
    "Verif.Profiles.C53_two_lorentz",
    "Verif.Profiles.C53_two_power_gs",
    "Verif.Profiles.C53_pedestal_pressure",
    "Verif.Profiles.C53_pedestal_step",
    "Verif.Profiles.C53_pedestal_current",
    "Verif.Profiles.C53_rational",
    "Verif.Profiles.C53_sum_atan_limit_partial",
    "Verif.Profiles.C53_sum_atan_jump"
   ],
   "note": "sum_atan jumps at the edge (proved); quadrature error of the integrated forms not covered"
  },
  {
   "property": "C54",
   "status": "proved",
   "theorems": [
    "Verif.Profiles.C54_cubic_C2",
    "Verif.Profiles.C54_end_slopes",
    "Verif.Profiles.C54_reproduces_quadratics"
   ],
   "note": "over the reals"
  },
  {
   "property": "C55",
   "status": "proved",
   "theorems": [
    "Verif.Profiles.C55_reproduces_lines",
    "Verif.Profiles.C55_reflection"
   ],
   "note": "over the reals"
  },
  {
   "property": "C56",
   "status": "partial",
   "theorems": [
    "Verif.Contin.C56_agree_partial",
    "Verif.Contin.C56_differs",
    "Verif.Contin.C56_sqrt_linear_lost"
   ],
   "note": "agreement on shared surfaces, the axis and constant data; false in general (proved): the solver interpolates linearly in s, the Python code in sqrt(s)"
  },
  {
   "property": "C57",
   "status": "partial",
   "theorems": [
    "Verif.Makegrid.C57_table_partial",
    "Verif.Makegrid.C57_superposition_partial",
    "Verif.Makegrid.C57_grid_accepted",
    "Verif.Makegrid.C57_mirror_reads_computed",
    "Verif.Makegrid.C57_unsymmetric_range"
   ],
   "note": "proved for all grids and configurations; with assumed symmetry only for z ranges symmetric about the midplane, which the parameter check does not demand (counterexample proved); carrier fields linear in the current are a parameter; exact reals"
  },
  {
   "property": "C58",
   "status": "proved",
   "theorems": [
    "Verif.Makegrid.C58_straight",
    "Verif.Makegrid.C58_on_wire",
    "Verif.Makegrid.C58_linear"
   ],
   "note": "exact reals; hypot as a square root"
  },
  {
   "property": "C59",
   "status": "proved",
   "theorems": [
    "Verif.Kernels.C59_gradient",
    "Verif.Kernels.C59_team",
    "Verif.Kernels.C59_energy"
   ],
   "note": "exact reals; in real space (values of R, Z and their derivatives at the grid points); at fixed fluxes"
  },
  {
   "property": "C60",
   "status": "proved",
   "theorems": [
    "Verif.Kernels.C60_current",
    "Verif.Kernels.C60_iota",
    "Verif.Kernels.C60_flux"
   ],
   "note": "exact reals; the current needs the surface average of guu/gsqrt to be non-zero (otherwise the code leaves the flux alone)"
  },
  {
   "property": "C61",
   "status": "proved",
   "theorems": [
    "Verif.Kernels.C61_metric"
   ],
   "note": "exact reals"
  },
  {
   "property": "C62",
   "status": "partial",
   "theorems": [
    "Verif.Kernels.C62_gradient",
    "Verif.Kernels.C62_even_partial",
    "Verif.Kernels.C62_odd_error",
    "Verif.Kernels.C62_odd_differs"
   ],
   "note": "the exact gradient is derived; the even part agrees off the axis where nothing is blended; the odd part uses sqrt(s) of the surface and differs (proved), by at most the spacing of sqrt(s) times the field"
  },
  {
   "property": "C63",
   "status": "proved",
   "theorems": [
    "Verif.Transform.C63_geometry",
    "Verif.Transform.C63_constraint"
   ],
   "note": "stellarator-symmetric three-dimensional transform; exact reals"
  },
  {
   "property": "C64",
   "status": "proved",
   "theorems": [
    "Verif.Transform.C64_transpose",
    "Verif.Transform.C64_transpose_lambda",
    "Verif.Transform.C64_geometry",
    "Verif.Transform.C64_gradient"
   ],
   "note": "exact reals; without the constraint force and the vacuum pressure; displacements of the m >= 1 modes of the axis are excluded (the force transform has no such modes)"
  },
  {
   "property": "C65",
   "status": "partial",
   "theorems": [
    "Verif.Transform.C65_geometry_partial",
    "Verif.Transform.C65_constraint_partial",
    "Verif.Transform.C65_forces_partial",
    "Verif.Transform.C65_gradient_partial",
    "Verif.Transform.C65_other_surface",
    "Verif.Transform.C65_two_planes_wrong"
   ],
   "note": "proved on one toroidal plane (nzeta <= 1) with mpol >= 2; false otherwise: with nzeta > 1 the grid points hold the values of another surface (C65_two_planes_wrong); stellarator-symmetric; exact reals"
  },
  {
   "property": "C66",
   "status": "partial",
   "theorems": [
    "Verif.Indata.C66_returns_partial",
    "Verif.Indata.C66_accepted",
    "Verif.Indata.C66_negative_mode_ub",
    "Verif.Indata.C66_smallest_mode_ub",
    "Verif.Indata.C66_negative_resolution_ub",
    "Verif.Indata.C66_missing_axis_throws",
    "Verif.Indata.C66_integers_wrap"
   ],
   "note": "proved for documents without negative resolutions and poloidal modes whose asymmetric inputs come with their axis; false otherwise (proved witnesses); overflow of sizes and exhausted memory are not modelled; malformed text throws"
  },
  {
   "property": "C67",
   "status": "partial",
   "theorems": [
    "Verif.Indata.C67_roundtrip_partial",
    "Verif.Indata.C67_documented_partial",
    "Verif.Indata.C67_asymmetric_ub",
    "Verif.Indata.C67_stale_arrays",
    "Verif.Indata.C67_nul_truncated"
   ],
   "note": "proved for symmetric inputs without NUL characters in strings, loaded into any object without asymmetric arrays; undefined behaviour for every asymmetric input (proved); stale arrays stay in the object (proved)"
  },
  {
   "property": "C68",
   "status": "proved",
   "theorems": [
    "Verif.Asym.C68_geometry",
    "Verif.Asym.C68_constraint"
   ],
   "note": "three-dimensional transforms with lasym; exact reals"
  },
  {
   "property": "C69",
   "status": "proved",
   "theorems": [
    "Verif.Asym.C69_transpose",
    "Verif.Asym.C69_transpose_lambda",
    "Verif.Asym.C69_gradient"
   ],
   "note": "exact reals; without the constraint force and the vacuum pressure; displacements of the m >= 1 modes of the axis are excluded (the force transform has no such modes)"
  },
  {
   "property": "C70",
   "status": "proved",
   "theorems": [
    "Verif.Constraint.C70_filter",
    "Verif.Constraint.C70_bandpass"
   ],
   "note": "exact reals; array bounds of the work arrays are not part of it"
  },
  {
   "property": "C71",
   "status": "proved",
   "theorems": [
    "Verif.Constraint.C71_gradient",
    "Verif.Constraint.C71_gradient_asym",
    "Verif.Constraint.C71_penalty"
   ],
   "note": "exact reals; references and multipliers held fixed (the solver updates them between iterations); without the vacuum pressure; stellarator-symmetric, or lasym with ntor >= 1"
  },
  {
   "property": "C72",
   "status": "proved",
   "theorems": [
    "Verif.Nestor.C72_forward",
    "Verif.Nestor.C72_second",
    "Verif.Nestor.C72_backward",
    "Verif.Nestor.C72_roots"
   ],
   "note": "exact reals; the forward branch is exact, the backward branch has a proved error bound before and after the rescaling to T_0"
  },
  {
   "property": "C73",
   "status": "proved",
   "theorems": [
    "Verif.Nestor.C73_coefficients"
   ],
   "note": "exact reals"
  },
  {
   "property": "C74",
   "status": "partial",
   "theorems": [
    "Verif.Nestor.Ctx.C74_bvec_partial",
    "Verif.Nestor.Ctx.C74_grpmn_partial",
    "Verif.Nestor.Ctx.C74_redundant",
    "Verif.Nestor.Ctx.C74_counterexample"
   ],
   "note": "holds for the modes with m = 0 or n = 0; for m, n != 0 the code pairs T+ with m u - n v and T- with m u + n v, which is the integral for the metric with the sign of guv reversed (F67); proved for every regular point with guv > 0 to differ at m = n = 1. Forward branch of the recurrence (exact); exact reals"
  },
  {
   "property": "C75",
   "status": "proved",
   "theorems": [
    "Verif.Nestor.GCtx.C75_greenp",
    "Verif.Nestor.GCtx.C75_axisymmetric",
    "Verif.Nestor.GCtx.C75_subtracted"
   ],
   "note": "exact reals; the arrays of SurfaceGeometry are a parameter described by points and normal vectors"
  },
  {
   "property": "C76",
   "status": "proved",
   "theorems": [
    "Verif.Nestor.SCtx.C76_series",
    "Verif.Nestor.SCtx.C76_points",
    "Verif.Nestor.SCtx.C76_normal",
    "Verif.Nestor.SCtx.C76_forms",
    "Verif.Nestor.SCtx.C76_describes",
    "Verif.Nestor.SCtx.C76_quadratic",
    "Verif.Nestor.SCtx.C76_green"
   ],
   "note": "exact reals"
  },
  {
   "property": "C77",
   "status": "proved",
   "theorems": [
    "Verif.Nestor.Net.C77_transform",
    "Verif.Nestor.Net.C77_matrix",
    "Verif.Nestor.Net.C77_redundant",
    "Verif.Nestor.Net.C77_equation"
   ],
   "note": "exact reals; dgetrf/dgetrs are a relation (their result solves the system)"
  },
  {
   "property": "C78",
   "status": "partial",
   "theorems": [
    "Verif.Nestor.Net.C78_sine_rows_partial",
    "Verif.Nestor.Net.C78_even_partial",
    "Verif.Nestor.Net.C78_sine_rows_fail"
   ],
   "note": "F68: the rows of sines are not folded and use only the first half of the surface (proved what they hold); counterexample; right for integrands that are even under reflection"
  },
  {
   "property": "C79",
   "status": "proved",
   "theorems": [
    "Verif.Nestor.C79_axis",
    "Verif.Nestor.C79_segment",
    "Verif.Nestor.SCtx.C79_components"
   ],
   "note": "exact reals; the interpolated field is a parameter (see the properties of MGridProvider); the loops over segments and points are exchanged"
  },
  {
   "property": "C80",
   "status": "proved",
   "theorems": [
    "Verif.Nestor.SCtx.C80_potential",
    "Verif.Nestor.SCtx.C80_field",
    "Verif.Nestor.Net.C80_net"
   ],
   "note": "exact reals; modes below the number of grid points, as with mf = mpol + 1, nf = ntor"
  },
  {
   "property": "C81",
   "status": "proved",
   "theorems": [
    "Verif.Radial.C81_form",
    "Verif.Radial.C81_definite",
    "Verif.Radial.C81_solution",
    "Verif.Radial.C81_basis",
    "Verif.Radial.C81_updown",
    "Verif.Radial.C81_range"
   ],
   "note": "exact reals; the sign conditions are hypotheses on the fields; for m = 1 also that the innermost cell resists a common motion of axis and first surface; C81_updown records that the matrix for the shift in Z with active vacuum is not definite (finding F69)"
  },
  {
   "property": "C82",
   "status": "proved",
   "theorems": [
    "Verif.Output.C82_gather"
   ],
   "note": "exact reals; array bounds not modelled"
  },
  {
   "property": "C83",
   "status": "partial",
   "theorems": [
    "Verif.Output.C83_blending",
    "Verif.Output.C83_current",
    "Verif.Output.C83_flux_partial",
    "Verif.Output.C83_flux_fails"
   ],
   "note": "proved for flux profiles linear in s; C83_flux_fails shows that the edge flux is wrong for other profiles (finding F70)"
  },
  {
   "property": "C84",
   "status": "proved",
   "theorems": [
    "Verif.Output.C84_geometry",
    "Verif.Output.C84_geometry_asym",
    "Verif.Output.C84_axis",
    "Verif.Output.C84_lambda_half"
   ],
   "note": "exact reals; on the axis under the hypothesis that the coefficients with m, n >= 1 vanish there; the scan of mode numbers is C09"
  },
  {
   "property": "C85",
   "status": "partial",
   "theorems": [
    "Verif.Output.C85_basis",
    "Verif.Output.C85_field",
    "Verif.Output.C85_full_partial",
    "Verif.Output.C85_full_fails"
   ],
   "note": "the extrapolation of B_s is proved for ns >= 4; C85_full_fails shows that it is wrong for ns = 3 (finding F71); exact reals"
  },
  {
   "property": "C86",
   "status": "partial",
   "theorems": [
    "Verif.Output.C86_filter",
    "Verif.Output.C86_derivatives_partial",
    "Verif.Output.C86_exact",
    "Verif.Output.C86_lasym_s_fails",
    "Verif.Output.C86_lasym_derivative_fails"
   ],
   "note": "the values of the filter are proved in general, the derivatives without lasym; with lasym they are wrong (C86_lasym_s_fails, C86_lasym_derivative_fails, findings F72, F73); exact reals"
  },
  {
   "property": "C87",
   "status": "partial",
   "theorems": [
    "Verif.Output.C87_current_partial",
    "Verif.Output.C87_radial_current_fails",
    "Verif.Output.C87_force",
    "Verif.Output.C87_parallel",
    "Verif.Output.C87_bounds",
    "Verif.Output.C87_perpendicular_partial",
    "Verif.Output.C87_perpendicular_fails",
    "Verif.Output.C87_ends_partial",
    "Verif.Output.C87_ends_fails"
   ],
   "note": "Ampere's law is proved for itheta and izeta without lasym; jsups3 has the reversed sign (F74), the mixed term of jperp2 has the reversed sign (F75), the ends are wrong for ns = 3 (F76); exact reals"
  },
  {
   "property": "C88",
   "status": "partial",
   "theorems": [
    "Verif.Output.MercierIn.C88_gradient",
    "Verif.Output.MercierIn.C88_mercier",
    "Verif.Output.MercierIn.C88_signs",
    "Verif.Output.C88_reversal",
    "Verif.Output.MercierIn.C88_flux_partial",
    "Verif.Output.MercierIn.C88_flux_fails"
   ],
   "note": "the toroidal flux column is right only for a constant flux derivative (F77); exact reals; surfaces on which Phi' or the Jacobian vanishes are excluded"
  },
  {
   "property": "C89",
   "status": "partial",
   "theorems": [
    "Verif.Output.C89_symmetric_partial",
    "Verif.Output.C89_asymmetric_partial",
    "Verif.Output.C89_full_mean",
    "Verif.Output.C89_absB",
    "Verif.Output.C89_odd_fails"
   ],
   "note": "proved for nZeta = 1 and for even nZeta; for odd nZeta >= 3 the coefficient of the highest toroidal mode is half of what it must be (F78, C89_odd_fails); exact reals"
  },
  {
   "property": "C90",
   "status": "partial",
   "theorems": [
    "Verif.Output.C90_ampere_partial",
    "Verif.Output.CurrIn.C90_enclosed",
    "Verif.Output.CurrIn.C90_divergence",
    "Verif.Output.CurrIn.C90_ends_partial",
    "Verif.Output.CurrIn.C90_ends_fails"
   ],
   "note": "Ampere's law exact only for the radial dependence for which the differences are exact (linear in s, times sqrt(s) for odd m); with three surfaces the end values are wrong (F79)"
  },
  {
   "property": "C91",
   "status": "partial",
   "theorems": [
    "Verif.Output.TableIn.C91_beta",
    "Verif.Output.TableIn.C91_force",
    "Verif.Output.TableIn.C91_balance",
    "Verif.Output.TableIn.C91_volume_partial",
    "Verif.Output.TableIn.C91_volume_fails",
    "Verif.Output.TableIn.C91_flux",
    "Verif.Output.TableIn.C91_psi",
    "Verif.Output.TableIn.C91_chi_fails",
    "Verif.Output.TableIn.C91_full_grid",
    "Verif.Output.TableIn.C91_current",
    "Verif.Output.TableIn.C91_ends_partial",
    "Verif.Output.TableIn.C91_ends_fails"
   ],
   "note": "dV/dPhi has the wrong sign for a negative Jacobian, which is the sign the code uses (F80); the poloidal flux has the opposite sign of its stored derivative (F81); with three surfaces the ends are wrong (F82); surfaces on which a denominator vanishes are excluded"
  },
  {
   "property": "C92",
   "status": "partial",
   "theorems": [
    "Verif.Output.C92_area",
    "Verif.Output.C92_volume_partial",
    "Verif.Output.C92_volume_fails",
    "Verif.Output.C92_surface_element",
    "Verif.Output.C92_circular",
    "Verif.Output.C92_elongation",
    "Verif.Output.C92_extent",
    "Verif.Output.C92_zmax_partial",
    "Verif.Output.C92_zmax_fails",
    "Verif.Output.C92_zmax_fails_symmetric",
    "Verif.Output.C92_field",
    "Verif.Output.C92_waist_partial",
    "Verif.Output.C92_waist_fails",
    "Verif.Output.C92_planes_fail",
    "Verif.Output.C92_height_partial",
    "Verif.Output.average_exact",
    "Verif.Output.series_trig"
   ],
   "note": "the volume is aliased when three times the highest mode number reaches the number of grid points, which happens on the grids the code chooses (F83); vertical extent and height need a surface above the midplane (F84); the waist is read from another surface with lasym (F85); axisymmetric runs with several toroidal points write out of bounds (F86)"
  },
  {
   "property": "C93",
   "status": "proved",
   "theorems": [
    "Verif.Output.GeomIn.C93_energies",
    "Verif.Output.GeomIn.C93_energies_nonneg",
    "Verif.Output.GeomIn.C93_betas",
    "Verif.Output.GeomIn.C93_averages",
    "Verif.Output.GeomIn.C93_flux",
    "Verif.Output.GeomIn.C93_diamagnetic",
    "Verif.Output.GeomIn.C93_parallel"
   ],
   "note": "on top of a total pressure p + B^2/2, dV/ds as the sum of the volume elements, and <sqrt(g) B^v> = phi', the properties of the half-grid state (fluxes: C60)"
  },
  {
   "property": "C94",
   "status": "partial",
   "theorems": [
    "Verif.Output.C94_coefficients",
    "Verif.Output.C94_knots",
    "Verif.Output.C94_status",
    "Verif.Output.C94_status_partial",
    "Verif.Output.C94_status_not_injective",
    "Verif.Output.C94_wdot",
    "Verif.Output.C94_wdot_partial",
    "Verif.Output.C94_wdot_wrong",
    "Verif.Output.C94_wdot_counterexample",
    "Verif.Output.C94_q_factor",
    "Verif.Output.C94_half_grid",
    "Verif.Output.C94_axis_coefficients",
    "Verif.Output.C94_axis",
    "Verif.Output.C94_total"
   ],
   "note": "wdot is assigned from itself with an offset, so that later elements use overwritten ones (F87); converged and not converged runs have the same flag (F88); the strings and plain copies of numbers are not modelled"
  },
  {
   "property": "C95",
   "status": "partial",
   "theorems": [
    "Verif.Output.ShafIn.C95_free_boundary",
    "Verif.Output.ShafIn.C95_fixed_boundary",
    "Verif.Output.ShafIn.C95_surface_element",
    "Verif.Output.ShafIn.C95_sums",
    "Verif.Output.ShafIn.C95_table",
    "Verif.Output.ShafIn.C95_factor",
    "Verif.Output.ShafIn.C95_volume_integrals",
    "Verif.Output.ShafIn.C95_rshaf",
    "Verif.Output.ShafIn.C95_uniform_partial",
    "Verif.Output.ShafIn.C95_rshaf_bounds",
    "Verif.Output.ShafIn.C95_scaling_partial",
    "Verif.Output.C95_scaling_fails"
   ],
   "note": "the scaling ratio uses the current of the input file, not that of the plasma (F89); the identities for a uniform pressure need the resolution of C92_volume_partial"
  },
  {
   "property": "C96",
   "status": "partial",
   "theorems": [
    "Verif.Output.C96_extent_partial",
    "Verif.Output.C96_shape_partial",
    "Verif.Output.C96_bounds_partial",
    "Verif.Output.C96_axisymmetric",
    "Verif.Output.C96_parallel",
    "Verif.Output.C96_no_current",
    "Verif.Output.C96_extent_fails",
    "Verif.Output.C96_plane_fails"
   ],
   "note": "without the symmetry the second pass reflects a surface that is not symmetric, and with an odd number of toroidal points the second plane is no plane of symmetry (F90)"
  },
  {
   "property": "C97",
   "status": "partial",
   "theorems": [
    "Verif.PyOutput.C97_roundtrip_partial",
    "Verif.PyOutput.C97_load_partial",
    "Verif.PyOutput.C97_defaults",
    "Verif.PyOutput.C97_padding_fails",
    "Verif.PyOutput.C97_empty_fails",
    "Verif.PyOutput.C97_two_empty_fails",
    "Verif.PyOutput.C97_default_fails",
    "Verif.PyOutput.C97_ascii_fails",
    "Verif.PyOutput.C97_strip_fails"
   ],
   "note": "false for fields of different length on one dimension, for empty arrays, for the default of the current harmonics, and for strings that are not ASCII or end in white space (F91-F93)"
  },
  {
   "property": "C98",
   "status": "partial",
   "theorems": [
    "Verif.PyJson.C98_roundtrip_partial",
    "Verif.PyJson.C98_standard",
    "Verif.PyJson.C98_numbers",
    "Verif.PyJson.C98_empty_int_fails",
    "Verif.PyJson.C98_empty_rows_fails",
    "Verif.PyJson.C98_scalar_fails",
    "Verif.PyJson.C98_union_fails",
    "Verif.PyJson.C98_ragged_fails",
    "Verif.PyJson.C98_whole_fails"
   ],
   "note": "false for empty arrays of integers, arrays without rows, arrays without dimensions, and unions of lists and arrays (F94, F95)"
  },
  {
   "property": "C99",
   "status": "proved",
   "theorems": [
    "Verif.Coeffs.C99_surface",
    "Verif.Coeffs.C99_gauge",
    "Verif.Coeffs.C99_bounds",
    "Verif.Coeffs.C99_average",
    "Verif.Coeffs.C99_average_bounds"
   ],
   "note": "the TODO in vmec.cc:1167 (does <M> include scalxc?) is answered: the state holds physical coefficients apart from the m = 1 gauge, which the routine undoes"
  },
  {
   "property": "C100",
   "status": "partial",
   "theorems": [
    "Verif.PyModel.C100_set_get",
    "Verif.PyModel.C100_get_set",
    "Verif.PyModel.C100_length",
    "Verif.PyModel.C100_layout",
    "Verif.PyModel.C100_step",
    "Verif.PyModel.C100_hvp_partial",
    "Verif.PyModel.C100_quadratic_partial",
    "Verif.PyModel.C100_homogeneous_partial",
    "Verif.PyModel.C100_stale_fails",
    "Verif.PyModel.C100_restore_fails",
    "Verif.PyModel.C100_direction_fails",
    "Verif.PyModel.C100_memory_fails"
   ],
   "note": "the product is wrong if the Jacobian changes sign at a perturbed state or in free-boundary runs, is not restored after an error, and accepts directions of any length (F96)"
  },
  {
   "property": "C101",
   "status": "partial",
   "theorems": [
    "Verif.Coeffs.C101_team",
    "Verif.Coeffs.C101_zero",
    "Verif.Coeffs.C101_isometry",
    "Verif.Coeffs.C101_virtual_work_partial",
    "Verif.Coeffs.C101_gradient_fails",
    "Verif.Coeffs.C101_gauge",
    "Verif.Coeffs.C101_force",
    "Verif.Coeffs.C101_m1_weights",
    "Verif.Coeffs.C101_lambda_scaling",
    "Verif.Coeffs.C101_norm"
   ],
   "note": "the force on the state is the gradient only after the m=1 forces of the pairs are multiplied by sqrt(2) (F97); surfaces next to the axis, where the geometry is extrapolated, are outside the virtual-work statement's model"
  },
  {
   "property": "C102",
   "status": "partial",
   "theorems": [
    "Verif.Profiles.C102_half_grid",
    "Verif.Profiles.C102_full_grid",
    "Verif.Profiles.C102_staggering",
    "Verif.Profiles.C102_lamscale",
    "Verif.Profiles.C102_no_reset",
    "Verif.Profiles.C102_thread_independent",
    "Verif.Profiles.C102_current_partial",
    "Verif.Profiles.C102_current_dropped",
    "Verif.Profiles.C102_pedestal",
    "Verif.Profiles.C102_flip_fails",
    "Verif.Profiles.C102_axis_stale",
    "Verif.Profiles.C102_polflux"
   ],
   "note": "current profiles small against the net current in amperes are dropped (F98); the full grid is not reversed with the angle (F99), and chi' on the axis keeps that value to the output (F100)"
  },
  {
   "property": "C103",
   "status": "partial",
   "theorems": [
    "Verif.PyFiles.C103_names",
    "Verif.PyFiles.C103_refused",
    "Verif.PyFiles.C103_wout",
    "Verif.PyFiles.C103_wout_refused",
    "Verif.PyFiles.C103_input_json_fails",
    "Verif.PyFiles.C103_same_output",
    "Verif.PyFiles.C103_indata_name",
    "Verif.PyFiles.C103_indata",
    "Verif.PyFiles.C103_indata_fails",
    "Verif.PyFiles.C103_cli_partial",
    "Verif.PyFiles.C103_result_lost",
    "Verif.PyFiles.C103_convert",
    "Verif.PyFiles.C103_convert_main",
    "Verif.PyFiles.C103_convert_fails",
    "Verif.PyFiles.C103_context",
    "Verif.PyFiles.C103_context_fails"
   ],
   "note": "input.json, input.N.json, JSON input with other names, lower-case namelists, converting JSON input and an existing temporary name violate the claim (F101-F106)"
  },
  {
   "property": "C104",
   "status": "partial",
   "theorems": [
    "Verif.Profiles.C104_knots",
    "Verif.Profiles.C104_refused",
    "Verif.Profiles.C104_exact_partial",
    "Verif.Profiles.C104_arrays",
    "Verif.Profiles.C104_outside",
    "Verif.Profiles.C104_between",
    "Verif.Profiles.C104_jump",
    "Verif.Profiles.C104_flux_fails",
    "Verif.Profiles.C104_rounding_fails",
    "Verif.Profiles.C104_current_zero"
   ],
   "note": "exact on the grid in exact arithmetic; the evaluator jumps at every knot, so one unit in the last place or a non-uniform flux gives wrong values (F107); the callable is evaluated below the axis (F108); current profiles need curtor (F109)"
  },
  {
   "property": "C105",
   "status": "partial",
   "theorems": [
    "Verif.PySimsopt.C105_fresh",
    "Verif.PySimsopt.C105_history",
    "Verif.PySimsopt.C105_once",
    "Verif.PySimsopt.C105_wout_object",
    "Verif.PySimsopt.C105_edit_stale",
    "Verif.PySimsopt.C105_mean_iota",
    "Verif.PySimsopt.C105_mean_shear",
    "Verif.PySimsopt.C105_vacuum_well",
    "Verif.PySimsopt.C105_external_current"
   ],
   "note": "assigning to vmec.indata does not invalidate the cache (F110)"
  },
  {
   "property": "C106",
   "status": "partial",
   "theorems": [
    "Verif.Makegrid.C106_contents",
    "Verif.Makegrid.C106_roundtrip",
    "Verif.Makegrid.C106_small_table_ub",
    "Verif.Makegrid.C106_other_grid_accepted",
    "Verif.Makegrid.C106_currents_one",
    "Verif.Makegrid.C106_currents_lack_windings",
    "Verif.Makegrid.C106_half_field",
    "Verif.Makegrid.C106_mode_number_ub",
    "Verif.Makegrid.C106_float_tables"
   ],
   "note": "the currents in the file are always 1 (F112); sizes are not compared (F111)"
  },
  {
   "property": "C107",
   "status": "partial",
   "theorems": [
    "Verif.CoilGeom.C107_scaleTo",
    "Verif.CoilGeom.C107_frame_partial",
    "Verif.CoilGeom.C107_orthonormal_iff",
    "Verif.CoilGeom.C107_frame_not_unit",
    "Verif.CoilGeom.C107_frame_zero",
    "Verif.CoilGeom.C107_vertex",
    "Verif.CoilGeom.C107_vertex_compose",
    "Verif.CoilGeom.C107_vertex_back",
    "Verif.CoilGeom.C107_config",
    "Verif.CoilGeom.C107_refused",
    "Verif.CoilGeom.C107_circle_aborts",
    "Verif.CoilGeom.C107_half_moved",
    "Verif.CoilGeom.C107_negative_radius",
    "Verif.CoilGeom.C107_past_axis",
    "Verif.CoilGeom.C107_on_axis"
   ],
   "note": "the second and third vector of the frame have unit length only for axes with a vanishing component (F114); a refused movement is done in part or terminates the process (F115)"
  },
  {
   "property": "C108",
   "status": "partial",
   "theorems": [
    "Verif.CoilGeom.C108_complete",
    "Verif.CoilGeom.C108_roundtrip",
    "Verif.CoilGeom.C108_incomplete",
    "Verif.CoilGeom.C108_rewrite",
    "Verif.CoilGeom.C108_digits_lost",
    "Verif.CoilGeom.C108_shift",
    "Verif.CoilGeom.C108_header_only",
    "Verif.CoilGeom.C108_carriage_return",
    "Verif.CoilGeom.C108_tangent",
    "Verif.CoilGeom.C108_integral",
    "Verif.CoilGeom.C108_wire",
    "Verif.CoilGeom.C108_superposition",
    "Verif.CoilGeom.C108_same_curve",
    "Verif.CoilGeom.C108_no_periods",
    "Verif.CoilGeom.C108_negative_modes",
    "Verif.CoilGeom.C108_not_periodic"
   ],
   "note": "tables of another form are accepted, 16 digits do not restore a double (F116); unset number of periods gives NaN, mode numbers are not multiplied by the periods (F117)"
  },
  {
   "property": "C109",
   "status": "partial",
   "theorems": [
    "Verif.FreeBound.C109_handover",
    "Verif.FreeBound.C109_axis",
    "Verif.FreeBound.C109_same_point",
    "Verif.FreeBound.C109_edge",
    "Verif.FreeBound.C109_elsewhere",
    "Verif.FreeBound.C109_force",
    "Verif.FreeBound.C109_delbsq",
    "Verif.FreeBound.C109_check",
    "Verif.FreeBound.C109_check_fails",
    "Verif.FreeBound.C109_reference",
    "Verif.FreeBound.C109_reference_vanishes",
    "Verif.FreeBound.C109_two_surfaces_fails"
   ],
   "note": "a vacuum field that is not a number passes both checks, and so does a plasma without toroidal field (F118); same point and work of the force are proved for stellarator-symmetric runs"
  },
  {
   "property": "C110",
   "status": "partial",
   "theorems": [
    "Verif.OnlyCoils.C110_field",
    "Verif.OnlyCoils.C110_points",
    "Verif.OnlyCoils.C110_net",
    "Verif.OnlyCoils.C110_nestor",
    "Verif.OnlyCoils.C110_input",
    "Verif.OnlyCoils.C110_current_fails"
   ],
   "note": "the check looks at curtor and pres_scale only, so a plasma current from a prescribed rotational transform is accepted and ignored (F119)"
  },
  {
   "property": "C111",
   "status": "partial",
   "theorems": [
    "Verif.FieldTable.C111_import",
    "Verif.FieldTable.C111_errors",
    "Verif.FieldTable.C111_parameters",
    "Verif.FieldTable.C111_tables",
    "Verif.FieldTable.C111_identity",
    "Verif.FieldTable.C111_ignored_fails",
    "Verif.FieldTable.C111_stale_fails",
    "Verif.FieldTable.C111_shared_fails",
    "Verif.FieldTable.C111_file_fails",
    "Verif.FieldTable.C111_wrap_fails",
    "Verif.FieldTable.C111_nan_fails"
   ],
   "note": "changed parameters and exchanged arrays are ignored while the arrays are views of a C++ table, a missing file ends the process, integers beyond 32 bits wrap, NaN is a usable extent (F120)"
  },
  {
   "property": "C112",
   "status": "partial",
   "theorems": [
    "Verif.OutputIo.C112_result",
    "Verif.OutputIo.C112_roundtrip_partial",
    "Verif.OutputIo.C112_old",
    "Verif.OutputIo.C112_missing",
    "Verif.OutputIo.C112_square_fails",
    "Verif.OutputIo.C112_square_witness",
    "Verif.OutputIo.C112_currents_fails",
    "Verif.OutputIo.C112_unsaved_fails",
    "Verif.OutputIo.C112_labels_fails"
   ],
   "note": "with as many modes as surfaces the Fourier arrays come back transposed; the currents of a fixed-boundary run and eleven members of wout are lost; labels of currents are undefined behaviour when written (F121). The group /indata is C67"
  },
  {
   "property": "C113",
   "status": "partial",
   "theorems": [
    "Verif.PyWout.C113_shows",
    "Verif.PyWout.C113_accepted_iff",
    "Verif.PyWout.C113_hands",
    "Verif.PyWout.C113_restart",
    "Verif.PyWout.C113_restart_state",
    "Verif.PyWout.C113_back",
    "Verif.PyWout.C113_back_partial",
    "Verif.PyWout.C113_padded",
    "Verif.PyWout.C113_others",
    "Verif.PyWout.C113_snapshot_partial",
    "Verif.PyWout.C113_hidden_fails",
    "Verif.PyWout.C113_extra_fails",
    "Verif.PyWout.C113_mode_fails",
    "Verif.PyWout.C113_none_fails",
    "Verif.PyWout.C113_snapshot_fails"
   ],
   "note": "bsubsmns_full and bsubsmnc_full are not shown, extra attributes are not handed over, None arrays with lasym, a finished run with another mgrid mode is lost, and the output refers to the input object of the caller (F122)"
  },
  {
   "property": "C114",
   "status": "partial",
   "theorems": [
    "Verif.TridiagOmp.C114_exclusive",
    "Verif.TridiagOmp.C114_no_deadlock",
    "Verif.TridiagOmp.C114_ends",
    "Verif.TridiagOmp.C114_order",
    "Verif.TridiagOmp.C114_result_partial",
    "Verif.TridiagOmp.C114_serial_partial",
    "Verif.TridiagOmp.C114_first_fails",
    "Verif.TridiagOmp.C114_last_fails"
   ],
   "note": "the protocol is proved in full; the result needs two rows more on the first thread than the first active row, and a thread that begins with the last active row must end with it, otherwise a stale handover is used (F123)"
  },
  {
   "property": "C115",
   "status": "partial",
   "theorems": [
    "Verif.Race.C115_no_race_partial",
    "Verif.Race.C115_same_values_partial",
    "Verif.Race.C115_roles",
    "Verif.Race.C115_vacuum_no_race",
    "Verif.Race.C115_barrier_needed"
   ],
   "note": "threads follow the same text, which C115_same_values_partial justifies as far as branches depend on shared variables; the one branch on a value of the single thread (error of constraintForceMultiplier, finding of C40) is left out; which functions touch which shared variables was read off the code by hand"
  },
  {
   "property": "C116",
   "status": "partial",
   "theorems": [
    "Verif.Csv.C116_complete",
    "Verif.Csv.C116_roundtrip_partial",
    "Verif.Csv.C116_identity_partial",
    "Verif.Csv.C116_surface_identity_partial",
    "Verif.Csv.C116_accuracy",
    "Verif.Csv.C116_read_curve",
    "Verif.Csv.C116_read_surface",
    "Verif.Csv.C116_digits_lost",
    "Verif.Csv.C116_throws",
    "Verif.Csv.C116_line_ends"
   ],
   "note": "coefficients come back as the doubles closest to their first 16 digits, which is not the identity (F124); a cell that is no number throws (F125)"
  },
  {
   "property": "C117",
   "status": "partial",
   "theorems": [
    "Verif.Logger.C117_range",
    "Verif.Logger.C117_meaning",
    "Verif.Logger.C117_bar",
    "Verif.Logger.C117_infinite",
    "Verif.Logger.C117_memory",
    "Verif.Logger.C117_memory_fails",
    "Verif.Logger.C117_silent",
    "Verif.Logger.C117_screen",
    "Verif.Logger.C117_skipped"
   ],
   "note": "proved for the indices of the user's grids; the retry with three surfaces would use index -1 (F126); skipped stages are shown as waiting with NS=0 (F127); other output between two displays is not modelled"
  },
  {
   "property": "C118",
   "status": "proved",
   "theorems": [
    "Verif.ParFor.C118_progress",
    "Verif.ParFor.C118_terminates",
    "Verif.ParFor.C118_absB",
    "Verif.ParFor.C118_half",
    "Verif.ParFor.C118_full",
    "Verif.ParFor.C118_serial",
    "Verif.ParFor.C118_work_bounds",
    "Verif.ParFor.C118_convert",
    "Verif.ParFor.C118_mirror",
    "Verif.ParFor.C118_middle_plane"
   ],
   "note": "sequentially consistent memory, which OpenMP guarantees without data races; fields of one point one after the other"
  },
  {
   "property": "C119",
   "status": "proved",
   "theorems": [
    "Verif.Bounds.C119_no_access_out_of_range",
    "Verif.Bounds.C119_two_surfaces_out_of_range",
    "Verif.Bounds.C119_one_mode_out_of_range"
   ],
   "note": "index arithmetic of the non-FFT path; int overflow not considered; branches on floating-point values contribute the accesses of both sides; the solves between gather and scatter are C13/C114"
  },
  {
   "property": "C120",
   "status": "proved",
   "theorems": [
    "Verif.Views.C120_objects_behave_as_values",
    "Verif.Views.C120_spans_show_own_arrays",
    "Verif.Views.C120_no_leak",
    "Verif.Views.C120_spans_fit_the_loops",
    "Verif.Views.C120_restore_returns_the_saved_state",
    "Verif.Views.C120_moved_from_spans_alias",
    "Verif.Views.C120_assignment_keeps_the_sizes"
   ],
   "note": "Eigen's resize, copy and move from their documented behaviour (3.4); objects that were moved from may only be assigned to or destroyed, the last two theorems show what happens otherwise"
  },
  {
   "property": "C121",
   "status": "proved",
   "theorems": [
    "Verif.VacBounds.C121_no_access_out_of_range",
    "Verif.VacBounds.C121_system_is_filled",
    "Verif.VacBounds.C121_needs_nyquist_modes"
   ],
   "note": "accesses only, no values; LAPACK accesses its arguments as its interface says; integers unbounded"
  },
  {
   "property": "C122",
   "status": "proved",
   "theorems": [
    "Verif.VacSrc.C122_no_access_out_of_range",
    "Verif.VacSrc.C122_every_other_point_once",
    "Verif.VacSrc.C122_every_point_of_thread_once"
   ],
   "note": "accesses only, no values; both branches of the recurrence counted; accesses of the mgrid tables are C35; integers unbounded"
  }
 ]
}