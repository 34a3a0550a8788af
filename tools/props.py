#!/usr/bin/env python3
"""Regenerates /verif/properties.jsonl from the table below (run from anywhere)."""
import json, pathlib
P = []
def prop(id, title, statement, quantifier, why, anchors):
    P.append(dict(id=id, title=title, statement=statement, quantifier=quantifier,
                  why_tests_cant=why, anchors=anchors))
C = "src/vmecpp/cpp/vmecpp/"

prop("C01", "Radial work split covers every flux surface exactly once",
 "For every number of flux surfaces and every admissible thread count, in fixed- and free-boundary mode, the force/update ranges handed to the threads are disjoint and together cover exactly the surfaces that are evolved (all ns in free-boundary mode, all but the last in fixed-boundary mode); range sizes differ by at most one.",
 "all ns >= 3, all thread counts 1..N/2, all thread ids, both boundary modes",
 "unit tests use a handful of (ns, threads) pairs; the claim is for every pair",
 [C+"vmec/radial_partitioning/radial_partitioning.cc:RadialPartitioning::adjustRadialPartitioning"])
prop("C02", "Halo and half-grid ranges are what neighbours need",
 "Every thread's inclusive geometry range contains each surface it owns together with the inner and outer neighbour that exist, its half-grid range is exactly the set of half-grid points between consecutive surfaces of that inclusive range, and adjacent threads share exactly one half-grid point; hence each stencil access j-1, j, j+1 of an owned surface stays inside the thread's own arrays.",
 "all ns, thread counts, thread ids, boundary modes",
 "an off-by-one shows up only for particular ns/thread remainders",
 [C+"vmec/radial_partitioning/radial_partitioning.cc", C+"vmec/ideal_mhd_model/jacobian_kernel.h"])
prop("C03", "Volume/energy/profile integrals count each half-grid point exactly once",
 "The rule used to avoid double counting shared half-grid points (keep all but the thread's last half-grid point, except at the last half-grid point of the torus) selects every half-grid point in exactly one thread, so reported integrals (volume, energies, RMS flux, spectral width) do not depend on the thread count in exact arithmetic.",
 "all ns, thread counts, boundary modes, all integrands",
 "needs all remainder classes of surfaces modulo threads and all integrands",
 [C+"vmec/ideal_mhd_model/ideal_mhd_model.cc:pressureAndEnergies,computeInitialVolume,updateVolume,computeForceNorms", C+"vmec/radial_profiles/radial_profiles.cc:evalRadialProfiles"])
prop("C04", "Thread-count adjustment never aborts and leaves two surfaces per thread",
 "For every requested maximum thread count >= 1 and every accepted ns >= 3, the number of threads the solver chooses is at least one, at most the request, never triggers the fatal 'too many threads' abort, every thread owns at least two surfaces, and exactly one thread holds the last closed flux surface together with its inner neighbour.",
 "all max_threads >= 1, ns >= 3, both boundary modes",
 "extremes (ns=3, huge core counts) are a two-parameter family",
 [C+"common/util/util.cc:vmec_adjust_num_threads", C+"vmec/vmec/vmec.cc:InitializeRadial", C+"vmec/radial_partitioning/radial_partitioning.cc"])
prop("C05", "Vacuum-grid and preconditioner work splits cover all points exactly once",
 "The split of the nZeta*nTheta vacuum grid points among threads, and the split of the Fourier modes among threads in the radial preconditioner, are contiguous, disjoint and cover all points, for every thread count (threads may be idle when there are more threads than points).",
 "all sizes and thread counts and thread ids",
 "two-parameter family",
 [C+"free_boundary/tangential_partitioning/tangential_partitioning.cc", C+"common/util/util.cc:vmec_adjust_vacuum_num_threads", C+"vmec/ideal_mhd_model/ideal_mhd_model.cc:applyRZPreconditioner"])
prop("C06", "Shared accumulators are schedule independent",
 "Global sums that are zeroed by one thread, added to by every thread in a critical section and read after a barrier have, in exact arithmetic, the value of the sum of all contributions under every interleaving of the threads, and no thread reads the value before all have contributed.",
 "all thread counts, all interleavings, all contributions, all preceding values of the accumulator",
 "tests observe one schedule",
 [C+"vmec/ideal_mhd_model/ideal_mhd_model.cc:evalFResInvar,evalFResPrecd,pressureAndEnergies"])
prop("C07", "Grid sizes satisfy the Nyquist bounds for every input",
 "For every accepted mpol, ntor and every requested ntheta, nzeta the solver's real-space grid has an even poloidal point count of at least 2*mpol+6 and, in 3D, at least 2*ntor+4 toroidal points; a request that is large enough is honoured (rounded down to even in theta); all derived array sizes are positive and consistent.",
 "all integers nfp>=1, mpol>=1, ntor>=0, ntheta, nzeta",
 "unbounded integer family",
 [C+"common/sizes/sizes.cc:Sizes::computeDerivedSizes"])
prop("C08", "Surface integration weights are a partition of unity",
 "The surface average of a constant equals that constant for every resolution, with and without stellarator symmetry; on the reduced grid the half weights at the end points make the reduced-grid average equal the full-grid average of any stellarator-symmetric (even) function.",
 "all resolutions, both symmetry flags, all even grid functions",
 "all resolutions and all functions",
 [C+"common/sizes/sizes.cc:wInt", C+"common/fourier_basis/fourier_basis.cc"])
prop("C09", "Fourier mode tables enumerate each (m,n) exactly once",
 "The mode-number tables reported to users (xm, xn) list every mode m=0..mpol-1, n=-ntor..ntor (n=0..ntor for m=0) exactly once, in the order assumed by the index formula; the number of entries equals the documented mode count, for state and Nyquist resolution, and the Python continuation code builds the same table.",
 "all mpol, ntor, nfp",
 "unbounded family of resolutions",
 [C+"common/fourier_basis/fourier_basis.cc:mnIdx,mnMax,computeConversionIndices", "src/vmecpp/_continuation.py:_state_mode_table"])
prop("C10", "Conversion between combined and product Fourier coefficients is lossless",
 "Converting cos/sin(m*theta-n*zeta) coefficients to the internal product basis and back returns the original coefficients, in both storage layouts (for sine: except the meaningless m=n=0 entry, which becomes zero), for every resolution and every coefficient vector.",
 "all mpol, ntor, all coefficient vectors over a field",
 "all resolutions and coefficient values",
 [C+"common/fourier_basis/fourier_basis.cc:cos_to_cc_ss,sin_to_sc_cs,cc_ss_to_cos,sc_cs_to_sin"])
prop("C11", "Product-basis coefficients represent the same function of the angles",
 "The function of (theta, zeta) represented by the product-basis coefficients equals the function represented by the combined-basis coefficients at every pair of angles.",
 "all angles, resolutions, coefficient vectors",
 "all angles and coefficients",
 [C+"common/fourier_basis/fourier_basis.cc"])
prop("C12", "Discrete Fourier analysis inverts Fourier synthesis on the solver grid",
 "On the grid chosen by the solver, synthesising a band-limited function from its coefficients and analysing it with the solver's normalised basis tables returns the coefficients exactly (in exact arithmetic); i.e. the discrete basis is orthonormal for every resolution.",
 "all resolutions, all coefficient vectors",
 "all resolutions",
 [C+"common/fourier_basis/fourier_basis.cc:computeFourierBasis*", C+"vmec/ideal_mhd_model/ideal_mhd_model.cc:dft_*", C+"vmec/ideal_mhd_model/dft_toroidal.cc"])
prop("C13", "The radial tridiagonal solver solves its system",
 "Whenever no pivot vanishes, the vectors returned by the serial tridiagonal solver satisfy the tridiagonal system for all right-hand sides and every active row range, rows below the active range are returned as zero, everything else in the right-hand-side storage is left untouched, and the solution is the unique one.",
 "all sizes, row ranges, matrix entries and right-hand sides over a field, all numbers of right-hand sides",
 "all matrices",
 [C+"common/util/util.cc:TridiagonalSolveSerial"])
prop("C14", "The solver terminates within its iteration budget",
 "Each multigrid stage performs at most niter force evaluations per attempt and at most a fixed number of retries, whatever residuals, Jacobian verdicts or errors the forward model produces; so a run always terminates.",
 "all forward-model behaviours (oracles), all niter, ftol, delt",
 "adversarial forward-model histories cannot be enumerated",
 [C+"vmec/vmec/vmec.cc:SolveEquilibrium,SolveEquilibriumLoop,Evolve"])
prop("C15", "Success is reported only for a state whose residuals met the tolerance",
 "If a stage reports the tolerance-reached status, the last force evaluation produced three residuals that are all finite and at most ftol, and the state handed to the output stage is the one whose residuals were evaluated.",
 "all forward-model behaviours",
 "requires all histories",
 [C+"vmec/vmec/vmec.cc:Evolve,SolveEquilibriumLoop,run"])
prop("C16", "Non-finite residuals are never reported as converged",
 "If any residual of a force evaluation is NaN or infinite, that evaluation never leads to a tolerance-reached status and never advances the geometry.",
 "all double values including NaN and infinities",
 "all histories",
 [C+"vmec/vmec/vmec.cc:Evolve"])
prop("C17", "Bad-Jacobian escalation is monotone and gives up after 75 resets",
 "The bad-Jacobian counter never decreases within a stage, the time-step resets at 25 and 50 happen at most once each, the axis re-guess at most once, and once the counter reaches 75 the stage ends unsuccessfully.",
 "all forward-model behaviours",
 "all histories",
 [C+"vmec/vmec/vmec.cc:SolveEquilibriumLoop,RestartIteration"])
prop("C18", "The pseudo time step stays positive and never exceeds the user's value",
 "Starting from delt > 0, under every sequence of restarts the time step used to advance the solution satisfies 0 < step <= delt.",
 "all delt > 0 and all histories",
 "all histories",
 [C+"vmec/vmec/vmec.cc:RestartIteration,SolveEquilibriumLoop"])
prop("C19", "A restart returns to the last saved geometry with zero velocity",
 "After every restart caused by a bad Jacobian or bad progress, the Fourier state equals the most recently saved checkpoint and all velocities are zero, on all threads and for every surface.",
 "all states, checkpoints, thread counts",
 "all histories",
 [C+"vmec/vmec/vmec.cc:RestartIteration"])
prop("C20", "Vacuum coupling is switched on monotonically",
 "In free-boundary mode the vacuum coupling state only moves forward (off, initializing, initialized, active) within a stage, one step per force evaluation apart from the combined initialise step, never skips the soft restart, and is never entered while the residual sum is at or above the threshold.",
 "all residual histories including NaN",
 "all histories",
 [C+"vmec/ideal_mhd_model/ideal_mhd_model.cc:update"])
prop("C21", "The vacuum update interval stays positive and bounded",
 "The number of iterations between full vacuum updates starts at the user's value >= 1, never decreases, and never exceeds max(user value, 10); hence the modulus used for scheduling is never by zero.",
 "all residual histories",
 "all histories",
 [C+"vmec/ideal_mhd_model/ideal_mhd_model.cc:update", C+"common/vmec_indata/vmec_indata.cc:IsConsistent"])
prop("C22", "The Jacobian sign check detects every sign change, for every thread count",
 "An evaluation is flagged as having a bad Jacobian exactly when the Jacobian changes sign or is not finite somewhere on the half grid, and the verdict does not depend on the number of threads.",
 "all Jacobian fields (including zeros, infinities, NaN), all thread counts",
 "all fields and partitions",
 [C+"vmec/ideal_mhd_model/ideal_mhd_model.cc:computeJacobian"])
prop("C23", "Input validation is total and implies the documented constraints",
 "For every input object, the consistency check returns a status (never undefined behaviour), and whenever it returns OK the documented constraints hold: positive field periods, mpol>=2, ntor>=0, non-decreasing ns>=3, matching array lengths, non-negative tolerances, positive iteration counts, non-zero flux, 0<=ncurr<=1, non-negative pressure scale, gamma != 1, pedestal in (0,1].",
 "all input objects, including empty optional arrays and NaN",
 "the input space is unbounded",
 [C+"common/vmec_indata/vmec_indata.cc:VmecINDATA::IsConsistent"])
prop("C24", "Writing an input to JSON and reading it back is the identity",
 "For every accepted input, parsing the JSON text produced from it yields an equal input, with and without stellarator symmetry.",
 "all accepted inputs",
 "unbounded input space",
 [C+"common/vmec_indata/vmec_indata.cc:ToJson,FromJson", C+"common/vmec_indata/boundary_from_json.cc"])
prop("C25", "Changing the Fourier resolution of an input keeps the shared coefficients",
 "Setting new mpol/ntor on an input keeps every coefficient whose mode exists in both resolutions, sets modes new to the target to zero, gives arrays of the right shape, and is the identity for unchanged resolution; enlarging and shrinking back loses nothing.",
 "all old/new resolutions, all coefficients",
 "unbounded family",
 [C+"common/vmec_indata/vmec_indata.cc:SetMpolNtor", "src/vmecpp/__init__.py:resize_2d_coeff,resize_1d_axis_coeff"])
prop("C26", "The internal boundary describes the user's boundary",
 "The boundary surface (R,Z)(theta,zeta) described by the internal product-basis boundary arrays equals the one described by the user's rbc/zbs (and, without stellarator symmetry, rbs/zbc after the documented shift of the poloidal angle) at all angles.",
 "all boundary coefficients, resolutions, angles, both symmetry flags",
 "all boundaries and angles",
 [C+"vmec/boundaries/boundaries.cc:parseToInternalArrays"])
prop("C27", "Flipping the poloidal angle keeps the surface and fixes orientation",
 "When the sign test says the boundary has the wrong orientation, the flip re-parametrises the same surface by theta -> pi - theta; it is an involution; and after setup the sign test is never positive.",
 "all boundary coefficients, all angles",
 "all boundaries",
 [C+"vmec/boundaries/boundaries.cc:checkSignOfJacobian,flipTheta,setupFromIndata"])
prop("C28", "The m=1 gauge transformation is invertible and keeps its constraint",
 "Applying the m=1 constraint with factor 1/2 and undoing it with factor 1 returns the original coefficients; the transformation leaves all other modes unchanged.",
 "all coefficient vectors, mode ranges and surfaces",
 "all states",
 [C+"vmec/fourier_coefficients/fourier_coefficients.cc:m1Constraint", C+"vmec/boundaries/boundaries.cc:ensureM1Constrained"])
prop("C29", "The initial geometry interpolates between axis and boundary",
 "The initial guess equals the prescribed boundary on the last surface, equals the prescribed axis on the axis (m=0 modes) with no m>0 content there, and is a convex combination in s for m=0 and proportional to s^(m/2) for m>0 in between, on every thread partition.",
 "all boundaries, axes, ns, thread partitions",
 "all inputs",
 [C+"vmec/fourier_geometry/fourier_geometry.cc:interpFromBoundaryAndAxis"])
prop("C30", "Power-series profiles are the stated polynomials and integrals",
 "power_series evaluates sum a_i x^i; the integrated current version evaluates the integral from 0 to x of that polynomial; the toroidal-flux map is the normalised integral of its derivative function with value 0 at 0 and 1 at 1.",
 "all coefficient arrays (including empty) and all x",
 "all coefficients",
 [C+"vmec/radial_profiles/radial_profiles.cc:evalPowerSeries,evalPowerSeriesI,torflux,torfluxDeriv"])
prop("C31", "Line-segment profiles are piecewise-linear interpolants",
 "The line_segment profile equals the piecewise-linear interpolant of the knots: exact at every knot, between neighbouring values on every segment, clamped outside; the integrated version is its integral from 0.",
 "all knot arrays sorted increasingly, all values, all x",
 "all knots and positions",
 [C+"vmec/radial_profiles/radial_profiles.cc:evalLineSegment,evalLineSegmentIntegrated"])
prop("C32", "Cubic-spline profiles interpolate and integrate correctly",
 "The cubic_spline profile passes through every knot, and on each interval the integrated version has the profile as its derivative and is continuous across knots.",
 "all knots, values, x",
 "all data",
 [C+"vmec/radial_profiles/radial_profiles.cc:BuildCubicSecondDerivatives,evalCubic,evalCubicIntegrated"])
prop("C33", "Akima-spline profiles interpolate and integrate correctly",
 "The akima_spline profile passes through every knot with continuous slope, and the integrated version has the profile as derivative and is continuous across knots.",
 "all knots, values, x",
 "all data",
 [C+"vmec/radial_profiles/radial_profiles.cc:BuildAkimaCoeffs,evalAkima,evalAkimaIntegrated"])
prop("C34", "Profile names are resolved or rejected",
 "Every profile type accepted by the input check selects exactly the parameterisation with that name if it is allowed for that profile kind; names that do not exist or are not allowed lead to an error reported to the caller, not to a silently zero profile.",
 "all strings and profile kinds",
 "all strings",
 [C+"vmec/radial_profiles/radial_profiles.cc:findParameterization,evalProfileFunction"])
prop("C35", "External-field interpolation is bilinear, in bounds, and exact at grid nodes",
 "For every boundary point the interpolated external field reads only existing grid cells, uses non-negative weights that sum to one (so it lies in the range of the four surrounding values), reproduces nodal values and affine fields exactly, and clamps points outside the grid to its edge.",
 "all grids with at least two points per direction, all field tables, all finite points",
 "all positions, notably the upper grid edge",
 [C+"free_boundary/mgrid_provider/mgrid_provider.cc:interpolate"])
prop("C36", "Loading an external field is linear in the coil currents and all-or-nothing",
 "A successful load stores exactly sum_i I_i * B_i at every grid point and forgets earlier contents; a failing load leaves a previously loaded, usable field usable and unchanged.",
 "all tables, currents and load histories",
 "histories of loads",
 [C+"free_boundary/mgrid_provider/mgrid_provider.cc:LoadFile,LoadFields"])
prop("C37", "Sparse and dense boundary coefficients convert losslessly (Python)",
 "Serialising a dense coefficient array to the sparse JSON form and reading it back into an input of the same resolution gives the same array; out-of-range or negative mode numbers are rejected, never silently dropped.",
 "all arrays, resolutions and sparse lists",
 "unbounded",
 ["src/vmecpp/_util.py:dense_to_sparse_coefficients,sparse_to_dense_coefficients,sparse_to_dense_coefficients_implicit"])
prop("C38", "Continuation keeps the shared part of the spectrum (Python)",
 "Interpolating a solution to a new Fourier resolution keeps all modes shared by both resolutions, zeroes new ones, and produces arrays of the shapes the solver's hot-restart check demands.",
 "all resolutions and coefficient arrays",
 "unbounded",
 ["src/vmecpp/_continuation.py:_remap_modes,_remap_axis,interpolate_solution", C+"vmec/vmec/vmec.cc:CheckInitialState"])
prop("C39", "Python and C++ iteration drivers take the same decisions",
 "For the default iteration style the Python solve loop takes, for every forward model, the same sequence of evaluations, time steps, restarts and checkpoints as the C++ loop and reports the same outcome.",
 "all forward-model behaviours",
 "all histories",
 ["src/vmecpp/_iteration.py:solve_equilibrium", C+"vmec/vmec/vmec.cc:SolveEquilibriumLoop,Evolve,RestartIteration"])
prop("C40", "All threads leave a force evaluation together",
 "Whatever happens inside a force evaluation (bad Jacobian, error status, checkpoint), all threads of the team execute the same sequence of barriers, so an error on one thread is reported instead of hanging the process.",
 "all per-thread error outcomes and thread counts",
 "needs per-thread divergence",
 [C+"vmec/ideal_mhd_model/ideal_mhd_model.cc:update,constraintForceMultiplier", C+"vmec/vmec/vmec.cc:UpdateForwardModel,UpdateStatusForThread"])
prop("C41", "Coil-file import and winding normalisation preserve ampere-turns",
 "Importing a coils file groups filaments by circuit id in order of first appearance without losing any; normalising windings keeps (circuit current x windings) of every coil unchanged, makes the first coil's windings 1, is idempotent, and never divides by zero or reads a missing coil.",
 "all coil sets",
 "unbounded",
 [C+"common/magnetic_configuration_lib/magnetic_configuration_lib.cc:ParseCurrentCarriers,NumWindingsToCircuitCurrents"])
prop("C42", "Neighbouring threads agree on shared surfaces after a time step",
 "After each time step every surface held by several threads has the same Fourier state in all of them, and the global state equals the one a single thread would have computed.",
 "all thread counts, all states, forces, velocities, all orders of thread execution between barriers",
 "all schedules and partitions",
 [C+"vmec/vmec/vmec.cc:performTimeStep"])
prop("C43", "Hot restart accepts only compatible states and reproduces them",
 "A hot-restart state is accepted only if all array shapes match the requested run; reading it in and writing it out gives back the same geometry, with and without stellarator symmetry.",
 "all states and inputs",
 "unbounded",
 [C+"vmec/vmec/vmec.cc:CheckInitialState", C+"vmec/fourier_geometry/fourier_geometry.cc:InitFromState"])
prop("C44", "The axis re-guess considers every toroidal plane",
 "The recomputed magnetic axis is built from a position found on every toroidal grid plane, for every toroidal resolution and both symmetry flags.",
 "all nzeta >= 1, both symmetry flags",
 "odd plane counts and asymmetric runs are rarely tested",
 [C+"vmec/boundaries/guess_magnetic_axis.cc"])
prop("C45", "Multigrid interpolation keeps axis, boundary and linear data",
 "Interpolating the state to a finer radial grid reproduces the boundary exactly, reproduces data that are linear in the interpolation variable, stays within the range of neighbouring values, and reads only surfaces of the old grid.",
 "all old/new ns, all states, thread partitions",
 "all pairs of resolutions",
 [C+"vmec/vmec/vmec.cc:InterpolateToNextMultigridStep"])
prop("C46", "Forces and preconditioners do not depend on the thread partition",
 "The force density, hybrid lambda force and lambda preconditioner of a surface, computed by sweeping a thread's range with carried-over inside values, equal the values given by the two-sided formula from the neighbouring half-grid points, for whichever thread owns the surface.",
 "all fields, partitions, surfaces",
 "all partitions and data",
 [C+"vmec/ideal_mhd_model/mhdforce_kernel.h", C+"vmec/ideal_mhd_model/lambda_force_kernel.h", C+"vmec/ideal_mhd_model/ideal_mhd_model.cc:updateLambdaPreconditioner"])
prop("C47", "FFT and DFT toroidal transforms agree",
 "For every resolution the FFT-based toroidal transforms produce the same real-space geometry and the same Fourier forces as the direct DFT-based ones, given that the FFT library computes the discrete Fourier transform it documents.",
 "all resolutions with nzeta >= 2*ntor+1, all coefficients",
 "all inputs",
 [C+"vmec/ideal_mhd_model/fft_toroidal.cc", C+"vmec/ideal_mhd_model/dft_toroidal.cc"])
prop("C48", "Reduced geometry resolution masks exactly the requested modes",
 "Limiting the geometry resolution zeroes (holds) exactly the R/Z modes with m >= mpol_geometry or n > ntor_geometry, never touches lambda, is idempotent, and is a no-op for the default setting.",
 "all resolutions and states",
 "unbounded",
 [C+"vmec/fourier_coefficients/fourier_coefficients.cc:maskGeometryAbove", C+"common/sizes/sizes.cc"])
prop("C49", "Multigrid stages run in order and never coarsen",
 "A run executes the entries of ns_array from first to last, skipping entries coarser than one already solved, solves each with its own tolerance and iteration limit, stops at the first hard failure, and reports success only if the last stage succeeded (unless unconverged output was requested).",
 "all schedules and stage outcomes",
 "all histories",
 [C+"vmec/vmec/vmec.cc:Vmec::run"])
prop("C50", "Converting JSON input to Fortran INDATA keeps the axis",
 "Converting a VMEC++ JSON input to a Fortran INDATA namelist carries over every physical input including the magnetic-axis guess.",
 "all inputs",
 "field omissions are invisible when the axis guess is not needed",
 ["src/vmecpp/_util.py:vmecpp_json_to_indata"])

prop("C51", "Every stage runs with the lambda scale of its own grid",
 "When a multigrid stage starts its force evaluations, the lambda scaling constant has been computed from the flux profile of that stage's radial grid, for every schedule the input check accepts.",
 "all accepted ns_array, including repeated resolutions",
 "repeated resolutions are accepted by the input check but rarely used",
 [C+"vmec/vmec/vmec.cc:Vmec::run", C+"vmec/vmec/vmec.cc:InitializeRadial", C+"vmec/vmec_constants/vmec_constants.cc"])

prop("C52", "Boundary setup leaves the m=1, n=0 gauge in place",
 "After boundary setup of a non-stellarator-symmetric configuration the boundary is expressed in the poloidal angle whose m=1, n=0 coefficients satisfy rbsc = zbcc, so the m=1 constraint removes nothing from the requested boundary shape in that mode.",
 "all boundaries, both orientations of the poloidal angle",
 "asymmetric boundaries given with the opposite poloidal orientation are rare in tests",
 [C+"vmec/boundaries/boundaries.cc:setupFromIndata", C+"vmec/boundaries/boundaries.cc:flipTheta"])

prop("C53", "Closed-form profiles take their documented axis and edge values",
 "two_power, two_power_gs, gauss_trunc, two_lorentz, pedestal, rational, nice_quadratic and sum_atan take the documented values on the axis and at the edge (for example a0 and 0 for two_power), are the documented ratio or sum in between, and do not jump at the edge; enclosed currents vanish on the axis.",
 "all coefficients for which the formula is defined, all positions",
 "end values are only checked for a few coefficient sets",
 [C+"vmec/radial_profiles/radial_profiles.cc:evalTwoPower,evalTwoPowerGs,evalGaussTrunc,evalTwoLorentz,evalPedestal,evalRational,evalNiceQuadratic,evalSumAtan"])
prop("C54", "The cubic-spline profile is twice continuously differentiable and exact for parabolas",
 "The second derivatives computed by the elimination solve the spline system, so the profile has continuous first and second derivatives over the knot range, its end slopes are those of the parabola through the three nearest points, and every quadratic profile is reproduced exactly.",
 "all strictly increasing knots (at least four) and all values",
 "smoothness at all knots for all data cannot be sampled",
 [C+"vmec/radial_profiles/radial_profiles.cc:BuildCubicSecondDerivatives,CubicLowerIndex,evalCubic"])
prop("C55", "The Akima profile is orientation independent and exact for straight lines",
 "Reflecting knots and values reflects the Akima interpolant, including both ends, and a straight line is reproduced exactly.",
 "all strictly increasing knots (at least four) and all values",
 "the repository tests one data set",
 [C+"vmec/radial_profiles/radial_profiles.cc:BuildAkimaCoeffs,evalAkima"])

prop("C56", "The Python continuation interpolates radially like the solver does (Python)",
 "The radial interpolation of the geometry in the Python continuation gives the same coefficients as the interpolation the solver performs between multigrid steps, as its documentation states.",
 "all old/new numbers of surfaces, all coefficient rows, all poloidal mode numbers",
 "the two implementations are in different languages and are not compared by any test",
 ["src/vmecpp/_continuation.py:_radial_interpolate_geometry", C+"vmec/vmec/vmec.cc:InterpolateToNextMultigridStep"])

prop("C57", "Response tables hold the field at every grid point and add up to the field of the configuration",
 "Every entry of a response table (and of a vector-potential table) is the cylindrical component of the field of its circuit, with unit or with its own current, at the grid point the entry stands for, whether it was computed or mirrored; summing the rows weighted with the circuit currents gives the field of the whole configuration.",
 "all grids, all configurations, all currents, with and without symmetry and normalisation",
 "tests use one or two coil sets on symmetric grids; every index of every grid cannot be enumerated",
 [C+"common/makegrid_lib/makegrid_lib.cc:MakeCylindricalGrid,CartesianToCylindricalField,ComputeMagneticFieldResponseTable", C+"common/magnetic_configuration_lib/magnetic_configuration_lib.cc:NumWindingsToCircuitCurrents,SetCircuitCurrents"])
prop("C58", "The straight filament produces the field of an infinite wire",
 "The field of an infinite straight filament is mu0 I / (2 pi) times the unit azimuthal vector divided by the distance to the wire, independent of the length of the direction vector and of the position of the origin along the wire; it is proportional to the current, and the process is terminated for points on the wire.",
 "all origins, directions, currents and evaluation points",
 "tests use axis-aligned wires",
 [C+"common/magnetic_field_provider/magnetic_field_provider_lib.cc:MagneticField(InfiniteStraightFilament)"])

prop("C59", "The MHD force is the exact gradient of the discretised energy",
 "Displacing the flux surfaces (R, Z and their angular derivatives, even and odd parts) at fixed mass and fixed magnetic fluxes changes the discretised magnetic plus thermal energy by minus the sum over all surfaces of force density times displacement, to first order; the energies the threads report add up to that energy.",
 "all geometries with non-vanishing Jacobian and positive volumes, all profiles and adiabatic indices other than one, all displacements, two and three dimensions, all thread teams",
 "a derivative in every direction at every geometry cannot be sampled; finite differences see only rounding-limited agreement",
 [C+"vmec/ideal_mhd_model/mhdforce_kernel.h", C+"vmec/ideal_mhd_model/ideal_mhd_model.cc:computeJacobian,computeMetricElements,computeBContra,computeBCo,pressureAndEnergies,computeMHDForces"])
prop("C60", "The field meets the prescribed current or iota and carries the prescribed fluxes",
 "With a prescribed current profile the surface average of B_u on every half-grid surface is the prescribed enclosed current; with a prescribed iota the poloidal flux derivative is iota times the toroidal one; the toroidal and poloidal flux through the angles do not depend on lambda.",
 "all geometries with non-vanishing Jacobian, all profiles, all periodic lambda",
 "tests check converged states of a few inputs",
 [C+"vmec/ideal_mhd_model/ideal_mhd_model.cc:computeBContra", C+"vmec/ideal_mhd_model/bcontra_kernel.h"])
prop("C61", "Jacobian and metric are the two-point averages of the derivative products",
 "On every half-grid point R, R_u, Z_u, R_s, Z_s are midpoint values and differences of R = R_e + sqrt(s) R_o, Z = Z_e + sqrt(s) Z_o; the Jacobian is R (R_u Z_s - R_s Z_u) with the derivative of sqrt(s) taken into account; the metric elements average the products of the derivatives with s where sqrt(s) meets sqrt(s).",
 "all geometries, grids and half-grid points, two and three dimensions",
 "tests compare a few points of a few cases with reference data",
 [C+"vmec/ideal_mhd_model/jacobian_kernel.h", C+"vmec/ideal_mhd_model/metric_kernel.h"])
prop("C62", "The lambda force is the gradient of the energy with respect to lambda",
 "Displacing lambda at fixed geometry and fluxes changes the discretised energy by minus the sum over all surfaces of the lambda force times the displacement, to first order.",
 "all geometries with non-vanishing Jacobian, all profiles, all displacements of lambda",
 "a derivative in every direction cannot be sampled",
 [C+"vmec/ideal_mhd_model/lambda_force_kernel.h"])

prop("C63", "The inverse transform evaluates the Fourier series and its derivatives",
 "At every grid point of every surface the real-space arrays hold the Fourier series of R, Z and lambda over the even and over the odd poloidal modes, and its exact derivatives with respect to the poloidal and the toroidal angle (with the factor nfp); the constraint arrays hold the series with every mode weighted with its condensation factor.",
 "all resolutions Sizes accepts, all coefficients, all surfaces, planes and poloidal points, all thread ranges",
 "tests compare with reference data of a few cases; a wrong table entry at one mode or point can be invisible there",
 [C+"vmec/ideal_mhd_model/dft_toroidal.cc:FourierToReal3DSymmFastPoloidal"])
prop("C64", "The Fourier forces are the gradient of the energy with respect to the Fourier coefficients",
 "The force transform is the transpose of the inverse transform with respect to the surface integral, so the chain inverse transform - force kernels - force transform, spread over the threads of a team, gives the gradient of the discretised energy with respect to the Fourier coefficients of R and Z (up to the common factor deltaS times the sign of the Jacobian).",
 "all stellarator-symmetric three-dimensional resolutions, all coefficients with non-vanishing Jacobian and positive volumes, all profiles, all thread teams, all displacements that leave the m >= 1 modes of the axis and the fixed boundary alone",
 "a derivative with respect to every coefficient at every state cannot be sampled",
 [C+"vmec/ideal_mhd_model/dft_toroidal.cc:FourierToReal3DSymmFastPoloidal,ForcesToFourier3DSymmFastPoloidal", C+"vmec/ideal_mhd_model/ideal_mhd_model.cc:update"])

prop("C65", "The axisymmetric transforms are the three-dimensional ones for ntor = 0",
 "For ntor = 0 the axisymmetric inverse transform and force transform compute the same geometry arrays, constraint arrays and Fourier forces as the three-dimensional ones, so the Fourier forces of an axisymmetric run are the gradient of the discretised energy.",
 "all accepted resolutions with ntor = 0 (any nzeta, mpol), all coefficients, force arrays and thread teams",
 "the two code paths are never run on the same input; only tokamak references with nzeta = 1 exist",
 [C+"vmec/ideal_mhd_model/ideal_mhd_model.cc:dft_FourierToReal_2d_symm,dft_ForcesToFourier_2d_symm", C+"vmec/ideal_mhd_model/dft_toroidal.cc"])

prop("C66", "Reading an input from JSON returns an input or an error for every document",
 "For every JSON document the reader returns an input or an error status, never undefined behaviour or an uncaught exception; an input it returns meets the documented constraints, has matching array lengths and finite values.",
 "all JSON documents",
 "documents are unbounded; tests read a few well-formed files",
 [C+"common/vmec_indata/vmec_indata.cc:FromJson", C+"common/vmec_indata/boundary_from_json.cc", "src/vmecpp/cpp/util/json_io/json_io.cc"])
prop("C67", "Writing an input to HDF5 and loading it is the identity",
 "For every accepted input, loading the HDF5 group written for it gives an equal input, whatever the receiving object held before, with and without stellarator symmetry.",
 "all accepted inputs, all contents of the receiving object",
 "unbounded input space; the test only covers a symmetric input and a fresh object",
 [C+"common/vmec_indata/vmec_indata.cc:WriteTo,LoadInto", "src/vmecpp/cpp/util/hdf5_io/hdf5_io.h", "src/vmecpp/cpp/util/hdf5_io/hdf5_io.cc"])

prop("C68", "Without stellarator symmetry the inverse transform yields the geometry on the full poloidal interval",
 "In a run without stellarator symmetry (lasym) the symmetric and the antisymmetric inverse transform on the reduced interval and the extension by reflection together yield, at every grid point of the full poloidal interval, R, Z, their derivatives and the derivatives of lambda of the Fourier series with both sets of coefficients, and the constraint arrays yield the series weighted with xmpq.",
 "all three-dimensional resolutions with lasym, all coefficients, all thread ranges, all grid points",
 "all coefficients and resolutions; the test-suite compares a few lasym references with a tolerance",
 [C+"vmec/ideal_mhd_model/dft_toroidal.cc", C+"vmec/ideal_mhd_model/ideal_mhd_model.cc:geometryFromFourier,symrzl"])

prop("C69", "Without stellarator symmetry the Fourier forces are the gradient of the energy",
 "In a run without stellarator symmetry the forces on the full poloidal interval are split into parts of both parities (symforce) and transformed; the two sets of Fourier forces together are the transpose of the inverse transform of C68 with respect to the surface integral, so the whole chain, spread over the threads of a team, gives the gradient of the discretised energy with respect to all Fourier coefficients of R and Z. Left-overs of earlier iterations in the scratch arrays do not matter.",
 "all three-dimensional resolutions with lasym, all coefficients with non-vanishing Jacobian and positive volumes, all profiles, all thread teams, all displacements that leave the m >= 1 modes of the axis and the fixed boundary alone, all earlier contents of the scratch arrays",
 "a derivative with respect to every coefficient at every state cannot be sampled",
 [C+"vmec/ideal_mhd_model/dft_toroidal.cc", C+"vmec/ideal_mhd_model/ideal_mhd_model.cc:symforce,forcesToFourier,geometryFromFourier,symrzl"])

prop("C70", "The filter of the constraint force is an exact band-pass",
 "On every surface but the axis, deAliasConstraintForce returns the Fourier series over the modes 1 <= m <= mpol - 2, |n| <= ntor of its input, every coefficient multiplied by tcon and faccon, on the whole poloidal interval and with both parities if lasym; the axis gets zero. For an input that is itself a Fourier series with at most nThetaEven + 2 - mpol poloidal and nZeta - ntor toroidal modes, the modes in the band come back with exactly their coefficients and no other mode contributes. Earlier contents of the work arrays do not matter.",
 "all accepted resolutions, with and without stellarator symmetry, all effective forces, all multipliers, all thread ranges, all grid points, all earlier contents of the work arrays",
 "all functions on the grid and all resolutions; no test looks at the filter alone for lasym",
 [C+"vmec/ideal_mhd_model/ideal_mhd_model.cc:deAliasConstraintForce"])

prop("C71", "The total force including the constraint is the gradient of energy plus a spectral penalty",
 "With the reference positions rCon0, zCon0 and the multipliers tcon held fixed, the Fourier forces that the threads compute from MHD forces and constraint force together are the gradient, with respect to the Fourier coefficients of R and Z, of the discretised energy plus deltaS times a sum over the surfaces of a penalty that is never negative and vanishes exactly if the misalignment of the poloidal angle has no Fourier component in the band of C70.",
 "all stellarator-symmetric resolutions and all three-dimensional ones with lasym, all coefficients with non-vanishing Jacobian and positive volumes, all profiles, references, multipliers and thread teams, all displacements that leave the m >= 1 modes of the axis and the fixed boundary alone, all earlier contents of the scratch arrays",
 "a derivative with respect to every coefficient at every state cannot be sampled",
 [C+"vmec/ideal_mhd_model/constraint_force_kernel.h", C+"vmec/ideal_mhd_model/ideal_mhd_model.cc:effectiveConstraintForce,deAliasConstraintForce,assembleTotalForces,geometryFromFourier"])

prop("C72", "The recurrences of the singular integrals compute the integrals they stand for",
 "At every point with a positive definite metric, the values Tlp[l], Tlm[l] of the forward recurrence are the integrals of t^l / sqrt(Q(t)) over [-1, 1], where Q is the quadratic form made from the metric, and the formulas for Slp, Slm give the integrals of t^l P(t) / Q(t)^(3/2) with P made from the second fundamental form. The backward recurrence has an explicit error bound that shrinks by sqrt(A/B) per step.",
 "all positive definite metrics, all second fundamental forms, all resolutions, all l",
 "integrals over a continuum of metrics; the tests compare a handful of points with reference output",
 [C+"free_boundary/singular_integrals/singular_integrals.cc:prepareUpdate,performUpdate"])

prop('C73', 'The coefficients of the singular integrals are those of the mode integrals',
 'For every mode within the resolution, the coefficients cmns[l] are those of the polynomial in t which the integral of the mode cos(m u - n v) along the line tan(u/2) = (1-t) r, tan(v/2) = (1+t) r is; along the mirrored line the integral vanishes unless m = 0 or n = 0.',
 'all resolutions, all modes (m, n), all t in (-1, 1) other than 0',
 'a closed form with factorials for all modes against integrals over the real line; tests compare tabulated values',
 [C+'free_boundary/singular_integrals/singular_integrals.cc:computeCoefficients'])

prop('C74', 'What the singular part adds is what the regularized part subtracts',
 'For every mode and every partition of the grid over threads, bvec and grpmn of SingularIntegrals are the integrals over the angles, around each source point, of the mode times the kernels ga1 and ga1*ga2 that RegularizedIntegrals subtracts, divided by 2 pi.',
 'all grids, all resolutions, all partitions, all positive definite metrics and second fundamental forms, all modes, symmetric and asymmetric',
 'singular surface integrals over a continuum; tests compare each part with reference output of the same formulas, never the two parts with each other',
 [C+'free_boundary/singular_integrals/singular_integrals.cc:performUpdate', C+'free_boundary/regularized_integrals/regularized_integrals.cc:update'])

prop('C75', 'The regularized kernels are the Green function of the rotated surface minus the subtracted kernels',
 "For a surface with points X and normal vectors N, RegularizedIntegrals::update leaves in greenp, for every source point of the thread and every point of the surface, 2 pi/nfp times the sum over the field periods of (X - X')·N'/|X - X'|^3 minus the subtracted kernel at the difference of the angles, without the pair of a point with itself, and in gstore the same of 1/|X - X'| summed over the source points with the normal field and the weight; in the axisymmetric case with 64 images and the subtraction at each of them.",
 'all grids up to 10^15 points per direction, all field periods, all partitions over threads, all surfaces with nonzero major radius',
 'the sum over pairs of points with rotated images and split row loops; tests compare with reference output for a few configurations',
 [C+'free_boundary/regularized_integrals/regularized_integrals.cc:update', C+'free_boundary/regularized_integrals/regularized_integrals.cc:updateAxisymmetric', C+'free_boundary/regularized_integrals/regularized_integrals.cc:computeConstants'])

prop('C76', 'SurfaceGeometry evaluates the surface, its normal vector and its fundamental forms',
 'For the surface X(theta, zeta) given by the Fourier coefficients, after SurfaceGeometry::update the position arrays hold X at every point of the whole surface (full update), the derivative arrays the derivatives of the series, snr, snv, snz the cylindrical components of -signOfJacobian dX/dtheta x dX/dphi, guu, guv, gvv the first fundamental form in (theta, zeta), and auu, auv, avv, drv half the second derivatives along the normal vector and -X·N; so the regularized kernels are those of this surface.',
 'all resolutions, grids and field periods, all coefficients, symmetric and asymmetric, all partitions over threads, full and partial updates',
 'derivatives of a continuous surface for all coefficients and thread ranges; tests compare arrays with reference output for a few cases',
 [C+'free_boundary/surface_geometry/surface_geometry.cc:inverseDFT', C+'free_boundary/surface_geometry/surface_geometry.cc:derivedSurfaceQuantities'])

prop('C77', 'The Laplace solver assembles and solves the Galerkin form of the integral equation',
 'After TransformGreensFunctionDerivative and AccumulateFullGrpmn the arrays grpmn hold the Fourier integrals over the whole surface of the regularized kernel plus the singular part; after BuildMatrix, for every number of threads and every order in which they enter the critical section, every entry outside the redundant rows is the surface average (weights wInt) of kernel times basis function plus 1/2 on the diagonal (1 for the constant); a solution of the system has no coefficients of the redundant modes m=0, n<0 and satisfies Phi/2 + int G Phi = source with the Fourier integral of the source. For rows of sines under stellarator symmetry, for rows of cosines without.',
 'all resolutions, all Green functions, sources and singular parts, all numbers of threads and orders of the critical sections, all solutions of the linear system',
 'identity of sums over half of the grid, split among threads, with integrals over the whole surface for arbitrary kernels; tests compare a few entries with reference output',
 [C+'free_boundary/laplace_solver/laplace_solver.cc:TransformGreensFunctionDerivative', C+'free_boundary/laplace_solver/laplace_solver.cc:PerformToroidalFourierTransforms', C+'free_boundary/laplace_solver/laplace_solver.cc:PerformPoloidalFourierTransforms', C+'free_boundary/laplace_solver/laplace_solver.cc:BuildMatrix', C+'free_boundary/laplace_solver/laplace_solver.cc:SolveForPotential'])

prop('C78', 'Without stellarator symmetry the rows of sines of the linear system are surface averages, too',
 'As in C77 the entries in the rows of sines are surface averages of kernel times basis function, for every kernel, also without stellarator symmetry.',
 'all resolutions, kernels, threads without stellarator symmetry',
 'needs kernels without symmetry in the evaluation point; every test surface is nearly symmetric',
 [C+'free_boundary/laplace_solver/laplace_solver.cc:PerformPoloidalFourierTransforms'])

prop('C79', 'The external field of the free boundary is the interpolated field plus the Biot-Savart field of the plasma current',
 'The polygon that carries the plasma current has its vertices on the magnetic axis at equally spaced toroidal angles around the whole torus and is closed; off a segment no denominator of the Hanson-Hirshman formula is zero and the formula equals the law of Biot and Savart, the line integral over the segment; bSubU, bSubV, bDotN at every point of a thread are B.dX/dtheta, B.dX/dphi, -B.N of the sum of the interpolated field and the field of the polygon, with X the surface given by the Fourier coefficients.',
 'all axes, currents, surfaces and interpolated fields, all points off the polygon, every thread',
 'equality of a closed formula with an integral over all positions; tests compare with reference output at a few points',
 [C+'free_boundary/external_magnetic_field/external_magnetic_field.cc:AddAxisCurrentFieldSimple', C+'free_boundary/external_magnetic_field/external_magnetic_field.cc:covariantAndNormalComponents'])

prop('C80', 'The vacuum field of NESTOR is the tangential field of external field plus gradient of the potential',
 'potU, potV are the derivatives of the potential with the solved coefficients; the shared cylindrical components of the vacuum field form the vector tangent to the surface whose covariant components are those of external field plus gradient, and bSqVac is half its squared length, wherever the tangent vectors are independent; bSubUVac and bSubVVac do not depend on the number and order of the threads and are the surface averages of the external field alone: the potential carries no net current.',
 'all coefficients of potential and surface, all points, all numbers of threads and orders of the critical sections, with and without stellarator symmetry',
 'cancellation of all modes in the average and identities of differential geometry for arbitrary surfaces',
 [C+'free_boundary/nestor/nestor.cc:Nestor::update'])

prop('C81', 'The radial preconditioner solves the equations of the highest derivatives of the energy, on any number of threads',
 'For every Fourier mode the rows stored by assembleRZPreconditioner are minus the bilinear form of the squared radial, poloidal and toroidal derivatives of a displacement, tested with the unit displacement of one surface (with the axis following the first surface for m = 1), plus an extra weight of the boundary; where the jacobian has its sign, pressure and R are positive, elimination meets no zero pivot; applyRZPreconditioner leaves on every owned surface the unique solution of these equations, zero on the axis for m > 0 and the unchanged force on surfaces that do not move, independently of the number of threads.',
 'all fields, modes, radial grids, numbers of threads, forces; fixed and free boundary; with and without stellarator symmetry',
 'identity of a summation over grid points with a bilinear form, absence of zero pivots for every admissible field and independence of the partition',
 [C+'vmec/ideal_mhd_model/ideal_mhd_model.cc:computePreconditioningMatrix', C+'vmec/ideal_mhd_model/ideal_mhd_model.cc:assembleRZPreconditioner', C+'vmec/ideal_mhd_model/ideal_mhd_model.cc:applyRZPreconditioner'])

prop('C82', 'The collected results are the global arrays, on any number of threads',
 'If every thread holds its part of the profiles, coefficients and fields, then GatherDataFromThreads fills in every half-grid and full-grid surface with these values, with the modes of one surface reordered from m-major to n-major storage, zeros for what does not exist in the given symmetry, and the covariant field B_zeta recovered from the split lambda force; the result does not depend on the number of threads.',
 'all partitions, all fields, fixed and free boundary, with and without stellarator symmetry',
 'quantifies over all partitions; the regression tests compare few thread counts',
 [C+'vmec/output_quantities/output_quantities.cc:GatherDataFromThreads'])

prop('C83', 'Blended B_zeta carries the prescribed poloidal current; the recomputed flux ends at phiedge',
 'After MeshBledingBSubZeta neighbouring half-grid surfaces average to the full-grid field; after FixupPoloidalCurrent the surface average of B_zeta is the poloidal current profile on every surface and the variation within the surface is unchanged; RecomputeToroidalFlux gives phiedge at the edge.',
 'all fields and sizes; all flux profiles for the last sentence',
 'quantified over all fields and profiles; no test uses a flux profile that is not linear in s',
 [C+'vmec/output_quantities/output_quantities.cc:MeshBledingBSubZeta', C+'vmec/output_quantities/output_quantities.cc:ComputePoloidalCurrentToFixBSubV', C+'vmec/output_quantities/output_quantities.cc:FixupPoloidalCurrent', C+'vmec/output_quantities/output_quantities.cc:RecomputeToroidalFlux'])

prop('C84', 'The geometry of the output file is the geometry of the solution',
 "The coefficients rmnc, zmns, lmns_full (and rmns, zmnc, lmnc_full without stellarator symmetry) written to wout, summed with the mode numbers of wout, give on every surface the same R and Z, and lamscale/phi' times the same lambda, as the internal coefficients summed with the internal basis after undoing the m = 1 constraint; on the axis lambda with m = 0 is continued linearly; the half-grid lambda is exact for coefficients whose regular part is linear in s.",
 'all coefficients, sizes with mpol >= 2, all surfaces and all angles',
 'equality of functions at all angles for all coefficients; the regression tests compare the coefficients of a few equilibria with stored ones',
 [C+'vmec/output_quantities/output_quantities.cc:ComputeWOutFileContents'])

prop('C85', 'Cylindrical and radial covariant field of the output',
 'On the half grid the written radial and toroidal derivatives of R and Z are those of the geometry interpolated between the surfaces; b_r, b_phi, b_z are the components of B^u e_u + B^v e_v, g_su and g_sv are e_s.e_u and e_s.e_v, and B_s is B.e_s; on the full grid B_s is the average of the neighbours, continued linearly to the axis and the boundary.',
 'all fields, sizes and surfaces',
 'a statement about derivatives for all fields; the regression tests compare with stored numbers of a few equilibria',
 [C+'vmec/output_quantities/output_quantities.cc:ComputeRemainingMetric', C+'vmec/output_quantities/output_quantities.cc:BCylindricalComponents', C+'vmec/output_quantities/output_quantities.cc:ComputeBSubSOnHalfGrid', C+'vmec/output_quantities/output_quantities.cc:PutBSubSOnFullGrid', C+'vmec/output_quantities/output_quantities.cc:ExtrapolateBSubS'])

prop('C86', 'Low-pass filter of the covariant field',
 'On every surface the filtered B_u and B_v are at every grid point the sum of the low-pass filtered even and odd parts of the field: functions with modes m < mpol, n <= ntor only, whose difference from the field is orthogonal to all these modes; the filter leaves fields within the band unchanged; the angular derivatives of B_u, B_v and B_s written for the current density are the derivatives of the filtered functions.',
 'all fields, sizes, surfaces and grid points, with and without stellarator symmetry',
 'the statement is about all fields; tests compare a few symmetric equilibria with stored numbers and no asymmetric one',
 [C+'vmec/output_quantities/output_quantities.cc:DecomposeCovariantBBySymmetry', C+'vmec/output_quantities/output_quantities.cc:LowPassFilterCovariantB'])

prop('C87', 'Contents of the jxbout file',
 "The current components written to jxbout are the curl of the filtered covariant field (Ampere's law); jcrossb is the radial component of J x B and jxb_gradp the residual of the force balance; avforce is the surface average of the residual and lies between aminfor and amaxfor unless these are clipped; <J.B>^2 <= <Jpar^2><B^2>; jperp2 is the average of the square of B x grad p / B^2; the profiles continue linearly to the axis and the boundary.",
 'all fields, pressure profiles, sizes and surfaces',
 'algebraic identities and inequalities for all fields; the regression test compares the numbers of one symmetric equilibrium with those of the Fortran program, which has the same sign errors',
 [C+'vmec/output_quantities/output_quantities.cc:ComputeJxBOutputFileContents'])

prop('C88', 'Mercier stability criterion',
 'DMerc is the classical Mercier criterion built from flux-surface integrals with 1/|grad Phi|^2, J.B and B^2 and derivatives with respect to the toroidal flux; the shear term is never negative and the geodesic term never positive; the terms do not change when the field or the poloidal angle is reversed; the toroidal flux column is the integral of the flux derivative.',
 'all equilibria, sizes, surfaces, both directions',
 'an identity with a published criterion and sign statements for all equilibria; tests compare one run with stored numbers',
 [C+'vmec/output_quantities/output_quantities.cc:ComputeMercierStability'])

prop('C89', 'Nyquist Fourier series of the output file',
 'Evaluated at any point of the angular grid, the Fourier series with the Nyquist mode set that the output file stores for the Jacobian, |B|, the covariant and contravariant field and the radial covariant field has exactly the value that the field has there, with and without stellarator symmetry; the full-grid radial field is the mean of its two half-grid neighbours; what is stored as |B| is the modulus of the field.',
 'all sizes, all fields on the grid (with the symmetry of the case at theta = 0 and pi), all surfaces, all grid points',
 'exactness of a transform for every grid size and every field; tests compare one run on one grid with stored numbers',
 [C+'vmec/output_quantities/output_quantities.cc:ComputeWOutFileContents'])

prop('C90', 'Current density of the output file',
 'The coefficients currumnc, currvmnc, currumns, currvmns are those of the curl of the covariant field: sqrt(g) J^u = (d_phi B_s - d_s B_v)/mu0 and sqrt(g) J^v = (d_s B_u - d_theta B_s)/mu0; the stored current is free of divergence, its flux is the circulation of the field, and the end values continue the interior ones linearly.',
 "all mode tables, numbers of surfaces, angles; Ampere's law for all fields with first-order regular radial dependence; divergence, enclosed current and ends for all fields",
 'an identity with derivatives of analysis for all fields; there is no test of these arrays beyond one stored run',
 [C+'vmec/output_quantities/output_quantities.cc:ComputeWOutFileContents'])

prop('C91', 'First table of the threed1 file and the profiles of the output file',
 'The column of the radial force is the force imbalance divided by the sum of the moduli of its terms, so it lies between -1 and 1 and vanishes exactly at force balance, which is the relation <J^u> - iota <J^v> = 2 pi sigma dp/dPhi of the printed columns; beta and 1/R are the volume averages; toroidal and poloidal flux are the integrals of the flux derivatives that the file stores; dV/dPhi is the derivative of the volume; the full-grid profiles are exact for linear profiles.',
 'all equilibria, sizes, surfaces, both signs of the Jacobian',
 'identities between the columns and sign statements for all equilibria; tests compare one run with stored numbers',
 [C+'vmec/output_quantities/output_quantities.cc:ComputeIntermediateThreed1FirstTableQuantities', C+'vmec/output_quantities/output_quantities.cc:ComputeThreed1FirstTable', C+'vmec/output_quantities/output_quantities.cc:ComputeWOutFileContents'])

prop('C92', 'Geometric quantities of the plasma boundary',
 'The cross section, volume, surface area, circumference, major and minor radius, aspect ratio, elongation, radial and vertical extent, waist and height of the output file, and the extrema of the field strength, are those of the boundary surface that the Fourier series describes.',
 'all boundary surfaces that the resolution can represent, all accepted sizes, both symmetries',
 'statement over all trigonometric polynomials, for which the sums over the grid must equal integrals; tests compare one boundary with stored numbers',
 [C+'vmec/output_quantities/output_quantities.cc:ComputeIntermediateThreed1GeometricMagneticQuantities', C+'vmec/output_quantities/output_quantities.cc:ComputeThreed1GeometricMagneticQuantities'])

prop('C93', 'Energies, betas, fluxes and Pfirsch-Schlueter current of the threed1 file',
 'The sums of the output file are the volume integrals of the pressure, its square, and of the total, toroidal and poloidal field energy; the betas are their ratios and 1/beta_tot = 1/beta_pol + 1/beta_tor; the toroidal flux of the plasma is the flux of the first table; the diamagnetic flux vanishes for the vacuum field; the Pfirsch-Schlueter current lies between zero and the parallel current.',
 'all states, sizes and numbers of surfaces',
 'identities between sums over all states',
 [C+'vmec/output_quantities/output_quantities.cc:ComputeIntermediateThreed1GeometricMagneticQuantities', C+'vmec/output_quantities/output_quantities.cc:ComputeThreed1GeometricMagneticQuantities', C+'vmec/output_quantities/output_quantities.cc:ComputeThreed1Volumetrics', C+'vmec/output_quantities/output_quantities.cc:ComputeThreed1Betas'])

prop('C94', 'Scalars, profiles, axis and histories of the output file',
 'The profile coefficients, knots and values in the output file describe the profiles of the input although they are padded; the half-grid profiles are shifted by one element with a zero in front and are in SI units; the safety factor is the inverse of the rotational transform; the axis coefficients are those of the innermost surface and describe the curve to which the surfaces shrink; the status flag tells how the run ended; the history of the energy is the relative change per iteration.',
 'all input vectors, sizes, states, energies and all ways in which the vector assignment may be split',
 'statement over vectors of all lengths; the history is compared with nothing in the tests',
 [C+'vmec/output_quantities/output_quantities.cc:ComputeWOutFileContents', C+'vmec/output_quantities/output_quantities.cc:ComputeThreed1AxisGeometry', C+'vmec/output_quantities/output_quantities.cc:NonEmptyVectorOr'])

prop('C95', 'Shafranov integrals',
 'The integrals S1, S2, S3 of the threed1 file are surface integrals of the magnetic pressure over the plasma boundary with the outward normal, taken at matching points of the vacuum solution; for a uniform pressure they are the area and the volume of the plasma (Gauss); the internal inductance, the beta and the diamagnetism are volume integrals with the same normalisation; the radius rshaf lies inside the plasma; the scaling ratio compares the plasma current with the boundary field.',
 'all sizes, surfaces, states, fixed and free boundary',
 'statement about integrals for all surfaces and resolutions',
 [C+'vmec/output_quantities/output_quantities.cc:ComputeThreed1ShafranovIntegrals', C+'vmec/output_quantities/output_quantities.cc:ComputeIntermediateThreed1GeometricMagneticQuantities'])

prop('C96', 'Shape of the flux surfaces',
 'For every surface, and for the two planes of the table, the columns of the threed1 file are the half width in the midplane, the indentation, the elongation, the triangularity and the shift of the axis of the cross section on the full poloidal grid, and lie within their natural bounds; the local ratios of parallel, Pfirsch-Schlueter and perpendicular current have these currents as numerator and denominator.',
 'all sizes, surfaces and planes, with and without the symmetry',
 'extrema over all points for all surfaces',
 [C+'vmec/output_quantities/output_quantities.cc:ComputeIntermediateThreed1GeometricMagneticQuantities'])

prop('C97', 'A wout file that is saved and loaded again',
 'Saving a `VmecWOut` as NetCDF3 and loading the file gives the same fields with the same values: integers, flags, doubles, strings, arrays of one and two dimensions (type, shape and elements), mode numbers stored as doubles; fields that are None stay away, and loading a file of this code adds no default values.',
 'all values of all declared fields, any number of fields in any order, all dimension sizes, an arbitrary type of doubles',
 'fields share dimensions, so that the result for one field depends on the sizes of all earlier ones; tests use files of one solver run',
 ['src/vmecpp/__init__.py:VmecWOut._save_to_netcdf3', 'src/vmecpp/__init__.py:VmecWOut.from_wout_file'])

prop('C98', 'Classes with numpy arrays survive JSON',
 'Writing an object with numpy arrays as JSON and reading it gives the same value: number type, shape and all elements of every array, including NaN and infinities, inside lists, tuples, dictionaries, optional values and unions; what is written is standard JSON.',
 'all type declarations of the supported grammar nested to any depth, all values of them, arrays of any rank',
 'the type grammar is unbounded; tests use a few nesting patterns',
 ['src/vmecpp/_pydantic_numpy.py:_traverse_field_contents', 'src/vmecpp/_pydantic_numpy.py:_serialize_value', 'src/vmecpp/_pydantic_numpy.py:_deserialize_value', 'src/vmecpp/_pydantic_numpy.py:sanitize_floats_in_container', 'src/vmecpp/_pydantic_numpy.py:_reconstruct_floats_for_numpy'])

prop('C99', 'The printed spectral width is the volume average of M(4,1)',
 'On every surface the spectral width is the average of m^q weighted with m^p times the squared physical amplitude over the modes with m > 0, and 1 on the axis; for q = 1 it lies between 1 and mpol-1.  The printed <M> is its average over the plasma volume, whatever the number of threads and the order in which they register their parts.',
 'all resolutions, exponents, symmetry flags, states, thread counts and orders',
 'the gauge of the m = 1 modes enters and threads share surfaces; tests have one thread count and compare with a reference',
 [C+'vmec/fourier_geometry/fourier_geometry.cc:354-440', C+'vmec/radial_profiles/radial_profiles.cc:1253-1285', C+'vmec/handover_storage/handover_storage.cc:175-188', C+'vmec/vmec/vmec.cc:1166-1169'])

prop('C100', 'State vector and Hessian-vector product of the Python iteration model',
 'Reading and writing the state vector are inverse to each other and refuse other lengths; state and force vector have the same layout; the Hessian-vector product is the central difference quotient of the force along the given direction at the current state, linear in the length of the direction, and leaves the state unchanged.',
 'all symmetry flags, resolutions, states, directions, step sizes and forward models',
 'tests use one small case with regular forces; the failures need a Jacobian that changes sign, an error, or a free-boundary run',
 [C+'vmec/pybind11/pybind_vmec.cc:ActiveSpans', C+'vmec/pybind11/pybind_vmec.cc:FlattenActive', C+'vmec/pybind11/pybind_vmec.cc:UnflattenActive', C+'vmec/pybind11/pybind_vmec.cc:HessianVectorProduct', C+'vmec/pybind11/pybind_vmec.cc:Evaluate', C+'vmec/pybind11/pybind_vmec.cc:Create'])

prop('C101', 'Force residuals and the force on the state',
 'For every number of threads and order of registration the residuals of R, Z and lambda are the sums of the squared force harmonics with every surface counted once and the boundary counted for R and Z only on request; they vanish exactly if the counted forces do; the m=1 combination leaves their sum unchanged; gauge, mask and m=1 and lambda scalings touch exactly the harmonics they are meant for; the norm of the preconditioned residuals counts every surface once; the force attributed to the state is the gradient with respect to the state.',
 'all teams, boundary modes, resolutions, symmetries, forces and states',
 'tests compare with reference residuals in a few runs; the factor of the m=1 forces cancels in converged equilibria',
 [C+'vmec/fourier_forces/fourier_forces.cc:zeroZForceForM1', C+'vmec/fourier_forces/fourier_forces.cc:residuals', C+'vmec/fourier_coefficients/fourier_coefficients.cc:rzNorm', C+'vmec/ideal_mhd_model/ideal_mhd_model.cc:update', C+'vmec/ideal_mhd_model/ideal_mhd_model.cc:computeForceNorms', C+'vmec/ideal_mhd_model/ideal_mhd_model.cc:applyM1Preconditioner', C+'vmec/ideal_mhd_model/ideal_mhd_model.cc:applyLambdaPreconditioner', C+'vmec/pybind11/pybind_vmec.cc:Evaluate'])

prop('C102', 'Initial radial profile arrays',
 'After the initialisation of a radial grid every thread holds on each of its surfaces the square root of the position, the derivative of the enclosed toroidal flux whose total is the given edge flux, the profiles read at the flux label, the staggering factors and the odd-mode scaling, and two teams of any size agree on every shared surface; the scale of lambda is the root mean square of the flux derivative over the half grid for every number of threads; the current profile is scaled to the given net current whatever its own scale is; the pressure is constant outside the pedestal; reversing the poloidal angle reverses iota on both grids.',
 'all teams, flux polynomials, profile functions, previous contents and numbers of surfaces',
 "tests compare the arrays of a few inputs with references from one thread; the threshold of the current scaling, the full-grid signs and the axis value of chi' are not looked at",
 [C+'vmec/radial_profiles/radial_profiles.cc:evalRadialProfiles', C+'vmec/radial_profiles/radial_profiles.cc:computeMagneticFluxes', C+'vmec/radial_profiles/radial_profiles.cc:polfluxDeriv', C+'vmec/radial_profiles/radial_profiles.cc:polflux', C+'vmec/vmec/vmec.cc:InitializeRadial', C+'vmec/vmec_constants/vmec_constants.cc:reset', C+'vmec/ideal_mhd_model/ideal_mhd_model.cc:computeBContra'])

prop('C103', 'File names and conversions of the Python interface',
 'The configuration name is recovered from every name N.json, input.N and wout_N.nc and every other name is refused; command line and SIMSOPT wrapper write the result of an input under the same name, which leads back to the same configuration; a run that is computed is saved; a file is taken for INDATA exactly if its first significant line is the INDATA group; converting never writes over the input, and the temporary JSON file is removed however the body ends, without touching any other file.',
 'all file names, file contents, directories and bodies of the context manager',
 'tests use a handful of file names of the repository; names with both marks, with neither mark, or already existing files are not tried',
 ['src/vmecpp/_util.py:get_vmec_configuration_name', 'src/vmecpp/simsopt_compat.py:_make_wout_filename', 'src/vmecpp/__init__.py:is_vmec2000_input', 'src/vmecpp/__init__.py:ensure_vmecpp_input', 'src/vmecpp/__init__.py:ensure_vmec2000_input', 'src/vmecpp/__main__.py:main'])

prop('C104', 'Profiles given as a callable',
 "set_profile replaces exactly the chosen profile; its knots are the strictly increasing union of the surfaces of all stages, and on every full-grid and half-grid surface of every stage the solver's profile equals the callable there without any interpolation error, for every flux polynomial and with the rounding of the machine; the callable is only asked for positions inside the plasma.",
 'all lists of stages, callables, teams and positions',
 'the test compares knots and values of two stages with an independent list; no test evaluates the resulting profile in the solver',
 ['src/vmecpp/__init__.py:set_profile', C+'vmec/radial_profiles/radial_profiles.cc:evalLineSegment', C+'vmec/radial_profiles/radial_profiles.cc:evalMassProfile', C+'vmec/radial_profiles/radial_profiles.cc:evalIotaProfile', C+'vmec/radial_profiles/radial_profiles.cc:evalCurrProfile', C+'vmec/radial_profiles/radial_profiles.cc:evalRadialProfiles'])

prop('C105', 'Results of the SIMSOPT wrapper belong to the current configuration',
 'After any history of moved or replaced boundaries, set degrees of freedom, changed resolutions, written inputs, failed and successful runs, every number the wrapper returns is read off a result of the solver for exactly the current boundary, degrees of freedom and input; without restarts it is a function of the current configuration alone; a further query runs nothing. The mean iota is the average over the flux for linear profiles and lies within the values, the mean shear is the slope of the least-squares line, the vacuum well and the external current are exact for linear functions.',
 'all histories of operations, solvers, surfaces and file writers; all profiles',
 'tests call the accessors once or twice after one change; arbitrary histories with failures in between are not tried',
 ['src/vmecpp/simsopt_compat.py:run', 'src/vmecpp/simsopt_compat.py:set_indata', 'src/vmecpp/simsopt_compat.py:set_dofs', 'src/vmecpp/simsopt_compat.py:recompute_bell', 'src/vmecpp/simsopt_compat.py:set_mpol_ntor', 'src/vmecpp/simsopt_compat.py:get_input', 'src/vmecpp/simsopt_compat.py:mean_iota', 'src/vmecpp/simsopt_compat.py:mean_shear', 'src/vmecpp/simsopt_compat.py:vacuum_well', 'src/vmecpp/simsopt_compat.py:external_current'])

prop('C106', 'Loading a written mgrid file is loading the response table',
 'For every response table that fits its parameters, WriteMakegridNetCDFFile writes a file that contains the sizes, the extents, the mode, the circuit names, the currents and each component of each circuit (vector potential too) in the order of the grid, under names that never clash. LoadFile of this file and LoadFields of the table succeed for all currents and give the same grid and field. The currents in the file are those of the coils.',
 'all numbers of circuits, grids, tables, currents and previous contents of the provider; all coils files for the currents of the program',
 'the repository says: TODO add test of WriteMakegridNetCDFFile; the round trip is not tested',
 [C+'common/makegrid_lib/makegrid_lib.cc:WriteMakegridNetCDFFile', C+'free_boundary/mgrid_provider/mgrid_provider.cc:LoadFile', 'src/vmecpp/cpp/util/netcdf_io/netcdf_io.cc:NetcdfReadString', 'src/vmecpp/cpp/util/netcdf_io/netcdf_io.cc:NetcdfReadArray3D'])

prop('C107', 'Coordinate frames and radial movement of coils',
 'OrthonormalFrameAroundAxis gives, around every axis of any length, three unit vectors perpendicular to one another, right-handed, the first along the axis. MoveRadially moves every vertex of every polygon from radius r to r + step at the same azimuth and height and every coaxial loop to the radius r + step; steps add up and a step back restores the coils; when some current carrier cannot be moved, an error is returned and nothing is changed.',
 'all axes; all configurations, steps and vertices',
 'tests use the three coordinate axes, for which the missing normalisation does not show, and a single step of single filaments',
 [C+'common/composed_types_lib/composed_types_lib.cc:OrthonormalFrameAroundAxis', C+'common/composed_types_lib/composed_types_lib.cc:MostPerpendicularCoordinateAxis', C+'common/magnetic_configuration_lib/magnetic_configuration_lib.cc:MoveRadially'])

prop('C108', 'Axis tables and the linking current',
 'CurveRZFourierFromCsv reads back what CurveRZFourierToCsv wrote for every complete curve, and every table that is not of the documented form is refused. LinkingCurrent is the trapezoidal sum of the loop integral of B along the curve divided by mu0, with points on the curve, its exact derivative as tangent, and more points than twice the Nyquist limit of every mode; it is additive in the coils and exactly the current of a straight wire on the z axis for every curve around it.',
 'all curves, mode numbers, fields, numbers of field periods and printing routines',
 'tests read two tables and compute one linking current with a tolerance of 5e-3',
 [C+'common/composed_types_lib/composed_types_lib.cc:CurveRZFourierFromCsv', C+'common/composed_types_lib/composed_types_lib.cc:CurveRZFourierToCsv', C+'common/magnetic_field_provider/magnetic_field_provider_lib.cc:LinkingCurrent'])

prop('C109', 'Coupling of plasma and vacuum at the boundary',
 "The surface NESTOR works with is the plasma boundary: every coefficient of the last surface is handed over, and NESTOR's grid point (l, k) lies at the plasma's point (k, l) with the same poloidal tangent. The force added at the boundary does, on every displacement, the work of the vacuum pressure plus edge pressure on the surface element, divided by the radial spacing, and nothing is added anywhere else. The reported mismatch delbsq is zero exactly if the pressures agree at all points. The constraint reference is the boundary value times s times 0.9^n after n evaluations, for every number of threads. A run goes on only if sign and net current of plasma and vacuum agree.",
 'all sizes, thread counts, coefficients, pressures, displacements and numbers of evaluations; the geometric part for stellarator-symmetric runs',
 'tests compare a free-boundary run with stored reference values; transposed indices or a wrong sign would be one number among many, and invalid vacuum fields are never tried',
 [C+'vmec/ideal_mhd_model/ideal_mhd_model.cc:HandOverBoundaryGeometry', C+'vmec/ideal_mhd_model/ideal_mhd_model.cc:update', C+'vmec/ideal_mhd_model/ideal_mhd_model.cc:assembleTotalForces', C+'vmec/ideal_mhd_model/ideal_mhd_model.cc:rzConIntoVolume', C+'vmec/ideal_mhd_model/ideal_mhd_model.cc:get_delbsq'])

prop('C110', 'Free boundary with the field of the coils only',
 'With the method only_coils every point of the grid gets the field of the coils and half of its square, for every number of threads and every order of the threads; the net values are the surface averages of its covariant components on the true surface. Compared with NESTOR the pressure is that of the tangential field with the same components plus half of the square of the normal component; both methods share the same field exactly where the field of the coils is tangential. The method is used only if the plasma carries no current and no pressure.',
 'all sizes, thread counts, thread orders, surfaces, coil fields and inputs',
 'no test runs a case with only_coils through the solver, and none compares it with NESTOR on the same surface; a prescribed rotational transform is never tried with it',
 [C+'free_boundary/only_coils/only_coils.cc:update', C+'vmec/vmec/vmec.cc:Vmec', C+'free_boundary/external_magnetic_field/external_magnetic_field.cc:update'])

prop('C111', 'Makegrid parameters from files and the Python mirror of field tables',
 'A document with Makegrid parameters is accepted exactly if all ten parameters are present with their types and describe a usable grid, and every other document that can be parsed is answered by an exception in Python. Parameters are converted between Python and C++ without loss, and refused if an integer does not fit. Whatever elements or arrays of a Python field table are changed, the table handed to C++ contains exactly what Python shows; an unchanged table is handed over without a copy and no other table is changed.',
 'all JSON documents, parameters, tables and sequences of changes',
 'tests convert one table back and forth and check memory sharing once; changed parameters, exchanged arrays, missing files and large integers are never tried',
 [C+'common/makegrid_lib/makegrid_lib.cc:ImportMakegridParametersFromJson', C+'common/makegrid_lib/makegrid_lib.cc:IsValidMakegridParameters', C+'common/makegrid_lib/makegrid_lib.cc:ImportMakegridParametersFromFile', 'src/vmecpp/_free_boundary.py:_to_cpp_magnetic_field_response_table', 'src/vmecpp/_free_boundary.py:_to_cpp_makegrid_parameters', C+'vmec/pybind11/pybind_vmec.cc:DefEigenProperty'])

prop('C112', 'Saving the outputs to a file and loading them is the identity',
 'For all outputs, OutputQuantities::Load of the file written by OutputQuantities::Save gives equal outputs, whatever the receiving object held before. A file of the former layout (other names, no axis on the half grid, one row per surface) gives the same wout as a present one, and members missing in old files are zero.',
 'all outputs, numbers of surfaces and modes, receiving objects, and files of both layouts',
 'the test saves and loads one run with one resolution; a run with as many modes as surfaces, a fixed-boundary run with currents and labels of currents are never saved',
 [C+'vmec/output_quantities/output_quantities.cc:OutputQuantities::Save', C+'vmec/output_quantities/output_quantities.cc:OutputQuantities::Load', C+'vmec/output_quantities/output_quantities.cc:WOutFileContents::WriteTo', C+'vmec/output_quantities/output_quantities.cc:WOutFileContents::LoadInto', C+'vmec/output_quantities/output_quantities.cc:VmecInternalResults::LoadInto', 'src/vmecpp/cpp/util/hdf5_io/hdf5_io.h', 'src/vmecpp/cpp/util/hdf5_io/hdf5_io.cc'])

prop('C113', 'Results handed between C++ and Python are the results of the run',
 'Python shows every quantity of every output class with the value it has in C++ and adds nothing; a result is refused only if a string exceeds its limit or the mgrid mode is unknown; a wout that goes to C++ for a hot restart has every value it had in C++, so the restart starts from the state of the run; a VmecWOut that goes to C++ and back is unchanged; a hot restart from an output is either refused or reads only elements that exist.',
 'all results of runs, all VmecWOut objects, all sequences of runs with input objects that are changed in between',
 'the tests convert a few wouts of one symmetric and one asymmetric run; inputs changed after a run, wouts with extra attributes or missing asymmetric arrays and mgrid files with another mode do not occur',
 ['src/vmecpp/__init__.py:_from_cpp_wout', 'src/vmecpp/__init__.py:_to_cpp_wout', 'src/vmecpp/__init__.py:run', C+'vmec/pybind11/pybind_vmec.cc:WOutFileContents', C+'vmec/vmec/vmec.cc:CheckInitialState'])

prop('C114', 'The parallel tridiagonal solver is free of races and deadlocks and returns the serial solution',
 'In every interleaving of the threads no two threads work on shared data at the same time, no mutex is misused, some thread can always go on, all threads return and leave the mutexes free; the sections are executed in the order of the ranks forwards and then backwards; the result is the only solution of every system, i.e. that of the serial solver.',
 'all numbers of threads, all interleavings, all partitions of the rows, all numbers of modes and right-hand sides, all matrices without vanishing minors, all contents of the handover storage',
 'the test runs whatever interleavings the machine produces, with 99 surfaces on a few threads, all modes from the axis to the edge; two surfaces per thread, modes that start at the second surface and a fixed boundary do not occur',
 [C+'common/util/util.cc:TridiagonalSolveOpenMP', C+'common/util/util.cc:TridiagonalSolveSerial'])

prop('C115', 'The threads of the solver are free of data races and take the same decisions',
 'No two threads of the parallel region access the same cell of shared memory at the same time unless both only read it or both hold the same lock, on every path through the iterations and wherever a checkpoint or an error ends it; all threads that read a shared variable get the same value and so take the same branch; exactly one thread has the boundary and exactly one the axis; the same holds for the nested team of the vacuum solver.',
 'all numbers of threads that the thread adjustment admits, all numbers of surfaces, all sequences of iterations, restarts and multi-grid stages, all choices of the threads that run the single blocks, all timings',
 'a race shows only for some timings; a test run sees one timing, and a race detector reports OpenMP barriers it does not know and only the paths of that run',
 [C+'vmec/vmec/vmec.cc:SolveEquilibrium', C+'vmec/vmec/vmec.cc:SolveEquilibriumLoop', C+'vmec/vmec/vmec.cc:Evolve', C+'vmec/vmec/vmec.cc:RestartIteration', C+'vmec/vmec/vmec.cc:UpdateForwardModel', C+'vmec/ideal_mhd_model/ideal_mhd_model.cc:update', C+'vmec/ideal_mhd_model/ideal_mhd_model.cc:evalFResInvar', C+'vmec/ideal_mhd_model/ideal_mhd_model.cc:applyRZPreconditioner', C+'free_boundary/nestor/nestor.cc:update'])

prop('C116', 'Curves and surfaces written to CSV files come back',
 'A complete curve or surface is written as text, an incomplete one is reported; reading the text gives the same modes in the same order and the same coefficients; any text is read or reported as an error.',
 'all curves and surfaces with any number of modes, all finite coefficients, all texts',
 'the tests read two files of the repository and compare with values parsed the same way; a double that needs 17 digits and a file with a faulty cell do not occur',
 [C+'common/composed_types_lib/composed_types_lib.cc:CurveRZFourierFromCsv', C+'common/composed_types_lib/composed_types_lib.cc:CurveRZFourierToCsv', C+'common/composed_types_lib/composed_types_lib.cc:SurfaceRZFourierFromCsv', C+'common/composed_types_lib/composed_types_lib.cc:SurfaceRZFourierToCsv'])

prop('C117', 'The progress display shows the state of the run',
 'The fraction of every stage lies between 0 and 1 for all residuals; it is 1 exactly if the stage is done, the residual has met the tolerance or the iterations are used up; every bar has its full width; the logger never accesses a stage that does not exist; on the terminal stands exactly the last display, at the same place, with nothing left of earlier ones.',
 'all residuals including NaN and infinities, all tolerances and iteration numbers, all sequences of calls, all contents of the terminal',
 'the logger has no test of its own; what a terminal shows after cursor movements cannot be seen in the output stream',
 [C+'vmec/iteration_logger/iteration_logger.cc:ComputeProgress', C+'vmec/iteration_logger/iteration_logger.cc:RenderProgressDisplay', C+'vmec/iteration_logger/iteration_logger.cc:BeginStage', C+'vmec/iteration_logger/iteration_logger.cc:FormatBar'])

prop('C118', 'The worksharing loops of the output and of the response tables do not depend on the threads',
 'The OpenMP loops that compute |B|, the Nyquist spectra on the half and the full grid and the (mirrored) response tables reach no data race, do not deadlock, and leave exactly the results of the serial loops, for every number of threads, every assignment of iterations to threads and every interleaving; in particular an iteration never sees what an earlier iteration of the same thread left in the work arrays, and the work arrays are large enough.',
 'all team sizes, schedules, interleavings, contents of the private memories, fields, resolutions',
 'a schedule that exposes a race need not occur in any test run; results are compared for few thread numbers only',
 [C+'vmec/output_quantities/output_quantities.cc:4703-4714', C+'vmec/output_quantities/output_quantities.cc:4771-5043', C+'vmec/output_quantities/output_quantities.cc:5082-5182', C+'common/makegrid_lib/makegrid_lib.cc:371-411', C+'common/makegrid_lib/makegrid_lib.cc:718-761'])

prop('C119', 'No array of the force model is accessed out of range',
 'One evaluation of the forces by one thread - inverse transforms in 2D and 3D, symmetrisation, Jacobian, metric, field, pressure, energies, radial force balance, vacuum pressure, lambda force, radial and lambda preconditioners, constraint force with its bandpass, MHD forces, forward transforms, application of the preconditioners - reads and writes only existing elements of the 230 arrays involved, as they are allocated; the conditions of at least three surfaces and two poloidal modes are needed.',
 'all accepted numbers of threads, all threads, all numbers of surfaces >= 3, all sizes with mpol >= 2, with and without symmetry, fixed and free boundary, vacuum on or off',
 'release builds do not check indices; an access one element too far often goes unnoticed, and the ranges differ by thread, thread count and boundary type',
 [C+'vmec/ideal_mhd_model/ideal_mhd_model.cc:93-258', C+'vmec/ideal_mhd_model/ideal_mhd_model.cc:297-476', C+'vmec/ideal_mhd_model/ideal_mhd_model.cc:1120-2545', C+'vmec/ideal_mhd_model/ideal_mhd_model.cc:2625-3250', C+'vmec/ideal_mhd_model/dft_toroidal.cc:14-660', C+'vmec/ideal_mhd_model/mhdforce_kernel.h', C+'vmec/ideal_mhd_model/lambda_force_kernel.h', C+'vmec/ideal_mhd_model/constraint_force_kernel.h', C+'vmec/ideal_mhd_model/jacobian_kernel.h', C+'vmec/ideal_mhd_model/metric_kernel.h', C+'vmec/fourier_coefficients/fourier_coefficients.cc:18-57'])

prop('C120', 'Copies of the Fourier containers are independent and their spans show their own arrays',
 'Whatever sequence of constructions, copies, assignments, moves and destructions of FourierGeometry, FourierForces or FourierVelocity objects is executed: each span of an object that was not moved from refers to the array of that object it is named after, with its length; a write through a span changes that array of that object only; no block is used after it is freed, freed twice or leaked; restoring from the backup returns every coefficient as it was when it was saved; with assignments between equal sizes the spans have the length the loops run over.',
 'all sequences of operations, all numbers and sizes of objects, both symmetry flags, all allocators (freed addresses may be reused)',
 'a span left on freed or foreign storage usually still reads plausible numbers; it depends on the allocator whether anything fails',
 [C+'vmec/fourier_coefficients/fourier_coefficients.cc:17-95', C+'vmec/fourier_coefficients/fourier_coefficients.h:20-101', C+'vmec/fourier_geometry/fourier_geometry.cc:15-96', C+'vmec/fourier_forces/fourier_forces.cc:13-88', C+'vmec/fourier_velocity/fourier_velocity.cc:11-86', C+'vmec/vmec/vmec.cc:1245-1305'])

prop('C121', 'The Laplace solver of the vacuum field stays inside its arrays',
 "For every accepted input and every thread of a team of any size, no access of the Laplace solver in a full update (tables, transform of the Green's function derivative, symmetrisation, both toroidal and both poloidal transforms, assembly, factorisation and solution of the linear system) and of the inverse transform of the potential is out of range; the poloidal transforms assign to every element of the thread's right-hand side and matrix blocks.",
 'all accepted sizes, both symmetry flags, all team sizes (also more threads than grid points), all threads',
 'an index beyond the end of a heap array or of the shared matrix mostly reads or writes other valid numbers; the non-symmetric branches and uneven splits are hardly covered by tests',
 [C+'free_boundary/laplace_solver/laplace_solver.cc:24-681', C+'free_boundary/nestor/nestor.cc:19-28', C+'free_boundary/nestor/nestor.cc:131-180', C+'free_boundary/tangential_partitioning/tangential_partitioning.cc:15-34', C+'vmec/vmec/vmec.cc:194-206', C+'common/fourier_basis/fourier_basis.cc:18-33'])

prop('C122', 'Surface geometry and the vacuum integrals stay inside their arrays and take every grid point once',
 'For every accepted input and every thread of a team of any size, in full and in partial updates, no access of surface geometry, external field, singular integrals, regularised integrals (with and without toroidal modes) and vacuum pressure is out of range. The loops that advance their own counter end; the loop over the first field period adds to every grid point but the singular one exactly once, and the loop that takes four points at a time takes every point of the thread exactly once.',
 'all accepted sizes, both symmetry flags, full and partial updates, all team sizes, all threads',
 'row ends, group remainders and thread borders coincide only for some sizes and numbers of threads; a point that is skipped or taken twice changes the result by little',
 [C+'free_boundary/surface_geometry/surface_geometry.cc:9-460', C+'free_boundary/singular_integrals/singular_integrals.cc:14-600', C+'free_boundary/regularized_integrals/regularized_integrals.cc:15-309', 'src/vmecpp/cpp/vmecpp/free_boundary/external_magnetic_field/external_magnetic_field.cc:14-330', C+'free_boundary/nestor/nestor.cc:181-248', C+'vmec/handover_storage/handover_storage.cc:46-54'])

out = pathlib.Path(__file__).resolve().parent.parent / "properties.jsonl"
out.write_text("".join(json.dumps(p) + "\n" for p in P))
print(len(P), "properties")
