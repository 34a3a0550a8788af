# Formal model of VMEC++ in Lean 4

Sources are `/repo/src/vmecpp/cpp/vmecpp` (called `cpp/` below) and `/repo/src/vmecpp/*.py`.
Every definition in `lean/Verif/*/Model*.lean` cites file and lines.

## Trusted base

* Lean 4.33 kernel, Mathlib. Theorems use at most `propext`, `Classical.choice`, `Quot.sound`.
  No own axioms, no `sorry`, no `native_decide`, no `bv_decide`.
  `AXIOMS.md` lists the axioms of every theorem in `MANIFEST.json` (generated by `tools/axioms.py`).
* The hand translation C++/Python -> Lean. It is text-level: nothing was compiled or run.
* Numbers. Index arithmetic is modelled over `Nat`/`Int` (C++ `int`; no overflow: all sizes are
  assumed to fit 31 bits). Floating point: *algebraic* results (transforms, Thomas solver, splines,
  interpolation) are over an exact field (`ℚ`, `ℝ` or any `Field`), i.e. round-off is not modelled.
  *Control* decisions (convergence, restart, Jacobian test) are over an extended type with
  `nan`, `±inf` and finite values, with IEEE comparison semantics, because NaN handling matters there.
* External behaviour is a parameter (oracle): the forward model (residuals, Jacobian verdict,
  error statuses) in the control model, FFT library, NetCDF contents, libm functions, user interrupts.
* Threads: the OpenMP team is modelled as lists of per-thread actions between barriers; a data-race
  free step executed by several threads may be executed in any order (permutation / interleaving).

## Layout

* `Verif/<Area>/Model.lean` : definitions mirroring the code (with citations).
* `Verif/<Area>/Spec.lean`  : small independent vocabulary for the English property (where needed).
* `Verif/<Area>/Lemmas.lean`: helper lemmas.
* `Verif/<Area>/Props.lean` : the property theorems, each with a concrete `example`.

UB (out of bounds access, dereferencing an empty optional), process abort (`CHECK`, `LOG(FATAL)`),
exceptions and error statuses are distinct outcomes in the models where they can occur.

## Plan per property

| id | model | proof |
|----|-------|-------|
| C01-C04 | `adjustRadialPartitioning`, `vmec_adjust_num_threads` over `Int` | arithmetic of `t*w + min t r`, existence and uniqueness of owner |
| C05 | `adjustPartitioning`, mode split | same |
| C06 | accumulator programs (zero / critical add / barrier / read) run under arbitrary interleaving | induction over interleavings |
| C07, C08 | `computeDerivedSizes` | arithmetic; finite sums |
| C09 | loops of `computeConversionIndices`, `mnIdx`, `mnMax`, Python table | list induction |
| C10, C11 | the four conversion routines as array programs over a field | sums over modes, `cos(a-b)` identities |
| C12 | basis tables, analysis/synthesis sums over `ℝ` | roots of unity sums (Mathlib) |
| C13 | `TridiagonalSolveSerial` as array program with pivots | induction on rows |
| C14-C19 | control state machine of `SolveEquilibrium`/`Loop`/`Evolve`/`RestartIteration`, oracle forward model | invariants by induction |
| C20, C21 | free-boundary block of `update` | invariants |
| C22 | min/max scan over extended doubles, per-thread ranges | induction over the scan, overlap of ranges |
| C23 | `IsConsistent` (`Indata`) on a record of all members; doubles with NaN and infinities | each check is an iff; conjunction; definedness by sequencing |
| C24 | `ToJson`, `FromJson` (`Indata`) on a JSON AST; `dump`/`parse` are parameters that read back what was written | the written members are found by name; the boundary loop is followed by an invariant; the reader is inverted to get its guarantees |
| C25 | `SetMpolNtor` (`Resize`) | case analysis, round trip |
| C26-C28 | boundary routines | finite sums, trig identities |
| C29, C45, C48 | Fourier geometry routines | direct |
| C30-C34 | profile evaluators over `ℝ`/field | direct, derivatives |
| C35, C36 | mgrid provider | floor arithmetic, linearity |
| C37, C38, C50 | Python helpers | list/array induction |
| C39 | `solve_equilibrium` (`_iteration.py:171-518`) over the same forward-model streams as the C++ loop (`PyDriver`) | simulation relation between the two driver states, proved along a pass, the loop and the attempts; each excluded situation has a witness in which the drivers differ |
| C40 | barrier traces per thread | equality of traces / witness |
| C41 | coils-file parser on characters (`stod`/`stoi` as parameters), winding normalisation, the (carrier, current) list used by the field routines | induction over lines with a representation invariant; iff with a grammar |
| C42 | time step with halo exchange | partition lemmas |
| C43, C44 | hot restart, axis guess loops | direct / witness |
| C46 | every sweeping kernel of `IdealMhdModel::update` between the two Fourier transforms, each on the arrays of one thread | loop invariants per kernel (window of the torus), then composition; comparison with a specification of the whole torus |
| C47 | both variants of the 3D symmetric transforms with the loops and scratch arrays of the code; the FFT library as a parameter that meets its documented sums | loops to sums, equality of functions |
| C49, C51 | `Vmec::run` stage loop | induction over ns_array |
| C52 | flip of the poloidal angle and the m=1 gauge | finite sums; negation witness |
| C53-C55 | closed-form profiles, cubic and Akima splines | real analysis |
| C56 | radial interpolation of the Python continuation against the solver's | comparison, witnesses |
| C57 | makegrid: cylindrical grid, component rotation, mirroring, response-table rows; carrier field as a parameter | loop lemmas, index algebra, induction over the sources |
| C58 | field of the straight filament | real algebra |
| C59 | the model of C46; separate specification of the energy of the torus (`Kernels/SpecB.lean`) | calculus (`HasDerivAt`), identity at each half-grid point, summation by parts |
| C60 | the same | algebra on the surface sums |
| C61 | Jacobian and metric kernels | algebra |
| C62 | lambda-force kernel against the derivative of the same energy | calculus; witness |
| C63 | direct-sum inverse transform with the basis tables of `Fourier`; specification by series and `HasDerivAt` | loops to sums, derivative of each mode |
| C64 | force transform, inverse transform, kernels of C46 | transposition per surface (sums over modes against sums over points), then C59 |
| C65 | the 2D transforms, the 3D transforms, kernels of C46 | both reduced to sums over modes; equal when nzeta = 1; witness for nzeta = 2; gradient through C64 |
| C66 | `FromJson` (`Indata`) on all JSON documents | every section returns, by sequencing; invariants between the sections; witnesses |
| C67 | `WriteTo`, `LoadInto`, `ReadH5Dataset`, `WriteH5Dataset` (`Indata/Hdf5`) | the written datasets are found by name |
| C68 | symmetric and antisymmetric inverse transforms, `symrzl` (`Asym`); specification by both series | loops to sums; the series at the reflected point; the in-place loops of `symrzl` are followed by an invariant over surfaces |
| C69 | `symforce`, both force transforms, kernels of C46 (`Asym`) | the integral over the full interval split into two over the reduced one; transposition per surface; then C59 |
| C70 | `deAliasConstraintForce` (`Constraint`) | the loops as sums, split into parities for lasym; discrete orthogonality of the angular functions |
| C71 | `xmpq`, `faccon`, `ruFull`, `zuFull`, effective constraint force, filter, `AddConstraintForces`, transforms and kernels of C64 and C69 (`Constraint`) | the filter is self-adjoint, so the power of the constraint force is the derivative of a weighted sum of squares; then C64 and C69 |
| C72 | `computeCoefficients`, `prepareUpdate`, the formulas for `Slp`, `Slm` (`Nestor`) | integrals of `t^l/√Q` satisfy the same three-term recurrence (derivative of `t^l √Q`); the difference of the backward recurrence is a homogeneous solution whose quadratic form decays by A/B per step |
| C73 | `computeCoefficients` (`Nestor`) | closed form of the loops (signed trinomials), recurrence of the polynomials in m and n, the same recurrence for the integrals of products of Cayley transforms |
| C74 | `performUpdate` with its unrolled loop, carried `T_{l-1}`, any thread range (`Nestor.Perform`) | the unrolled loop equals plain sums; index injectivity gives single elements; substitution u = 2 arctan(x), polar decomposition of the plane into rays and a Möbius map of the ray to t in (-1, 1) |
| C75 | `RegularizedIntegrals` with the row loop `do_loop` (`Nestor.Green`) | every pass is the addition of a point pair; strong recursion for the row loop; index injectivity gives single elements; kernels rewritten with vectors rotated about the axis; the masked tangent entry is a periodic function of the angle |
| C76 | `SurfaceGeometry` with the gates on rows and points of the thread, the mirror loops and the sum of the parts (`Nestor.Surface`) | elements of the arrays are double sums by induction over the loops; a calculus of series with four kinds of coefficients closed under derivatives; parity of the series for the mirror loops; vectors as rotations of cylindrical components |
| C77 | `LaplaceSolver` with the scaled tables, transforms, matrix, right-hand side (`Nestor.Laplace`), threads with the split of C05 | folding lemma: weighted sums over half of the grid of a symmetrised function are means over the whole grid; element of a nest of loops by injectivity of the flat index; induction over the list of threads; exactly one thread owns a point |
| C78 | same model | what the rows of sines hold; concrete Green function for which the entry is 0 and the average is not |
| C79 | `AddAxisCurrentFieldSimple`, `covariantAndNormalComponents` (`Nestor.Vacuum`) | loop invariant for the polygon; antiderivative of `1/√Q³` and the identity of Hanson and Hirshman; rotation to Cartesian components and C76 |
| C80 | second half of `Nestor::update` (`Nestor.Vacuum`) | tables are cosines and sines of the grid angles; termwise differentiation; inverse of the first fundamental form; telescoping over the threads and discrete orthogonality for the averages |
| C81 | `computePreconditioningMatrix`, `assembleRZPreconditioner`, `applyRZPreconditioner` (`Radial.Model`) | closed form of the accumulated sums; bilinear form tested with unit displacements; induction on the pivots with the Cauchy-Schwarz inequality of each cell; C13 for the solver, C01 for gathering and redistribution |
| C82 | `GatherDataFromThreads` (`Output.Gather`) | closed form of each copying loop; C01-C03 for the coverage of the surfaces |
| C83 | `MeshBledingBSubZeta`, `ComputePoloidalCurrentToFixBSubV`, `FixupPoloidalCurrent`, `RecomputeToroidalFlux` (`Output.Gather`) | loop invariants; C08 for the average of a constant; explicit sums for the flux |
| C84 | the geometry part of `ComputeWOutFileContents` (`Output.Wout`) | closed forms of the counter loops (`assign_first`, `assign_rows` of C10), then the angle-sum identities as in C11 |
| C85 | `ComputeRemainingMetric`, `BCylindricalComponents`, `ComputeBSubSOnHalfGrid`, `PutBSubSOnFullGrid`, `ExtrapolateBSubS` (`Output.Field`) | closed form of the loop nest `fillGrid`; `HasDerivAt` of the interpolant; dot products in the cylindrical basis |
| C86 | `DecomposeCovariantBBySymmetry`, `LowPassFilterCovariantB` (`Output.Filter`) | closed forms of the loop nests; discrete orthogonality (C12) gives the projection; `HasDerivAt` of the product basis; reflection of the grid |
| C87 | `ComputeJxBOutputFileContents` (`Output.Jxb`) | closed forms of the loops; `HasDerivAt` from C86; Cauchy-Schwarz; cross products in R^3; counterexamples for the three findings |
| C88 | `ComputeMercierStability` (`Output.Mercier`) | closed forms of the loops; the contravariant gradient as a cross product in R^3; Cauchy-Schwarz with the weights as measure; invariance under the two reversals term by term; counterexample Phi = s^2 for the flux column |
| C89 | the Nyquist transforms in `ComputeWOutFileContents` (`Output.Nyquist`) | closed forms of the loops as weighted grid sums; discrete orthogonality with halved end points in both directions, so that the sum over all modes is a delta function on the grid; reflection of the grid for `lasym`; counterexample for odd `nZeta` |
| C90 | the current block of `ComputeWOutFileContents` (`Output.Currents`) | closed forms of the loops; derivatives of the Fourier series in analysis; the regularised difference is the exact derivative of `√s (α + β s)`; telescoping sum; linear identity for the divergence; counterexample with three surfaces |
| C91 | `ComputeIntermediateThreed1FirstTableQuantities`, `ComputeThreed1FirstTable` and the profiles of `ComputeWOutFileContents` (`Output.Threed1`) | closed forms of the loops; triangle inequality for the normalised force; field identities for the force balance; prefix sums for the fluxes; counterexamples for the two signs and for three surfaces |
| C92 | `ComputeIntermediateThreed1GeometricMagneticQuantities`, `ComputeThreed1GeometricMagneticQuantities` (`Output.Geometry`) | trigonometric polynomials as an inductive class closed under products and derivatives; the weighted grid sum equals the integral mean below the Nyquist degrees (`average_exact`); cross product for the surface element; loop invariants for maxima and minima; counterexamples built from sampled tori |
| C93 | the sums of the same functions, `ComputeThreed1Volumetrics`, `ComputeThreed1Betas` (`Output.Geometry`) | closed forms of the double loops against a separate volume integral; Cauchy-Schwarz from C87 |
| C94 | the scalar, profile and history part of `ComputeWOutFileContents`, `ComputeThreed1AxisGeometry` (`Output.WoutFile`) | the padded vector has the same coefficient function as the input, so that every profile evaluated through it is the same; the assignment to `wdot` as a sequence of steps of any lengths, induction over the steps; axis coefficients compared with C84's coefficients and with the internal series |
| C95 | `ComputeThreed1ShafranovIntegrals` and the sums it reads (`Output.Shafranov`) | nested index loops by invariants; cross product of the tangent vectors; trapezoidal rule exact for trigonometric polynomials and integration by parts; volume integrals as in C93 |
| C96 | the loop over planes and surfaces of `ComputeIntermediateThreed1GeometricMagneticQuantities` (`Output.Shape`) | invariants of the two passes of the scan; reflection of the grid in a plane of symmetry; flat-index loop; witnesses with shifted and with helical surfaces |
| C97 | `VmecWOut._save_to_netcdf3`, `VmecWOut.from_wout_file`, serializers and validators of the fields (`PyOutput.Netcdf`), `netCDF4` by its documented behaviour | invariant of the loop over the fields (dimension table, every variable written so far reads back as its field); lookup in the list of variables; symbolic execution for the failures |
| C98 | `serialize_special_field`, `deserialize_special_field`, `_traverse_field_contents`, `_serialize_value`, `_deserialize_value`, `sanitize_floats_in_container`, `_reconstruct_floats_for_numpy` (`PyJson.Model`) | induction over shapes for `tolist` and `np.array`, mutual induction over the type grammar; evaluation for the failures |
| C99 | `ComputeSpectralWidth`, `AccumulateVolumeAveragedSpectralWidth`, `RegisterSpectralWidthContribution`, `VolumeAveragedSpectralWidth` (`Coeffs.SpectralWidth`) | loop invariant for the profile, double sums as pairs, C03 for the partition, permutation of the registration order; bounds from monotone powers |
| C100 | `ActiveSpans`, `FlattenActive`, `UnflattenActive`, `Create` (choice of tolerance), `Evaluate`, `HessianVectorProduct` and the exits of `update` (`PyModel.Model`) | induction over the spans; symbolic run of the product with the forward model as parameter; evaluation for the failures |
| C101 | `zeroZForceForM1`, `residuals`, `rzNorm`, `applyM1Preconditioner`, `applyLambdaPreconditioner`, the steps of `update` from the physical force to the force on the state (`Coeffs.Residuals`) | column lemmas for the loops; partition of the rows over the team; sums of squares; adjointness of scaling and m=1 combination; evaluation for the failure |
| C102 | `evalRadialProfiles` with the loop over the threads and the constants, `polflux` (`Profiles.Radial`); the three profile functions are parameters | loop invariants for the three loops; unique half-grid points (C03); closed forms; evaluation for the failures |
| C103 | the name functions on lists of characters, `main`, `is_vmec2000_input`, the context manager over a directory (`PyFiles.Model`) | list lemmas for prefixes, suffixes, split and join; case analysis; evaluation for the failures |
| C104 | `set_profile` over sets of reals (`Profiles.SetProfile`), the line-segment evaluator (C31), the initial arrays (C102); the grid in doubles as rationals rounded to 53 bits | membership of the knots; neighbouring knots; composition with C31 and C102; evaluation of the rounded grid of seven surfaces |
| C105 | the wrapper object as a state machine over all histories (`PySimsopt.Model`); solver, surfaces and file writer are parameters; the numbers as formulas | invariant over histories against a specification without cache; sums over the half grid; minimisation for the fit |
| C106 | the calls of the NetCDF library on a file as maps of dimensions and variables, memory behind a pointer as an array with its end (`Makegrid.File`); numbers exact | induction over the lists of calls with distinct names; composition with C36; induction over the coils file for the currents |
| C107 | vectors, frame and `MoveRadially` over exact reals; `atan2` as the argument of a complex number; loops with early return keep the partly changed configuration | algebra for the frame, polar coordinates for the movement, induction over circuits, coils and carriers |
| C108 | reader and writer on lists of characters with the number conversions as parameters; `LinkingCurrent` with the field as a parameter | induction over lines and coefficients; derivative of the curve; composition with the straight wire of C58 |
| C109 | the handover loops, the checks (on doubles with NaN), the edge loop, the edge force, `rzConIntoVolume` with a thread team, the decay, `get_delbsq` | pointwise evaluation of the loops; composition with the transforms (C63, C65), the partition (C01), NESTOR's surface (C76) and the constraint arrays |
| C110 | `OnlyCoils::update` on top of the models of the surface geometry and of the external field, a team of threads in any order, the check in the constructor of `Vmec` | the field of the axis current is zero for zero current; reuse of C80 with a vanishing potential; the difference to the tangential field is normal to the surface |
| C111 | the JSON reader entry by entry, the bound constructor with its positional arguments, the pydantic mirror by names, C++ tables on a heap with numpy arrays as views or own data | case analysis on the entries; invariant over all sequences of element writes and array replacements |
| C112 | the members of the 18 classes with their types, the statements of every `LoadInto` with the changes for old files, the file as a table of groups and datasets | induction over the statements: each sets its members to the saved values if those it uses are already loaded; the order is checked by evaluation of the tables |
| C113 | the tables of the fields of all Python output classes with their types and of the bound C++ members; the two conversions of the wout; the identity of the input object in `run` | induction over the tables with facts about them by evaluation; the hot restart check is that of C43 |
| C114 | the locks and barriers as a transition system with arbitrary interleaving, the three sections row by row for all modes | invariant that reads the owner of every mutex off the instruction counters; progress by cases; the sections refine the recursion of C13 |
| C115 | the parallel regions as structured texts of shared accesses and barriers; a machine in which every thread runs the text at its own pace | a check on texts (what may happen between two barriers) is proved sound for all words by induction on the text; an invariant of the machine (between barriers all counters lie in the same phase, what was read is what memory holds) excludes races; the roles come from the partition of C01 |
| C116 | text as character lists with line and field splitting; `%.16g` as rounding to 16 significant digits over ℚ; number parsing as a parameter | splitting undoes joining by induction on the cells and lines; error bound from the decimal exponent; concrete pair of doubles with the same text |
| C117 | the state of the logger and its output as commands to a terminal; extended doubles for the fractions | case analysis over NaN and infinities; invariant that relates the cursor to the number of printed lines, which never shrinks |
| C118 | iterations as texts of loads, stores and private assignments; a machine that hands iterations to threads in any order | invariant: what a running iteration has done is what it would have done alone; evaluation of the texts; composition with C89 and C57 |
| C119 | every function as the list of its accesses (array, indices), every array with its allocated extents | each index reduced to row-major lemmas, the linear side conditions from the partitioning and the sizes |
| C120 | heap with addresses and an arbitrary allocator, objects with vectors and spans, the tables of which span is set to which vector | simulation of a machine of plain values; invariants: each block has one owner, spans equal the own vectors |
| C121 | the code as the list of its array accesses, extents from the allocations | every access in range by row-major arithmetic from the sizes (C07) and the even split; completeness by division with remainder |
| C122 | the code as the list of its array accesses, self-advancing loops with as many passes as points (an unfinished loop counts as an access out of range) | every access in range by row-major arithmetic; the loops by induction on the passes; exactly-once by comparing the picked accesses with the list of points |

## What is modelled, area by area

| area (`lean/Verif/...`) | code | simplifications |
|---|---|---|
| `Partition` | `RadialPartitioning`, `TangentialPartitioning`, `vmec_adjust_num_threads`, vacuum split | OpenMP runtime calls dropped |
| `Sizes`, `Fourier` | derived sizes, index tables, basis, mode conversion | exact reals |
| `Tridiag` | serial Thomas solver | exact field |
| `Control` | `SolveEquilibrium`, `SolveEquilibriumLoop`, `Evolve`, `RestartIteration`, `Vmec::run`, free-boundary block of `update` | forward model is an oracle; one thread |
| `Team` | the same loop executed by n threads: a small-step machine. Shared state `Sh` holds the members every thread reads or writes (status, restart reason, iteration counters, residuals); a thread is a program counter plus locals; barriers and `single` are explicit | numerical kernels are single steps |
| `Jacobian` | `computeJacobian` min/max scan over extended doubles, per-thread reduction | values given as arrays |
| `Boundary` | `Boundaries` set-up, flip test and flip, m=1 gauge | exact reals |
| `Coeffs` | `FourierCoeffs` decompose/undecompose, m1 constraint, extrapolation, interpolation from boundary and axis, spectral mask | exact reals |
| `HotRestart` | `CheckInitialState`, `InitFromState`, output of the geometry | symmetric coefficients are the only ones the code reads |
| `Resize` | `SetMpolNtor`, `resize_2d`, `resize_1d` | - |
| `Profiles` | all closed-form, spline and line-segment profiles | Gauss-Legendre sums kept as sums; libm functions are the real functions |
| `Mgrid` | `MGridProvider` load / interpolate | NetCDF contents are parameters |
| `PyInput` | sparse/dense coefficients, `vmecpp_json_to_indata` | text formatting not modelled |
| `Multigrid` | `InterpolateToNextMultigridStep` | exact reals; teams as set up by `InitializeRadial` |
| `Contin` | `_continuation.py` | NumPy `interp` modelled by its documented formula |
| `TimeStep` | `performTimeStep` incl. the exchange of ghost surfaces, all interleavings between the barriers | one assignment is atomic; exact reals |
| `AxisGuess` | `RecomputeMagneticAxisToFixJacobianSign` and the copy back | the eight geometry accumulations are written as eight sums; exact reals |
| `Coils`, `Makegrid` | coils-file import, winding normalisation, response tables, straight filament | number parsing and carrier fields are parameters; exact reals |
| `Kernels` | `jacobian_kernel.h`, `metric_kernel.h`, `bcontra_kernel.h`, `mhdforce_kernel.h`, `lambda_force_kernel.h` and the members of `IdealMhdModel` that call them, the lambda and radial preconditioner entries, force norms, radial force balance, constraint multiplier | exact reals; scalars of one point are fields of one record; the output `iotaF`, `chipF` is not modelled |
| `Transform` | `dft_toroidal.cc:14-336` (symmetric 3D transforms) and the FFT variants `fft_toroidal.cc:30-670`, `ideal_mhd_model.cc:1230-1397, 2625-2712` (symmetric 2D transforms, `Axisym`), with the basis tables of `Fourier` | exact reals; the FFT library is a parameter |
| `Asym` | `dft_toroidal.cc:338-658` (antisymmetric 3D transforms), `ideal_mhd_model.cc:1120-1169` (`geometryFromFourier`), `1512-1602` (`symrzl`), `2538-2559` (`forcesToFourier`), `2721-2785` (`symforce`) | exact reals; the work arrays are families of functions |
| `Constraint` | `ideal_mhd_model.cc:93-254` (`deAliasConstraintForce`), `298-304` (`xmpq`, `faccon`), `1138-1167` (`ruFull`, `zuFull`), `972-981`, `constraint_force_kernel.h` | exact reals; bounds of the work arrays not modelled; `tcon` (modelled in `Kernels`) and `rzConIntoVolume` (`rCon0`, `zCon0`) are inputs |
| `Nestor.Surface` | `surface_geometry.cc:84-474` | exact reals; statements repeated over arrays are one statement with a table; loops that write each element once are functions of the index; array bounds not modelled |
| `Output.Geometry` | `output_quantities.cc:3537-3996 without the Shafranov sums, 4067-4117, 4158-4183` | exact reals; `DBL_MAX`, extents and jxbout columns are parameters; array bounds for `waist` and `height` only; the shape columns `ygeo`...`yshift` are modelled separately |
| `Output.WoutFile` | `output_quantities.cc:27-35, 4119-4156, 4346-4382, 4407-4416, 4447-4531` | exact reals; copies of strings and numbers are left out; the splitting of Eigen's assignment into packets is a parameter |
| `Output.Shafranov` | `output_quantities.cc:3601-3688, 4183-4304` | exact reals; array bounds not modelled |
| `PyModel.Model` | `pybind_vmec.cc:80-155, 190-203, 232-277, 400-437`, `fourier_coefficients.cc:17-59`, exits of `ideal_mhd_model.cc:559-720` | forward model as parameter; sums of vectors of different length are undefined; reals |
| `Coeffs.Residuals` | `fourier_forces.cc:12-18, 90-163`, `fourier_coefficients.cc:237-271`, `ideal_mhd_model.cc:488-557, 576-584, 993-1018, 2094-2096, 2861-2898, 3215-3234` | reals; extrapolation to the axis left out of the virtual work |
| `Profiles.Radial` | `radial_profiles.cc:440-455, 490-527, 1129-1251`, `vmec.cc:692-699`, `vmec_constants.cc:9-12` | reals; profile functions are parameters |
| `PyFiles.Model` | `_util.py:58-74`, `simsopt_compat.py:580-600`, `__init__.py:2484-2556` (names and files), `__main__.py:72-103` | characters; the converter, loader and solver are parameters; paths are plain names in one directory |
| `Profiles.SetProfile` | `__init__.py:2574-2634` | reals; one stage also in doubles (rationals rounded to nearest even, no overflow) |
| `PySimsopt.Model` | `simsopt_compat.py:125-180, 196-578` | solver, SIMSOPT classes and file writer are parameters |
| `Makegrid.File` | `makegrid_lib.cc:778-1045`, `netcdf_io.cc:133-222, 304-351`, `mgrid_provider.cc:117-198`, `makegrid.cc:57-60` | NetCDF library by its documented behaviour; unlimited dimensions and conversions of numbers not modelled |
| `CoilGeom` | `composed_types_lib.cc:45-312`, `magnetic_configuration_lib.cc:293-376`, `magnetic_field_provider_lib.cc:548-669` | exact reals; texts of error messages shortened; surface tables (same code with two mode numbers) not modelled |
| `FreeBound` | `ideal_mhd_model.cc:48-88`, `:783-803`, `:893-955`, `:1610-1637`, `:2507-2524`, `:3236-3249` | exact reals except in the checks; printouts dropped; asymmetric real-space geometry not composed |
| `OnlyCoils` | `only_coils.cc:17-91`, `vmec.cc:213-220` | exact reals; the interpolated field is a parameter; synchronisation by barriers is the order of the steps |
| `FieldTable` | `_free_boundary.py:16-142`, `makegrid_lib.cc:41-280`, `pybind_vmec.cc:43-58`, `:1164-1230` | text of JSON not parsed; pydantic reduced to presence and type of fields; numpy arrays are views of a component or own data; shapes not modelled |
| `OutputIo` | `output_quantities.cc:38-1362`, `hdf5_io.h`, `hdf5_io.cc` | HDF5 library as a table of groups and datasets; conversions between element types not modelled; `std::stod` is a parameter; the former layout is taken from the comments in `LoadInto` |
| `PyWout` | `__init__.py:107-121, 808-2310` (fields and `_from_cpp_…`, `_to_cpp_wout`), `:2345-2482` (`run`), `pybind_vmec.cc:688-1082` | pydantic, jaxtyping and pybind11 by the conversions used; bytes that are not UTF-8 not modelled; numpy views on C++ memory are values; `run` by the checks of the hot restart and the sizes |
| `TridiagOmp` | `common/util/util.cc:105-316` | interleaving semantics with sections as single steps (exclusion is proved); entry barrier is the initial state; the flat index `(j - nsMinF) * mnmax + mn` is a pair; one of the components R and Z, which have the same statements; exact field |
| `Race` | `vmec.cc:793-1793`, `ideal_mhd_model.cc:488-3155`, `nestor.cc`, `only_coils.cc` (shared accesses and barriers) | conditions are free choices; groups of handover arrays that are always used together are one variable; accesses are atomic steps (their overlap is what is excluded); objects of single threads and memory that is only read are left out; `constraintForceMultiplier` does not fail |
| `Csv` | `composed_types_lib.cc:145-608`, `composed_types.h:76-334` | finite doubles as rationals; the text of a decimal number, `stoi` and `stod` are parameters; ties in the 16th digit are rounded up; error messages shortened |
| `Logger` | `iteration_logger.cc:36-315`, `.h` (without number formats, colours, summary table) | extended doubles without rounding; `log10` of positive numbers is a parameter; lines by contents; terminal of unlimited height without other output |
| `ParFor` | `output_quantities.cc:4703-4714,4771-5043,5082-5182`; `makegrid_lib.cc:371-411,718-761` | exact reals; tables nobody writes are parameters; the fields of one point are treated one after the other; the three cylindrical components of a table as one value |
| `Bounds` | `ideal_mhd_model.cc:93-258,785-794,911-949,1120-2545,2625-3250` and the kernels it calls; `dft_toroidal.cc:14-660` | only index expressions, loop bounds and the conditions on sizes and flags; values dropped; FFT path, assignments over whole arrays and exchange through `HandoverStorage` other than the preconditioner gather left out |
| `Views` | `fourier_coefficients.cc:17-95`, `fourier_coefficients.h:20-101`, `fourier_geometry.cc:15-96`, `fourier_forces.cc:13-88`, `fourier_velocity.cc:11-86` | `Eigen::VectorXd` as pointer and length with the documented behaviour of resize, copy and move; number of coefficients as one number; `setZero` and the computing members left out |
| `VacBounds` | `laplace_solver.cc:24-681`, `nestor.cc:131-180` | array accesses without values; Eigen products and maps as the elements they touch; `dgetrf`/`dgetrs` by their interface |
| `VacBounds.Source*` | `surface_geometry.cc:9-460`, `external_magnetic_field.cc:14-330`, `singular_integrals.cc:14-600`, `regularized_integrals.cc:15-309`, `nestor.cc:181-248` | array accesses without values; both branches of the value-dependent recurrence |
| `Coeffs.SpectralWidth` | `fourier_geometry.cc:354-440`, `radial_profiles.cc:1253-1285`, `handover_storage.cc:175-188` | reals; critical section as an arbitrary order; a surface without amplitude is 0 here, NaN in the code |
| `PyJson.Model` | `src/vmecpp/_pydantic_numpy.py:14-74, 129-415` | numpy by its documented behaviour; one NaN; sets, jax arrays, numpy scalars and pydantic's own conversions not modelled |
| `PyOutput.Netcdf` | `src/vmecpp/__init__.py:67-80, 107-114, 876-900, 1026-1035, 1250-1260, 1433-1608, 1678-1741`, `_util.py:434-441` | `netCDF4`, numpy and pydantic by their documented behaviour; doubles are an arbitrary type; undeclared fields, temporary file and rename, two-dimensional arrays that differ from their dimensions not modelled |
| `Output.Shape` | `output_quantities.cc:3955-4083` | exact reals; array bounds not modelled; `break` in the last iteration written as a skip |
| `Output.Threed1` | `output_quantities.cc:3200-3535, 3744-3751, 3948-3953, 4484-4497` | exact reals; one function per column; quotients by zero are excluded in the theorems; columns that are plain copies are left out |
| `Output.Currents` | `output_quantities.cc:5305-5449` | exact reals; one function per array; array bounds not modelled |
| `Output.Nyquist` | `output_quantities.cc:4549-4571, 4701-5182` | exact reals; one function per transformed array instead of one loop for all arrays; array bounds not modelled |
| `Output.Mercier` | `output_quantities.cc:2844-3200` | exact reals; one loop nest per array; array bounds not modelled |
| `Output.Jxb` | `output_quantities.cc:2501-2842` | exact reals; one loop nest per array; array bounds not modelled; `phin` not modelled |
| `Output.Filter` | `output_quantities.cc:2040-2479` | exact reals; one copy of the loops per array; array bounds not modelled |
| `Output.Field` | `output_quantities.cc:1904-2038`, `2481-2499` | exact reals; one loop nest per array; array bounds not modelled |
| `Output.Wout` | `output_quantities.cc:4573-4700`, `5186-5300` | exact reals; the three arrays of one surface are one array of triples; array bounds not modelled |
| `Output.Gather` | `output_quantities.cc:1559-1902` | exact reals; arrays of one kind are families keyed by the name, the copies of one pass are one step; array bounds not modelled |
| `Radial.Model` | `ideal_mhd_model.cc:2284-2421`, `2900-3155` | exact reals; interleaved arrays are families keyed by the entry; threads between barriers run one after another; array bounds and checkpoints not modelled |
| `Nestor.Vacuum` | `external_magnetic_field.cc:162-330`, `nestor.cc:124-248` | exact reals; interleaved components are triples; loops over segments and points exchanged; array bounds and checkpoints not modelled; `AddAxisCurrentFieldAbscab` is dead code (`kUseAbscabForAxisCurrent = false`) and not modelled |
| `Nestor.Laplace` | `laplace_solver.cc:98-577`, `605-656` | exact reals; matrix products of Eigen are sums; `bcos`, `actemp`, `amat` ... are functions of the tuple of indices which the code flattens; `dgetrf`, `dgetrs` are a relation; array bounds not modelled |
| `Nestor.Green` | `regularized_integrals.cc:30-308` | exact reals; the arrays of `SurfaceGeometry` are parameters; the local arrays `gsave`, `dsave`, `ga1`, `ga2`, `htemp` are values; array bounds not modelled |
| `Nestor` | `singular_integrals.cc:82-600` | exact reals; the loop over `l` with step 2 is written with the number of the pass; `Slp`, `Slm` are computed in every pass, the code does so only in a full update; array bounds not modelled |
| `PyDriver` | `_iteration.py:171-518` with the parts of `VmecModel` it calls (`pybind_vmec.cc:161-384`), on the state of `Control` | the forward model, re-guess and time step are the same parameters as in `Control`; damping coefficients are kept as a history of symbolic entries; `solve_multigrid` and logging not modelled |
| `Indata` | `vmec_indata.cc:45-107` (enumerations), `109-187` (constructor), `258-486` (HDF5), `488-1115` (`FromJson`), `1137-1240` (`ToJson`), `1250-1661` (`IsConsistent`), `boundary_from_json.cc` (`FromJson`), `json_io.cc`, `hdf5_io.{h,cc}` | the JSON and HDF5 libraries are parameters or tables; log messages are left out; doubles are rationals with NaN and infinities; Eigen assertions are off as in a release build |

Not modelled: the printed iteration table and other logging, the comparison functions used by the tests only (`CompareWOut` and the like), the executables, the internals of the libraries (NetCDF, HDF5, pybind11, pydantic, Eigen, OpenMP) beyond the behaviour stated in the tables above, and the parts of the SIMSOPT wrapper not named above.

## Findings: places where the code does not have the property

(kept up to date; each has a negation theorem with a concrete witness where modelled)

* F1 `FromJson` does not filter negative `m` in rbc/zbs/rbs/zbc (writes out of bounds).
* F2 `IsConsistent` dereferences empty optionals when `lasym`, and indexes `ftol_array`/`niter_array`
  by the length of `ns_array`; NaN tolerances pass.
* F3 `FromJson` throws on `lasym` without asymmetric axis.
* F5 `ToJson`/`WriteTo` with `lasym` write a scalar instead of the array.
* F6 the `ns=3` retry in `Vmec::run` is dead code.
* F7 after convergence the loop still runs time-step control, and the soft restart of a free-boundary
  run rolls back before the convergence test, so success can be reported for a state that was not the
  evaluated one (`C15_rollback_after_success`).
* F10 the axis guess skips planes (odd nzeta, lasym).
* F11 hot restart ignores the asymmetric coefficients.
* F12/F13 `line_segment` profiles use the wrong segment; the integrated version reads out of bounds.
* F14 `sum_atan` is discontinuous at 1.
* F15 unknown profile names evaluate to zero silently.
* F16 NaN / zero Jacobian values are not always detected.
* F18 per-thread error return in `constraintForceMultiplier` skips barriers.
* F19 a failing mgrid load leaves sizes and field arrays inconsistent.
* F20 JSON -> INDATA looks up the axis under the wrong keys.
* F23 a free-boundary continuation stage re-marks the vacuum state as initialized, but the residuals of
  the previous stage are still below the threshold, so the first evaluation goes straight to active and
  the soft restart is skipped (`C20_soft_restart_skipped`).
* F24 after a huge-initial-forces axis retry the velocities keep the values of the aborted step (the
  geometry is rebuilt, the velocities are not zeroed): visible in the history model.
* F25 a schedule that repeats a resolution (accepted by the input check) runs the second stage with
  `lamscale = 0`, because `constants_.reset()` runs for every stage and the profiles are only
  re-evaluated when the number of surfaces changes (`C51_repeated_resolution`).
* F26 flipping the poloidal angle loses the m=1 gauge (`C52_gauge_lost_by_flip`).
* F27 `evalCubicIntegrated` returns 0 beyond the last knot (`C32_integrated_drops`).
* F28 `torflux` is not normalised (`C30_flux_map_not_normalised`).
* F29 `SetMpolNtor` reads a too short axis array out of bounds (`C25_short_axis_ub`).
* F30 the mgrid check before a run compares with the requested, not the raised nzeta
  (`C35_raised_nzeta_reads_outside`).
* F31 `LoadFields` checks only the rows of `b_p` (`C36_unchecked_component`).
* F32 boundary modes beyond mpol/ntor are dropped with a warning only (`C37_out_of_range_dropped`).
* F33 the Python continuation interpolates in sqrt(s), the solver in s (`C56_differs`).
* F34/F35 `interpolate_solution` compares neither nfp nor lasym of source and target
  (`C38_nfp_and_lasym_not_checked`); arrays that merely have length ns are resampled.
* F36 the axis guess: with stellarator symmetry and an odd plane count above one, plane `nZeta/2 + 1` keeps
  the position (0, 0) (`C44_odd_plane_missing`).
* F37 the axis guess: without stellarator symmetry the planes above `nZeta/2` keep (0, 0)
  (`C44_asym_planes_missing`), and on the others only half of the boundary is evaluated, so that the search
  never succeeds and R becomes half the largest boundary R (`C44_asym_half_missing`).
* F38 the axis guess: on a tie only z is replaced, so the returned point mixes two grid points and can have
  the wrong sign although grid points with the right sign exist (`C44_tie_mixes_points`).
* F39 coils file: the circuit numbers are forgotten between two `begin filament` blocks but index the circuits of
  all blocks, so filaments of a second block land in circuits of the first (`C41_second_block_misfiled`).
* F40 coils file: points not followed by a line with number and name are dropped silently
  (`C41_unfinished_filament_dropped`).
* F41 `NumWindingsToCircuitCurrents` reads `coils(0)` of an empty circuit (`C41_empty_circuit_ub`), divides by the
  windings of the first coil even if they are zero (`C41_zero_windings_divide`), and takes unset windings as zero
  although the field routines take them as one (`C41_unset_windings_lost`).
* F42 with assumed stellarator symmetry the mirrored half of a response table is taken at the mirrored z index, which
  is the mirrored position only if `z_min = -z_max`; the parameter check accepts other ranges
  (`C57_unsymmetric_range`).
* F43 the odd part of the lambda force multiplies the average of the half-grid values with √s of the surface instead of
  averaging √s times the values, so it is not the gradient of the energy (`C62_odd_differs`).
* F44 `pressureAndEnergies` takes the absolute value of the magnetic energy of each thread before they are added; while
  the Jacobian changes sign inside the plasma the reported energy depends on the number of threads (hypothesis of
  `C46_energies`).
* F45 An input with ntor = 0 and nzeta > 1 is accepted. The 2D transforms lay out their arrays with stride nThetaEff, the
  kernels read them with stride nZnT = nZeta * nThetaEff. The kernels then see the geometry of other surfaces
  (`C65_other_surface`, `C65_two_planes_wrong`).
* F46 With mpol = 1 the 2D inverse transform still sums m = 0, 1 on the axis (`num_m`), which reads the m = 0 coefficient of
  the next surface and an element of xmpq past its end. C65 therefore asks for mpol >= 2. Read from the code, not proved.
* F47 The m = 1 coefficients of the axis are extrapolated from the first surface before the inverse transform. The force
  transform gives no force for this dependence, so C64 and C65 exclude displacements of these modes.
* F48 Bad Jacobian in the checkpoint window: the C++ driver rolls the geometry back in the checkpoint branch and does not count a
  reset; the Python driver counts one and shrinks the time step (`C39_late_jacobian`).
* F49 Bad Jacobian while the residual is merely slow: the C++ driver takes the gentle restart, the Python driver the hard one
  (`C39_slow_jacobian`).
* F50 With the `parvmec` style the Python driver ignores the Jacobian verdict and may checkpoint a geometry with a bad Jacobian
  (`C39_parvmec_jacobian`).
* F51 Convergence with 75 or more counted bad Jacobians is a failure in C++ and a success in Python (`C39_converged_at_75`).
* F52 A re-guess of the axis after huge forces keeps the velocity in C++ and zeroes it in Python (`C39_velocity_kept`).
* F53 A preconditioned residual of exactly zero makes the Python driver raise (logarithm of zero) where the C++ driver goes on
  (`C39_zero_residual`).
* F54 The Python driver ignores `need_restart` of free-boundary runs (`C39_free_boundary`).
* F55 `IsConsistent` dereferences empty optionals for `lasym = true` and reads `ftol_array` and `niter_array` up to the length of
  `ns_array` without looking at their lengths (`C23_missing_axis_ub`, `C23_short_tolerances_ub`).
* F56 `IsConsistent` accepts NaN for `spres_ped`, `pres_scale`, `ftol_array`, `delt` and `tcon0` (`C23_nan_accepted`) and does not compare
  the lengths of arrays that belong together (`C23_lengths_not_compared`); `FromJson` does compare them.
* F57 For `lasym = true` `ToJson` writes `raxis_s->value()` and `zaxis_c->value()`. The arrow already reaches into the optional, so
  `value()` is Eigen's, which returns the first coefficient. `FromJson` rejects every text written this way (`C24_asymmetric_fails`).
* F58 `WriteTo` has the same mistake for `raxis_s`, `zaxis_c`, `rbs` and `zbc`. Reading the scalar datasets as arrays leaves the
  size uninitialised (`C67_asymmetric_ub`). With Eigen assertions on, both writers abort instead.
* F59 Non-finite doubles are written to JSON as `null` and rejected on reading. Read from the code and the library, not proved.
* F60 `FromJson` checks `m > mpol - 1` but not `m < 0`: a negative poloidal mode is written out of bounds (`C66_negative_mode_ub`). The
  absolute value of the smallest `int` is undefined (`C66_smallest_mode_ub`).
* F61 `FromJson` sizes the boundary arrays with `mpol` and `ntor` before they are validated (`C66_negative_resolution_ub`).
* F62 `FromJson` throws `bad_optional_access` for `lasym = true` without `raxis_s` or `zaxis_c` (`C66_missing_axis_throws`).
* F63 JSON integers are converted modulo 2^32 without an error (`C66_integers_wrap`).
* F64 `LoadInto` leaves the asymmetric arrays of the receiving object in place when a symmetric input is loaded; the result fails
  the validation (`C67_stale_arrays`). Similarly `mpol_geometry` and `ntor_geometry` keep the value of the object if the file has none.
* F65 A document that sets `mpol` or `ntor` but not `rbc` or `zbs` is rejected, because the default arrays are not resized. Read from the
  code, not proved.
* F66 The comment at `singular_integrals.cc:241-242` claims that starting 50 steps above damps the error by (A/B)^50. Both characteristic
  roots have modulus √(B/A) (`C72_roots`), so the damping is (A/B)^25; the rescaling to `T_0` would be exact only for a homogeneous recurrence.
* F67 `performUpdate` (`singular_integrals.cc:434-587`) multiplies `sin(m u - n v)` by `Tlp`, `Slp` and `sin(m u + n v)` by `Tlm`, `Slm` for
  m, n > 0. The integral of `cos(m u - n v)` times the kernel that `regularized_integrals.cc:149-163` subtracts is 2π Σ_l cmns[l] **Tlm**[l]
  (`first_minus`, `angle_first`), and for `m u + n v` it is with Tlp. So for m, n ≠ 0 and guv ≠ 0 what is added back is not what was
  subtracted, but the same with the sign of guv reversed (`C74_bvec_partial`); for every regular point with guv > 0 the values differ at
  m = n = 1 (`C74_counterexample`). The other direction of comparison, whether the reference Fortran does the same, is outside the model.
* F68 (C78): `PerformPoloidalFourierTransforms` (`laplace_solver.cc:426-450`) projects the kernel of the sine rows (`actemp`, `astemp`) on `l < nThetaReduced` only. For `lasym` the points `l >= nThetaReduced` exist and are folded for the cosine rows (lines 452-478) but not for the sine rows, so the kernel at the points of the other half of the surface does not enter those equations. Exact for kernels which are odd in the evaluation point.
* F69 (C81): `assembleRZPreconditioner` (`ideal_mhd_model.cc:3009-3016`): with active vacuum the diagonal element of the boundary for `Z`, `m = n = 0` gets the factor `1 - multFact < 1`. The matrix stays regular (`C81_definite`) but is not definite: its quadratic form changes sign between a rigid shift and a motion of the axis alone (`C81_updown`), so for this mode the preconditioned force need not point along the force.
* F70 (C83): `RecomputeToroidalFlux` (`output_quantities.cc:1887-1902`) integrates the full-grid flux derivative with the left Riemann sum. Unless the flux profile is linear in `s` the flux written to `wout.phi` does not end at `phiedge`; for `aphi = [0, 1]` it ends at `phiedge (1 - 1/(ns-1))` (`C83_flux_fails`). The half-grid derivative `phipH`, used for the same purpose in the first table of threed1 (3305-3315), has no such error of first order.
* F71 (C85): with `ns = 3`, the smallest number of surfaces accepted, `ExtrapolateBSubS` (`output_quantities.cc:2481-2499`) uses the boundary value before it is set and then the extrapolated axis value for the boundary: a constant `B_s = 1` becomes 2 on the axis and 0 on the boundary (`C85_full_fails`).
* F72 (C86): with `lasym`, `DecomposeCovariantBBySymmetry` reads `bsubs_full`, an array on the full poloidal grid, with the index `k * nThetaReduced + l` of the reduced grid (`output_quantities.cc:2064-2085`); for `k >= 1` this is another grid point (`C86_lasym_s_fails`).
* F73 (C86): with `lasym`, `LowPassFilterCovariantB` fills `bsubvu` and `bsubuv` with the layout of the reduced grid and never extends them (`output_quantities.cc:2356-2381`); `ComputeJxBOutputFileContents` reads them with the layout of the full grid. The last entries are zero for every field (`C86_lasym_derivative_fails`).
* F74 (C87): `jsups3` (`output_quantities.cc:2795`) is `(bsubuv - bsubvu) / (mu0 V')`, that is `(d_v B_u - d_u B_v)`; the contravariant radial component of the curl is `d_u B_v - d_v B_u`. The two other components have the right sign, so that the three written components are not divergence free (`C87_radial_current_fails`).
* F75 (C87): in `kp2` (`output_quantities.cc:2632-2650`) the mixed term enters with `+2`; the contravariant `v` component of `B x grad p / B^2` is negative (`-B_u p'`), so the mixed term should be subtracted. `jperp2` is wrong wherever `B_u B_v g_uv` is not zero (`C87_perpendicular_fails`: 5/2 instead of 1/2).
* F76 (C87): with `ns = 3` the extrapolation of `jdotb`, `bdotb`, `bdotgradv`, `pprim` (and `izeta`) uses the boundary value before it is set: twice the interior value on the axis, zero on the boundary (`C87_ends_fails`).
* F77 (C88): the `toroidal_flux` column of the Mercier table adds `deltaS * phip_realF[j]` from the first interior surface on, that is the rectangle rule with the right end point; for `Phi = s^2` it is too large by `s deltaS` (`C88_flux_fails`). It is exact only for a constant flux derivative. The Fortran program has the same sum.
* F78 (C89): the last toroidal mode `n = nnyq` of the analysis is halved whatever `nZeta` is, although only for even `nZeta` this mode is its own alias; for odd `nZeta >= 3` the field `cos(nnyq zeta)` is written with the coefficient 1/2 instead of 1 (`C89_odd_fails`). The Fortran program has the same lines.
* F79 (C90): with three surfaces the current at the axis is extrapolated with the boundary value, which is not set yet, and the boundary value with the axis value: a current that does not depend on the radius is stored with twice its value at the axis and zero at the boundary (`C90_ends_fails`). The program accepts `ns = 3`.
* F80 (C91): `cur0`, commented as `dV/ds` of the actual volume, contains `sign_of_jacobian` once, and so does `phipf_loc`, by which it is divided; for the sign -1 that the code always uses the column `d(VOL)/d(PHI)` is minus the derivative of the volume by the stored toroidal flux (`C91_volume_fails`), while `d(PRES)/d(PHI)` has the right sign.
* F81 (C91): `wout.chi` is summed without `sign_of_jacobian`, `wout.chipf`, `wout.phipf` and `wout.phi` with it: for the sign -1 the derivative of the stored poloidal flux is minus the stored `chipf`, and `chi` divided by `phi` is `-iota` (`C91_chi_fails`); the `psi` of the second table is the same flux with the sign (`C91_psi`).
* F82 (C91): the extrapolation of the full-grid columns to axis and boundary is wrong with three surfaces: a constant `V'` is doubled at the axis and zero at the boundary, so that `<J^u>` and `<J^v>` of the boundary are divided by zero (`C91_ends_fails`).
* F83 (C92): `volume_p` sums `R^2 dZ/dtheta`, a polynomial of degree `3 (mpol-1)` and `3 ntor`, over the angular grid; the grid is only required to have `2 mpol + 6` and `2 ntor + 4` points.  For `mpol >= 9` or `ntor >= 4` on the default grid the sum is aliased and the volume, with it the major radius, aspect ratio and all volume averages, is not that of the boundary (`C92_volume_fails`: `mpol = 9`, 24 points, relative error of 5e-5 for a ripple of 1/16); `w7x.json` of the tests has 30 poloidal points for degree 33 and 36 toroidal points for degree 36.  The cross section has no such error (`C92_area`).
* F84 (C92): `zmax_surf` and `height` start at 0 and take the maximum of `Z`, without modulus, over the computed part of the surface: a surface below the midplane has extent and height 0 (`C92_zmax_fails`), and with the other direction of the poloidal angle so has a symmetric one (`C92_zmax_fails_symmetric`).
* F85 (C92): `index_inboard` uses `nThetaReduced` as stride where the arrays have the stride `nThetaEff`; with `lasym` the waist subtracts the radius of a point of another surface (`C92_waist_fails`).
* F86 (C92): `waist` and `height` have one entry for `ntor = 0`, but the loop writes one per symmetry plane on the grid, two for `nzeta >= 2`: an axisymmetric run with `nzeta >= 2` writes behind the end of both arrays (`C92_planes_fail`).  For an odd number of toroidal points the second plane is not a symmetry plane.
* F87 (C94): `wout.wdot.tail(n-1) = (wout.wdot.tail(n-1) - wout.wdot.head(n-1)).cwiseQuotient(wout.wdot.tail(n-1))` reads and writes overlapping parts of the same vector; Eigen evaluates coefficient-wise expressions without a temporary.  In scalar code every element after the second, in packet code the first element of every later packet, is `1 - wdot[i-1] / W[i]` instead of `1 - W[i-1] / W[i]` (`C94_wdot`, `C94_wdot_wrong`, `C94_wdot_counterexample`).
* F88 (C94): `ier_flag` is 0 for `SUCCESSFUL_TERMINATION` and for `NORMAL_TERMINATION`, which is documented as "convergence was not reached"; the flag in the file does not tell whether the run converged (`C94_status_not_injective`).
* F89 (C95): `scaling_ratio` uses `currv`, which is `MU_0 * curtor` of the input file (`radial_profiles.cc:1137`), not the current `cTor` of the equilibrium.  When the rotational transform is prescribed (`ncurr = 0`), `curtor` has no influence on the equilibrium; with the usual value 0 the ratio is 0 whatever current the plasma carries (`C95_scaling_partial`, `C95_scaling_fails`).
* F90 (C96): the extent of a cross section is taken over the half grid and its reflection, also without the symmetry (`lasym`): a circle around `Z = 10` gets a height of 20 or more and the printed elongation is too large by the same factor (`C96_extent_fails`).  With an odd number of toroidal points `nZeta / 2` is no plane of symmetry, and since the scan starts with `maximum_z = std::abs(yz1u)` of the first point, a cross section below the midplane gets a positive `maximum_z` (`C96_plane_fails`).
* F91 (C97): arrays that share a dimension name must have the same length, but nothing ensures it.  `PadVector` (`output_quantities.cc:4363`) pads `am`, `ac`, `ai` to 21 and never truncates, so with 30 coefficients in `am` the file gives `ac` 30 elements of which the last 9 are fill values `9.97e36`; in the other order saving raises (`C97_padding_fails`).
* F92 (C97): histories and `currumnc`, `currvmnc` have empty arrays as default.  For a file without `force_residual_r` but with `fsqt` the loaded, saved and loaded again object has a history of fill values (`C97_empty_fails`); with two empty dimensions saving raises (`C97_two_empty_fails`), and for the currents it always raises, as the default has one dimension and the type has two (`C97_default_fails`).
* F93 (C97): saving raises `UnicodeEncodeError` if the path of the mgrid file is not ASCII (`C97_ascii_fails`), after the run is finished; white space at the ends of strings is lost (`C97_strip_fails`).
* F94 (C98): the JSON form of an array has neither number type nor shape.  An empty integer array is read as doubles (`C98_empty_int_fails`), which a field `jt.Int` rejects; `(0, k)` becomes `(0,)` (`C98_empty_rows_fails`); arrays without dimensions become numbers or the string "NaN" (`C98_scalar_fails`).  Whole numbers without a decimal point, as in a JSON input with `"am": [1, 0]`, are read as integers, which a field `jt.Float` rejects (`C98_whole_fails`).
* F95 (C98): in a union, a list option always makes a new object, so an array option behind it is never tried (`C98_union_fails`); an array option before a list raises for lists that are not regular instead of leaving them alone (`C98_ragged_fails`).
* F96 (C100): `HessianVectorProduct` does not look at what `Evaluate` reports.  If the Jacobian changes sign at a perturbed state, `update` returns before writing the forces and the quotient is taken with stale forces (`C100_stale_fails`); an error leaves the model at the perturbed state (`C100_restore_fails`), against the comment "The current state is restored"; a direction of the wrong length is added before its length is checked (`C100_direction_fails`).  In a free-boundary run with active vacuum, `rCon0`, `zCon0` are multiplied by 0.9 in each evaluation, so the two forces differ by a term that is not small and is divided by the step of 1e-7 (`C100_memory_fails`).
* F97 (C101): the `m = 1` pairs of the geometry are combined with factor 1 and those of the force with `1/√2`, so the unpreconditioned force is not the gradient with respect to the state that the comment of `Evaluate` (`pybind_vmec.cc:218-223`) promises to optimizers: its `m = 1` pair components are too small by `√2` (`C101_virtual_work_partial`, `C101_gradient_fails`), and with the gauge fixed one of the two is zero.  The open question in the source ("why 1/sqrt(2) and not 1/2 ?", `ideal_mhd_model.cc:998`) has an answer: `1/√2` makes the combination a rotation, which leaves the residual unchanged (`C101_isometry`).
* F98 (C102): the current profile is scaled to the net current only if its edge value exceeds `DBL_EPSILON * curtor`, an amount in amperes compared with a profile whose scale is free: for `curtor = 1e7` and `ac = [1e-9]` the plasma current is silently zero, with `ac = [1e-6]` it is the given one (`C102_current_dropped`); the TODO at `radial_profiles.cc:1142` only asks for another unit.
* F99 (C102): with a reversed poloidal angle `iotaH` and `chipH` change sign, `iotaF` and `chipF` do not (`C102_flip_fails`).
* F100 (C102): `chipF` on the axis is never written after the initialisation (`C102_axis_stale`), so `wout.chipf[0]` is the derivative of the initial iota profile: zero for runs with a prescribed current and no iota coefficients, and of the wrong sign after a reversal of the angle, while `iotaf[0]` and `phipf[0]` are extrapolated from the solution.
* F101 (C103): `_make_wout_filename("input.json")` is `wout_.nc`; its comment promises `wout_input.nc` (`C103_input_json_fails`).
* F102 (C103): for `input.N.json` the command line writes `wout_input.N.nc`, the SIMSOPT wrapper `wout_N.nc` (`C103_same_output`).
* F103 (C103): `&indata`, `&INDATA ! comment` and `&INDATA NFP=5` are legal starts of the namelist and are not recognised; the file is then parsed as JSON (`C103_indata_fails`). The code comment says one of the first few lines is looked at; only the first significant one is.
* F104 (C103): a JSON input with another name is solved before its name is refused, so the result is lost; INDATA files are refused before (`C103_result_lost`).
* F105 (C103): `vmecpp convert a.json` writes `a.json.json`, and `input.` is removed from the middle of names too (`C103_convert_fails`).
* F106 (C103): an existing file `NAME.PID.json` beside the input is overwritten and deleted (`C103_context_fails`).
* F107 (C104, follows from the evaluator of C31): the line-segment evaluator is discontinuous at every knot: just right of a knot it continues the line through the next two. `set_profile` promises values without precision loss, and its knots are computed as `linspace - 0.5*h` in doubles, the positions as `(j+0.5)/(ns-1)`; whenever the position is one unit in the last place above the knot, the value is off by about `2 h^2 f'' / 2`. Proved for seven surfaces with doubles modelled exactly (`C104_rounding_fails`, error above 0.01 for `s^2`). Evaluating the same formulas outside Lean gives 31 of 49 wrong half-grid values for `ns = 50`. A flux polynomial other than `aphi = [1]`, `bloat` or a pedestal off the grid lead to the same wrong line (`C104_flux_fails`: the profile `s^2` is negative).
* F108 (C104): the half grid of `set_profile` starts at `-1/(2(ns-1))`, so the callable is evaluated below the axis (`C104_outside`): `sqrt` gives NaN or an exception.
* F109 (C104): a current profile set this way is only a shape; with the default `curtor = 0` there is no current (`C104_current_zero`). `ncurr`, `bloat`, `pres_scale` and `spres_ped` are not touched either.
* F110 (C105): `vmec.indata` is public, and the comment in `__init__` says its resolution may be changed by the user; a change does not ring the bell, so the next accessor returns the old number (`C105_edit_stale`).
* F111 (C106): `WriteMakegridNetCDFFile` takes the parameters as an argument of their own and never compares them with the tables: more grid points than columns are read beyond the array (`C106_small_table_ub`), fewer are accepted and move the entries to other grid points (`C106_other_grid_accepted`).
* F112 (C106): `main` of makegrid writes the circuit currents of the configuration as imported. The import stores every current of the coils file as a number of windings and sets the circuit current to 1, so `raw_coil_cur` is 1 for every circuit of every file (`C106_currents_one`); with normalised tables, current times table lacks the factor (`C106_currents_lack_windings`, `C106_half_field`).
* F113 (C106): `NetcdfReadString` gives the untyped `nc_get_vara` a buffer of one byte for each element, whatever the type of the variable (`C106_mode_number_ub`); `NetcdfReadArray3D` takes the bytes of single-precision tables for doubles (`C106_float_tables`).
* F114 (C107): `OrthonormalFrameAroundAxis` never normalises its second vector, although the header promises unit vectors: around (1,1,1) the second and third vector have length √(2/3) (`C107_frame_not_unit`); the frame is orthonormal only if a component of the axis vanishes (`C107_orthonormal_iff`), which is the only case tested.
* F115 (C107): `MoveRadially` of a configuration terminates the process for a loop off the axis instead of returning the error (`C107_circle_aborts`), leaves the earlier carriers moved when a later one is refused (`C107_half_moved`), accepts steps past the axis, giving negative radii (`C107_negative_radius`, `C107_past_axis`), and moves vertices on the axis along x (`C107_on_axis`).
* F116 (C108): the table reader skips empty fields, so later columns shift (`C108_shift`), takes a header without data as a curve that the writer refuses (`C108_header_only`), refuses Windows line ends in the header only (`C108_carriage_return`); the writer prints 16 digits, which do not determine a double (`C108_digits_lost`).
* F117 (C108): `LinkingCurrent` returns NaN without an error when the number of field periods is not set (`C108_no_periods`), ignores negative mode numbers in the number of points (`C108_negative_modes`) and does not multiply the mode numbers by the number of field periods, although the axis tables (for example of W7-X) count modes per field period: the curve integrated along is another one (`C108_not_periodic`). The test passes because the linking number does not change.
* F118 (C109): the two checks after NESTOR are comparisons that are false for NaN, so a vacuum solution that is not a number passes both and its pressure enters the forces (`C109_check_fails`); with a vanishing R B_phi of the plasma the current check divides by zero and passes for equal currents (NaN). With two radial surfaces, which the input check excludes, the edge loop reads before the array (`C109_two_surfaces_fails`).
* F119 (C110): `OnlyCoils::update` ignores the net toroidal current "since checked for that during initialization", but the check compares `curtor` with zero also if `ncurr = 0`, where the current follows from the prescribed rotational transform and `curtor` has no meaning (`C110_current_fails`). Such a run starts and its vacuum field lacks the field of the plasma current.
* F120 (C111): `_to_cpp_magnetic_field_response_table` looks only at the `base` of the arrays, so a changed `parameters` and exchanged arrays are ignored (`C111_ignored_fails`, `C111_stale_fails`). `MakegridParameters.from_file` aborts the Python process if the file cannot be read (`C111_file_fails`). Integers beyond 32 bits wrap around in the JSON reader (`C111_wrap_fails`). `IsValidMakegridParameters` accepts NaN as an extent (`C111_nan_fails`).
* F121 (C112): `ReadAndTranspose2D` and `ReadAndTransposePadHalfGrid2D` (`output_quantities.cc:1071-1099`) tell the former layout from the present one by the sizes only. If the number of surfaces equals the number of modes, a file that was just saved is loaded with transposed Fourier arrays (`C112_square_fails`, `C112_square_witness`); a hot restart from it starts from another geometry. A fixed-boundary run loses its `extcur` (`C112_currents_fails`). `bdotb`, the force residual histories and other members, eleven in total, are not saved and are not initialised after loading (`C112_unsaved_fails`). `WriteH5Dataset` of a list of strings hands `std::string` objects to the library, which expects pointers (`C112_labels_fails`).
* F122 (C113): `run` puts the caller's `VmecInput` object itself into the `VmecOutput` (`__init__.py:2390, 2470`; pydantic does not copy instances). If the caller changes it afterwards and restarts from the output, `CheckInitialState` compares the changed input with itself: with another number of surfaces it accepts, and `InitFromState` reads outside of the coefficients of the old result (`C113_snapshot_fails`); with a copy the restart would be refused. `bsubsmns_full` and `bsubsmnc_full` are computed and bound but are no fields of `VmecWOut` (`C113_hidden_fails`). Attributes admitted by `extra="allow"` do not survive (`C113_extra_fails`). With `lasym` a missing axis array raises a TypeError while other missing arrays become empty matrices (`C113_none_fails`). `MGridProvider` takes any `mgrid_mode`, `VmecWOut` only three: the result of a finished run is lost (`C113_mode_fails`).
* F123 (C114): `TridiagonalSolveOpenMP` (`util.cc:105-316`, only used by its test) leaves the forward handover only in rows after `jMin`: if the first thread ends with row `jMin` (two surfaces per thread, the minimum that `vmec_adjust_num_threads` admits, and a mode with `jMin = 1`), the second thread uses what the handover storage contained before the call (`C114_first_fails`). The backward loop starts at `jMax - 2`: a thread whose first row is `jMax - 1` and that has a further row (two surfaces per thread, fixed boundary) leaves no backward handover, and the thread before it uses its own forward one (`C114_last_fails`).
* F124 (C116): `CurveRZFourierToCsv` and `SurfaceRZFourierToCsv` write 16 significant digits (`composed_types_lib.cc:311-314,528-531`); a double needs 17. The curves with R = 1 and R = 1 + 2^-52 give the same text (`C116_digits_lost`); the error is at most 7e-16 of the coefficient (`C116_accuracy`).
* F125 (C116): `CurveRZFourierFromCsv` and `SurfaceRZFourierFromCsv` return `StatusOr`, but `std::stoi`/`std::stod` throw on cells that are no numbers (`composed_types_lib.cc:263-275,483-497`) (`C116_throws`). White space at the ends of the data lines is stripped, that of the header is not, so files with carriage returns are rejected (`C116_line_ends`).
* F126 (C117): in the retry with three surfaces `Vmec::run` calls `BeginStage` with the index -1 (`vmec.cc:298,346`); `BeginStage` (`iteration_logger.cc:50-61`) then writes to `stages_[-1]` in every mode but the silent one (`C117_memory_fails`). The retry is never reached at present (F6).
* F127 (C117): a stage that is skipped because it has fewer surfaces than the one before is displayed as `NS=0`, waiting, until the end of the run (`C117_skipped`). An infinite first residual is displayed as 100 % (`C117_infinite`), since `std::min(1.0, NaN)` is 1.
* F128 (C120): the move operations of the Fourier containers leave the spans of the object moved from on the
  storage of the object moved to; writing through them changes that object, and after its destruction they dangle.
  The program does not move these objects.
* F129 (C120): assignment between Fourier containers of different sizes changes the arrays and the spans but not
  `nsMin_`, `nsMax_`, `ns`, over which all loops run; the loops then leave the arrays.  Nothing checks the sizes.  The
  program assigns only between objects constructed with the same arguments.
