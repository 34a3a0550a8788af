import Verif.Race.Machine

/-!
# The parallel regions of the solver as texts of accesses to shared memory

Every function of the parallel region is written down as the sequence of its accesses to memory that
is shared between threads, and of its barriers.  Left out are objects every thread has for itself
(`decomposed_x_[thread_id]`, `m_[thread_id]`, `p_[thread_id]`, ...), memory that is only read inside
the region (`s_`, `t_`, `indata_`, `constants_`, `fc_.ns`, ...), and output to the screen.
Conditions become choices; the variables they read are accesses.
-/
namespace Verif.Race

/-- The shared variables of the region `vmec.cc:793-844`.
    Members of `Vmec`, `FlowControl` and `HandoverStorage`; `rAndZ..` groups are given one name where
    the code always treats them together. -/
inductive Var where
  -- Vmec
  | liter_flag | status | iter1 | iter2 | invTau | vacuum_pressure_state | boundaries
  | last_preconditioner_update | last_full_update_nestor | num_eqsolve_retries | interrupted
  | any_checkpoint_reached | status_of_all_threads
  -- FlowControl
  | restart_reason | ijacob | delt0r | fsq | res0 | res1 | fsqr | fsqz | fsql
  | fsqr1 | fsqz1 | fsql1 | fResInvar | fResPrecd | force_residuals
  -- HandoverStorage
  | fNormRZ | fNormL | fNorm1 | thermalEnergy | magneticEnergy | mhdEnergy | voli | plasmaVolume
  | rBtor0 | rBtor | cTor | con_LCFS | radial_extent | geometric_offset | spectral_width
  | geometry_LCFS | axis | bSubUVac | bSubVVac | vacuum_reached_checkpoint | vacuum_field
  | all_matrix | all_rhs | halo_o | halo_i
  deriving DecidableEq, Repr

open Var

/-- `Vmec::RestartIteration`, `vmec.cc:1239-1305`.  `delt` is empty where the time step handed over
    is a variable of the thread (`vmec.cc:1482`). -/
def restartIteration (delt : List Var) : Prog Var := sq [
  bar, rd [restart_reason],
  .alt (sq [bar, single (delt ++ [ijacob, iter2]) (delt ++ [ijacob, iter1, restart_reason])])
    (opt (sq [bar, single delt (delt ++ [restart_reason])])),
  bar]

/-- `IdealMhdModel::geometryFromFourier`, `ideal_mhd_model.cc:1120-1169`; the barriers are those of the
    two-dimensional transforms (`:1247,1417`). -/
def geometryFromFourier : Prog Var := sq [
  opt bar, opt bar, accs .lcfs true [radial_extent], accs .axis true [geometric_offset]]

/-- `rzConIntoVolume`, `ideal_mhd_model.cc:1610-1637`. -/
def rzConIntoVolume : Prog Var := sq [accs .lcfs true [con_LCFS], bar, rd [con_LCFS]]

/-- `computeJacobian`, `ideal_mhd_model.cc:1639-1678`. -/
def computeJacobian : Prog Var := sq [opt (critical [restart_reason]), bar]

/-- `computeInitialVolume`, `ideal_mhd_model.cc:1714-1743`. -/
def computeInitialVolume : Prog Var := sq [single [] [voli], bar, critical [voli], bar]

/-- `updateVolume`, `ideal_mhd_model.cc:1745-1773`. -/
def updateVolume : Prog Var := sq [single [] [plasmaVolume], bar, critical [plasmaVolume], bar]

/-- `pressureAndEnergies`, `ideal_mhd_model.cc:1904-1992`. -/
def pressureAndEnergies : Prog Var := sq [
  single [] [thermalEnergy, magneticEnergy], bar,
  critical [thermalEnergy, magneticEnergy], bar,
  single [magneticEnergy, thermalEnergy] [mhdEnergy], bar]

/-- `computeForceNorms`, `ideal_mhd_model.cc:2063-2135`. -/
def computeForceNorms : Prog Var := sq [
  rd [magneticEnergy, thermalEnergy, plasmaVolume],
  single [] [fNormRZ, fNormL, fNorm1], bar,
  critical [fNormRZ, fNormL, fNorm1], bar,
  single [fNormRZ, fNormL, fNorm1] [fNormRZ, fNormL, fNorm1], bar]

/-- `evalFResInvar`, `ideal_mhd_model.cc:488-525`. -/
def evalFResInvar : Prog Var := sq [
  single [] [fResInvar], critical [fResInvar], bar,
  single [fResInvar, fNormRZ, fNormL] [fsqr, fsqz, fsql]]

/-- `evalFResPrecd`, `ideal_mhd_model.cc:527-557`. -/
def evalFResPrecd : Prog Var := sq [
  single [] [fResPrecd], critical [fResPrecd], bar,
  single [fResPrecd, fNorm1] [fsqr1, fsqz1, fsql1]]

/-- Update of the radial preconditioner within `update`, `ideal_mhd_model.cc:693-725`
    (`updateRadialPreconditioner` and `constraintForceMultiplier` touch no shared memory). -/
def preconditioner : Prog Var := sq [
  singleNowait [] [last_preconditioner_update], updateVolume, computeForceNorms]

/-- The vacuum solve as seen by the radial team, `ideal_mhd_model.cc:796-966`: one radial thread runs
    the nested team (see `nestorUpdate`) and the others wait. -/
def vacuumSolve : Prog Var := sq [
  accs .lcfs true [geometry_LCFS], accs .axis true [Var.axis], bar,
  rd [cTor],
  single [geometry_LCFS, Var.axis] [bSubUVac, bSubVVac, vacuum_field, vacuum_reached_checkpoint],
  rd [vacuum_reached_checkpoint],
  single [vacuum_pressure_state, bSubUVac, bSubVVac, cTor, rBtor] [vacuum_pressure_state],
  rd [rBtor, bSubVVac, cTor, bSubUVac, vacuum_pressure_state],
  opt (single [] [restart_reason]),
  accs .lcfs false [vacuum_field, vacuum_pressure_state]]

/-- Free-boundary part of `update`, `ideal_mhd_model.cc:738-967`. -/
def freeBoundary : Prog Var := sq [
  opt (rd [vacuum_pressure_state]),
  opt (sq [
    bar, rd [vacuum_pressure_state, fsqr, fsqz],
    opt (sq [bar, single [vacuum_pressure_state] [vacuum_pressure_state]]),
    opt (sq [rd [fsqr, fsqz], singleNowait [] [last_full_update_nestor]]),
    bar, rd [vacuum_pressure_state],
    opt vacuumSolve])]

/-- `applyRZPreconditioner`, `ideal_mhd_model.cc:3045-3155`. -/
def applyRZPreconditioner : Prog Var := sq [
  opt (rd [vacuum_pressure_state]),
  accs (.part .bySurface) true [all_matrix, all_rhs], bar,
  accs (.part .byMode) true [all_matrix, all_rhs], bar,
  accs (.part .bySurface) false [all_rhs]]

/-- Forces and residuals, `ideal_mhd_model.cc:972-1112`: the barriers are those of
    `assembleTotalForces` (`:2509`), of the two-dimensional transform (`:2634`), of
    `applyM1Preconditioner` (`:2896`) and of `assembleRZPreconditioner` (`:3040`). -/
def forces : Prog Var := sq [
  bar, opt (rd [vacuum_pressure_state]), opt bar, opt (rd [vacuum_pressure_state]),
  rd [fsqz], rd [fsqr, fsqz], opt (rd [vacuum_pressure_state]),
  evalFResInvar,
  bar, opt (rd [vacuum_pressure_state]), bar,
  applyRZPreconditioner,
  evalFResPrecd,
  single [fsqr, fsqz, fsql] [restart_reason]]

/-- `IdealMhdModel::update`, `ideal_mhd_model.cc:559-1117`.  `return true` at a checkpoint and the
    error returns end the word early; see `C115_no_race_partial`, which takes any beginning of a word. -/
def update : Prog Var := sq [
  geometryFromFourier,
  opt (sq [rd [vacuum_pressure_state], opt rzConIntoVolume]),
  computeJacobian,
  rd [restart_reason],
  opt (sq [
    opt computeInitialVolume,
    pressureAndEnergies,
    accs .axis true [rBtor0], accs .lcfs true [rBtor, cTor],
    bar, bar,
    opt preconditioner,
    freeBoundary,
    forces])]

/-- `Vmec::UpdateForwardModel`, `vmec.cc:1462-1499`. -/
def updateForwardModel : Prog Var := sq [
  rd [iter1, iter2], update,
  opt (sq [restartIteration [], singleNowait [] [restart_reason]]),
  bar]

/-- `Vmec::PerformTimeStep`/`performTimeStep`, `vmec.cc:1501-1793`. -/
def performTimeStep : Prog Var := sq [
  bar,
  accs (.part .toPrev) true [halo_o], accs (.part .toNext) true [halo_i],
  bar,
  accs (.part .mine) false [halo_o], accs (.part .mine) false [halo_i],
  bar, bar]

/-- `Vmec::Evolve`, `vmec.cc:1307-1427`, with the evaluation of its argument `fc_.delt0r`
    (`vmec.cc:933`). -/
def evolve : Prog Var := sq [
  rd [delt0r],
  single [] [restart_reason],
  updateForwardModel,
  single [fsqr, fsqz, fsql, iter2, restart_reason] [status, liter_flag],
  rd [status, liter_flag],
  opt (sq [
    single [fsqr1, fsqz1, fsql1, iter1, iter2, invTau, fsq] [invTau, fsq],
    accs .lcfs false [fsqr, fsqz, fsql, vacuum_pressure_state, restart_reason, mhdEnergy],
    accs .lcfs true [force_residuals],
    rd [invTau],
    performTimeStep])]

/-- `Vmec::Printout`, `vmec.cc:1429-1460`, with
    `RadialProfiles::AccumulateVolumeAveragedSpectralWidth`, `radial_profiles.cc:1253-1285`. -/
def printout : Prog Var := sq [
  rd [delt0r],
  single [] [spectral_width],
  critical [spectral_width], bar,
  bar,
  accs .lcfs false [geometric_offset, mhdEnergy, thermalEnergy, magneticEnergy, spectral_width,
    vacuum_pressure_state, fsqr, fsqz, fsql, fsqr1, fsqz1, fsql1]]

/-- Head of one round of the loop `vmec.cc:928-946`: condition, `Evolve`, and the reads of the first
    branch. -/
def roundHead : Prog Var := sq [
  rd [liter_flag], evolve, rd [ijacob, status, restart_reason]]

/-- Time step control, `vmec.cc:1062-1143`. -/
def timeStepControl : Prog Var := sq [
  opt (single [] [status, liter_flag]),
  single [iter1, res0, fsq, fsqr, fsqz, fsql, res1] [res0, res1],
  rd [fsqr, fsqz, fsql, fsq, res0, res1, iter1],
  .alt (restartIteration [delt0r]) (opt (single [] [restart_reason]))]

/-- A round that is followed by the next one, `vmec.cc:928-1233`. -/
def round : Prog Var := sq [
  roundHead, bar, rd [ijacob],
  timeStepControl,
  rd [restart_reason], bar,
  .alt (sq [restartIteration [delt0r], singleNowait [] [iter1]])
    (sq [rd [liter_flag],
      opt (sq [printout, accs .master true [liter_flag], accs .atomic true [interrupted]])]),
  bar,
  single [vacuum_pressure_state, iter2] [vacuum_pressure_state],
  accs .atomic true [iter2]]

/-- A round that leaves the loop to try again with a better axis, `vmec.cc:943-984`. -/
def roundNewAxis : Prog Var := sq [
  roundHead, bar, single [status] [boundaries, ijacob, restart_reason]]

/-- A round that leaves the loop to try again with another time step, `vmec.cc:1025-1061`. -/
def roundNewDelt : Prog Var := sq [
  roundHead, bar, rd [ijacob], single [] [restart_reason],
  restartIteration [delt0r],
  single [ijacob] [delt0r, restart_reason]]

/-- Beginning of `SolveEquilibriumLoop`, `vmec.cc:881-928`, after the barrier of its caller. -/
def loopHead : Prog Var := sq [
  bar,
  rd [restart_reason],
  opt (sq [opt (rd [boundaries]), bar, single [] [restart_reason], restartIteration [delt0r]]),
  single [] [liter_flag, status],
  rd [iter2]]

/-- `SolveEquilibriumLoop` when it returns `MUST_RETRY`. -/
def loopRetry : Prog Var := sq [loopHead, .star round, .alt roundNewAxis roundNewDelt]

/-- `SolveEquilibriumLoop` in its last call (which may end anywhere, see `C115_no_race_partial`). -/
def loopLast : Prog Var := sq [loopHead, .star round, rd [liter_flag]]

/-- The parallel region of `SolveEquilibrium`, `vmec.cc:802-825`. -/
def solveEquilibrium : Prog Var := sq [
  rd [liter_flag], .star (.seq loopRetry (rd [liter_flag])), loopLast]

/-- What every thread does after it left the loops, `vmec.cc:826-843`. -/
def ending : List (Op Var) := [
  .acc ⟨num_eqsolve_retries, true, .one⟩,
  .acc ⟨any_checkpoint_reached, true, .crit⟩,
  .acc ⟨status_of_all_threads, true, .crit⟩]

/-! ## The nested team of the vacuum solver -/

/-- The shared variables of the region `ideal_mhd_model.cc:830-855`. -/
inductive VVar where
  | geometry_LCFS | axis | matrixShare | iPiv | bvecShare | bSubUVac | bSubVVac
  | bSqVacShare | vacuum_b_r | vacuum_b_phi | vacuum_b_z | vacuum_reached_checkpoint
  deriving DecidableEq, Repr

open VVar in
/-- `SurfaceGeometry::update`, `surface_geometry.cc:102-123`. -/
def surfaceUpdate : Prog VVar := sq [bar, rd [VVar.geometry_LCFS], bar, bar]

open VVar in
/-- `ExternalMagneticField::update`, `external_magnetic_field.cc:50-79`, with the barrier of
    `MGridProvider::interpolate`, `mgrid_provider.cc:428`. -/
def fieldUpdate : Prog VVar := sq [bar, bar, bar, rd [VVar.axis], bar, bar]

/-- `SingularIntegrals::update`, `singular_integrals.cc:157-174`. -/
def singularUpdate : Prog VVar := sq [bar, bar, bar]

/-- `LaplaceSolver::BuildMatrix`, `laplace_solver.cc:482-577`. -/
def buildMatrix : Prog VVar := sq [
  single [] [VVar.matrixShare], bar, critical [VVar.matrixShare], bar,
  single [VVar.matrixShare] [VVar.matrixShare], bar]

/-- `LaplaceSolver::SolveForPotential`, `laplace_solver.cc:605-673`. -/
def solveForPotential : Prog VVar := sq [
  single [] [VVar.bvecShare], bar, critical [VVar.bvecShare], bar,
  single [VVar.matrixShare, VVar.iPiv, VVar.bvecShare] [VVar.bvecShare], bar]

/-- `Nestor::update`, `nestor.cc:34-264`, with the end of the region
    (`ideal_mhd_model.cc:852-854`). -/
def nestorUpdate : Prog VVar := sq [
  surfaceUpdate, fieldUpdate, singularUpdate,
  opt (sq [buildMatrix, single [VVar.matrixShare] [VVar.matrixShare, VVar.iPiv], bar]),
  solveForPotential,
  rd [VVar.bvecShare],
  single [] [VVar.bSubUVac, VVar.bSubVVac], bar,
  critical [VVar.bSubUVac, VVar.bSubVVac], bar,
  accs (.part .byPoint) true [VVar.bSqVacShare, VVar.vacuum_b_r, VVar.vacuum_b_phi, VVar.vacuum_b_z],
  bar]

/-- `OnlyCoils::update`, `only_coils.cc:20-91`, with the end of the region. -/
def onlyCoilsUpdate : Prog VVar := sq [
  surfaceUpdate, fieldUpdate,
  single [] [VVar.bSubUVac, VVar.bSubVVac], bar,
  critical [VVar.bSubUVac, VVar.bSubVVac], bar,
  accs (.part .byPoint) true [VVar.vacuum_b_r, VVar.vacuum_b_phi, VVar.vacuum_b_z],
  accs (.part .byPoint) true [VVar.bSqVacShare],
  bar]

/-- End of the nested region: thread 0 records the result, `ideal_mhd_model.cc:852-854`. -/
def vacuumEnding : List (Op VVar) := [.acc ⟨VVar.vacuum_reached_checkpoint, true, .master⟩]

end Verif.Race
