import Verif.Team.Machine
import Verif.Control.Model
import Mathlib.Algebra.Field.Basic
import Mathlib.Order.Lattice

/-!
# The force evaluation as a program of one OpenMP thread

`update i` is the synchronisation skeleton of `IdealMhdModel::update`
(`cpp/vmecpp/vmec/ideal_mhd_model/ideal_mhd_model.cc:559-1117`) for thread `i`: all barriers, single
regions, critical regions, all branches, and all shared variables that decide branches or are
accumulated over threads.

Simplifications:
* the numerical work between two synchronisation points is dropped; what a thread contributes to a
  shared sum, its local Jacobian verdict and its local error verdict are parameters (`Local`), the
  nested vacuum solve (832-861, run by one thread of the team) is a function `nestor` of the shared state;
* arrays in the handover storage (`m_h_`) are not part of the shared state, their barriers are;
* numbers are elements of an ordered field (no rounding, no NaN).
-/
namespace Verif.Team
open Verif.Control (RestartReason VacState)

/-- Shared variables: members of `FlowControl` (`m_fc_`), `HandoverStorage` (`m_h_`) and `Vmec` that
    are zeroed, accumulated, or decide branches in `update`. -/
structure Sh (R : Type) where
  fResInvar : R × R × R
  fResPrecd : R × R × R
  fsqr : R
  fsqz : R
  fsql : R
  fsqr1 : R
  fsqz1 : R
  fsql1 : R
  voli : R
  plasmaVolume : R
  thermalEnergy : R
  magneticEnergy : R
  mhdEnergy : R
  fNormRZ : R
  fNormL : R
  fNorm1 : R
  rBtor0 : R
  rBtor : R
  cTor : R
  bSubUVac : R
  bSubVVac : R
  vacuumReachedCheckpoint : Bool
  restart : RestartReason
  vac : VacState
  lastPreconditionerUpdate : Int
  lastFullUpdateNestor : Int

/-- What one thread computes locally in one evaluation. -/
structure Local (R : Type) where
  /-- `localFResInvar`, 1047 -/
  fInvar : R × R × R
  /-- `localFResPrecd`, 1090 -/
  fPrecd : R × R × R
  /-- `localPlasmaVolume`, 1716-1726 and 1746-1756 -/
  volume : R
  /-- `localThermalEnergy`, 1923-1924 and 1930 -/
  thermal : R
  /-- `localMagneticEnergy`, 1959 -/
  magnetic : R
  /-- `localForceNormSumRZ`, `localForceNormSumL`, `localForceNorm1`, 2069-2096 -/
  normRZ : R
  normL : R
  norm1 : R
  /-- `localBadJacobian`, 1662-1663 -/
  badJacobian : Bool
  /-- error status of `constraintForceMultiplier`, 2454-2465 -/
  tconError : Bool
  /-- `r_.nsMinH == 0` (656) and the value of `rBtor0` -/
  hasAxis : Bool
  rBtor0 : R
  /-- `r_.nsMaxH == ns - 1` (664) and the values of `rBtor`, `cTor` -/
  hasBoundary : Bool
  rBtor : R
  cTor : R

/-- The debugging checkpoints tested in `update` (`cpp/vmecpp/common/util/util.h`, `VmecCheckpoint`). -/
inductive Ckpt where
  | fourierGeometry | invDft | jacobian | metric | volume | bContra | bCo | energy | radialForce
  | lambdaForce | radialPrec | forceNorms | tcon | rbsq | alias | realForces | fwdDft | physForces
  | invariantResiduals | m1Prec | assembleRZ | applyRadial | precdResiduals
  deriving DecidableEq

/-- Values that are the same in all threads of the team: the run's parameters and the iteration
    counters passed by value to `update`. -/
structure Cst (R : Type) where
  iter1 : Int
  iter2 : Int
  lfreeb : Bool
  alwaysFixM1 : Bool
  nvacskip : Int
  /-- `checkpoint == c && iter2 >= iterations_before_checkpointing` -/
  stopAt : Ckpt → Bool
  /-- barriers in the inverse and forward transforms of this configuration (1247, 1417, 2634) -/
  geomBarriers : Nat
  forceBarriers : Nat
  /-- `idx_basis != num_basis` in `applyRZPreconditioner` (3073-3077) -/
  basisError : Bool
  adiabaticIndex : R
  lamscale : R
  deltaS : R
  /-- one nested vacuum solve: it sets `bSubUVac`, `bSubVVac` and the checkpoint flag -/
  nestor : Sh R → R × R × Bool
  /-- `static_cast<int>(1.0 / max(0.1, 1e11 * fsq))`, 769-770 -/
  newNvacskip : R → Int
  /-- `1.0e-3`, `1.0e-6`, `1.0e2`, `0.01` -/
  eps3 : R
  eps6 : R
  huge : R
  tolCurrent : R

/-- return value of `update` -/
inductive Ret where
  /-- `return true` -/
  | checkpoint
  /-- `return false` because of a bad Jacobian, 608-614 -/
  | badJacobian
  /-- `return false` at the end; `m_need_restart` and the thread's new `nvacskip` -/
  | done (needRestart : Bool) (nvacskip : Int)
  /-- an error status -/
  | error (msg : String)
  deriving DecidableEq

variable {R A : Type} [Field R] [LinearOrder R]

/-- `omp single` with its implicit barrier -/
def singleB {S A : Type} (f : S → S) (k : Prog S A) : Prog S A := .single f (.barrier k)

/-- look at one shared variable -/
def rd {S A α : Type} (π : S → α) (k : α → Prog S A) : Prog S A := .read fun s => k (π s)

/-- `n` barriers -/
def barriers {S A : Type} : Nat → Prog S A → Prog S A
  | 0, k => k
  | n + 1, k => .barrier (barriers n k)

abbrev P (R : Type) := Prog (Sh R) Ret

/-- sum of two residual vectors -/
def add3 (a b : R × R × R) : R × R × R := (a.1 + b.1, a.2.1 + b.2.1, a.2.2 + b.2.2)

/-- `evalFResInvar`, `ideal_mhd_model.cc:488-525` -/
def evalFResInvar (loc : R × R × R) (k : Prog (Sh R) A) : Prog (Sh R) A :=
  singleB (fun s => { s with fResInvar := (0, 0, 0) }) <|
  .act (fun s => { s with fResInvar := add3 s.fResInvar loc }) <|
  .barrier <|
  singleB (fun s => { s with
    fsqr := s.fResInvar.1 * s.fNormRZ * (1 / 4)
    fsqz := s.fResInvar.2.1 * s.fNormRZ * (1 / 4)
    fsql := s.fResInvar.2.2 * s.fNormL }) k

/-- `evalFResPrecd`, 527-557 -/
def evalFResPrecd (e : Cst R) (loc : R × R × R) (k : Prog (Sh R) A) : Prog (Sh R) A :=
  singleB (fun s => { s with fResPrecd := (0, 0, 0) }) <|
  .act (fun s => { s with fResPrecd := add3 s.fResPrecd loc }) <|
  .barrier <|
  singleB (fun s => { s with
    fsqr1 := s.fResPrecd.1 * s.fNorm1
    fsqz1 := s.fResPrecd.2.1 * s.fNorm1
    fsql1 := s.fResPrecd.2.2 * e.deltaS }) k

/-- `computeInitialVolume`, 1715-1743 (the constant `(2 pi)^2` is part of the contribution) -/
def computeInitialVolume (loc : R) (k : Prog (Sh R) A) : Prog (Sh R) A :=
  singleB (fun s => { s with voli := 0 }) <|
  .barrier <|
  .act (fun s => { s with voli := s.voli + loc }) <|
  .barrier k

/-- `updateVolume`, 1745-1773 -/
def updateVolume (loc : R) (k : Prog (Sh R) A) : Prog (Sh R) A :=
  singleB (fun s => { s with plasmaVolume := 0 }) <|
  .barrier <|
  .act (fun s => { s with plasmaVolume := s.plasmaVolume + loc }) <|
  .barrier k

/-- `pressureAndEnergies`, 1903-1992 -/
def pressureAndEnergies (e : Cst R) (locT locM : R) (k : Prog (Sh R) A) : Prog (Sh R) A :=
  singleB (fun s => { s with thermalEnergy := 0, magneticEnergy := 0 }) <|
  .barrier <|
  .act (fun s => { s with
    thermalEnergy := s.thermalEnergy + locT
    magneticEnergy := s.magneticEnergy + locM }) <|
  .barrier <|
  singleB (fun s => { s with
    mhdEnergy := s.magneticEnergy + s.thermalEnergy / (e.adiabaticIndex - 1) }) <|
  .barrier k

/-- `computeForceNorms`, 2064-2135; the energy density is read before the single region -/
def computeForceNorms (e : Cst R) (l : Local R) (k : Prog (Sh R) A) : Prog (Sh R) A :=
  rd (fun s => max s.magneticEnergy s.thermalEnergy / s.plasmaVolume) fun energyDensity =>
  singleB (fun s => { s with fNormRZ := 0, fNormL := 0, fNorm1 := 0 }) <|
  .barrier <|
  .act (fun s => { s with
    fNormRZ := s.fNormRZ + l.normRZ
    fNormL := s.fNormL + l.normL
    fNorm1 := s.fNorm1 + l.norm1 }) <|
  .barrier <|
  singleB (fun s => { s with
    fNormRZ := 1 / (s.fNormRZ * energyDensity * energyDensity)
    fNormL := 1 / (s.fNormL * e.lamscale * e.lamscale)
    fNorm1 := 1 / s.fNorm1 }) <|
  .barrier k

/-- a debugging checkpoint: `if (checkpoint == c && iter2 >= ...) return true;` -/
def ckpt (e : Cst R) (c : Ckpt) (k : P R) : P R := if e.stopAt c then .ret .checkpoint else k

/-- `computeJacobian`, 1639-1678: critical write of the restart reason, barrier -/
def computeJacobian (l : Local R) (k : P R) : P R :=
  .act (fun s => if l.badJacobian then { s with restart := .badJacobian } else s) (.barrier k)

/-- `rzConIntoVolume`, 1610-1637: one barrier after the boundary thread has written its data -/
def rzConIntoVolume (k : P R) : P R := .barrier k

/-- after the vacuum block: `effectiveConstraintForce` to the end of `update`, 962-1117 -/
def tail (e : Cst R) (l : Local R) (needRestart : Bool) (nvacskip : Int) : P R :=
  ckpt e .alias <|
  -- computeMHDForces; assembleTotalForces, 2507-2511
  .barrier <|
  ckpt e .realForces <|
  -- forcesToFourier
  barriers e.forceBarriers <|
  ckpt e .fwdDft <|
  -- 996-1001: thread-local work only, but reads the shared residual
  rd (fun s => e.alwaysFixM1 || decide (s.fsqz < e.eps6) || decide (e.iter2 < 2)) fun _fixM1Gauge =>
  ckpt e .physForces <|
  -- 1035-1043
  rd (fun s => decide (s.fsqr + s.fsqz < e.eps6)) fun _almostConverged =>
  evalFResInvar l.fInvar <|
  ckpt e .invariantResiduals <|
  -- applyM1Preconditioner, 2896
  .barrier <|
  ckpt e .m1Prec <|
  -- assembleRZPreconditioner, 3040
  .barrier <|
  ckpt e .assembleRZ <|
  -- applyRZPreconditioner, 3045-3155
  if e.basisError then .ret (.error "counting error") else
  .barrier <|
  .barrier <|
  ckpt e .applyRadial <|
  evalFResPrecd e l.fPrecd <|
  ckpt e .precdResiduals <|
  -- 1103-1112
  singleB (fun s => if e.iter2 = 1 ∧ e.huge < s.fsqr + s.fsqz + s.fsql then
    { s with restart := .hugeInitialForces } else s) <|
  .ret (.done needRestart nvacskip)

/-- the vacuum solve and what follows it, 784-956 -/
def vacuumSolve (e : Cst R) (l : Local R) (nvacskip : Int) : P R :=
  -- 811: boundary and axis have been handed over
  .barrier <|
  -- 814: every thread reads the net toroidal current; 824-861: one thread runs the vacuum solve
  rd (fun s => s.cTor) fun _netToroidalCurrent =>
  singleB (fun s => { s with
    bSubUVac := (e.nestor s).1
    bSubVVac := (e.nestor s).2.1
    vacuumReachedCheckpoint := (e.nestor s).2.2 }) <|
  -- 864-866
  rd (fun s => s.vacuumReachedCheckpoint) fun reached =>
  if reached then .ret .checkpoint else
  -- 868-886
  singleB (fun s => if s.vac = .initializing then { s with vac := .initialized } else s) <|
  -- 888-901
  rd (fun s => decide (s.rBtor * s.bSubVVac < 0)) fun signMismatch =>
  if signMismatch then .ret (.error "rbtor and bsubvvac must have the same sign") else
  rd (fun s => decide (e.tolCurrent < |(s.cTor - s.bSubUVac) / s.rBtor|)) fun currentMismatch =>
  if currentMismatch then .ret (.error "VAC-VMEC I_TOR MISMATCH") else
  -- 903-912
  rd (fun s => decide (s.vac = .initialized)) fun softStart =>
  if softStart then
    singleB (fun s => { s with restart := .badJacobian }) <|
    ckpt e .rbsq (tail e l true nvacskip)
  else
    ckpt e .rbsq (tail e l false nvacskip)

/-- 781-784: barrier, then the vacuum solve unless the vacuum pressure is off -/
def vacuumRun (e : Cst R) (l : Local R) (nvacskip : Int) : P R :=
  .barrier <|
  rd (fun s => decide (s.vac ≠ .off)) fun on =>
  if on then vacuumSolve e l nvacskip else tail e l false nvacskip

/-- 766-779: extend the interval; the ghost variable is written in `omp single nowait` -/
def vacuumInterval (e : Cst R) (l : Local R) (ivacskip : Int) : P R :=
  if ivacskip = 0 then
    rd (fun s => e.newNvacskip (s.fsqr + s.fsqz)) fun new_nvacskip =>
    .single (fun s => { s with lastFullUpdateNestor := e.iter2 }) <|
    vacuumRun e l (max e.nvacskip new_nvacskip)
  else vacuumRun e l e.nvacskip

/-- the free-boundary block, 739-957 -/
def vacuumBlock (e : Cst R) (l : Local R) : P R :=
  rd (fun s => e.lfreeb && (decide (1 < e.iter2) || decide (s.vac = .initialized))) fun active =>
  if active then
    .barrier <|
    rd (fun s => decide (s.vac ≠ .active) && decide (s.fsqr + s.fsqz < e.eps3)) fun turnOn =>
    if turnOn then
      .barrier <|
      singleB (fun s => { s with vac := s.vac.succ }) <|
      vacuumInterval e l 0
    else vacuumInterval e l ((e.iter2 - e.iter1).tmod e.nvacskip)
  else tail e l false e.nvacskip

/-- 728-734: checkpoints of the preconditioner update that are also honoured without an update -/
def virtualCkpt (e : Cst R) (l : Local R) : P R :=
  ckpt e .radialPrec <| ckpt e .forceNorms <| ckpt e .tcon <| vacuumBlock e l

/-- 692-725: update of the radial preconditioner every `kPreconditionerUpdateInterval = 25` iterations -/
def preconditionerBlock (e : Cst R) (l : Local R) : P R :=
  if (e.iter2 - e.iter1).tmod 25 = 0 then
    .single (fun s => { s with lastPreconditionerUpdate := e.iter2 }) <|
    ckpt e .radialPrec <|
    updateVolume l.volume <|
    computeForceNorms e l <|
    ckpt e .forceNorms <|
    if l.tconError then .ret (.error "arNorm should never be 0.0.") else
    ckpt e .tcon <|
    virtualCkpt e l
  else virtualCkpt e l

/-- 635-690: magnetic field, energies, force balance, axis and edge currents, lambda force -/
def fieldBlock (e : Cst R) (l : Local R) : P R :=
  ckpt e .volume <|
  ckpt e .bContra <|
  ckpt e .bCo <|
  pressureAndEnergies e l.thermal l.magnetic <|
  ckpt e .energy <|
  ckpt e .radialForce <|
  -- 656-680: written by the thread with the axis / with the boundary, and read after the next barrier
  .act (fun s =>
    let s := if l.hasAxis then { s with rBtor0 := l.rBtor0 } else s
    if l.hasBoundary then { s with rBtor := l.rBtor, cTor := l.cTor } else s) <|
  -- hybridLambdaForce, 2041-2061
  .barrier <|
  .barrier <|
  ckpt e .lambdaForce <|
  preconditionerBlock e l

/-- 599-633: Jacobian check, metric, volume -/
def jacobianBlock (e : Cst R) (l : Local R) : P R :=
  computeJacobian l <|
  ckpt e .jacobian <|
  rd (fun s => decide (s.restart = .badJacobian)) fun bad =>
  if bad then .ret .badJacobian else
  ckpt e .metric <|
  if e.iter2 = 1 then computeInitialVolume l.volume (fieldBlock e l) else fieldBlock e l

/-- `IdealMhdModel::update`, 559-1117, for one thread -/
def update (e : Cst R) (l : Local R) : P R :=
  ckpt e .fourierGeometry <|
  barriers e.geomBarriers <|
  ckpt e .invDft <|
  -- 593-597
  rd (fun s => decide (e.iter2 = e.iter1) &&
    (decide (s.vac = .off) || decide (s.vac = .initializing))) fun intoVolume =>
  if intoVolume then rzConIntoVolume (jacobianBlock e l) else jacobianBlock e l

end Verif.Team
