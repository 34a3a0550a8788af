import Verif.Common.Ext
import Mathlib.Tactic.NormNum

/-!
# Control flow of the solver

Model of `SolveEquilibrium`, `SolveEquilibriumLoop`, `Evolve`, `UpdateForwardModel`,
`RestartIteration` (`cpp/vmecpp/vmec/vmec/vmec.cc`) and of the control-relevant part of
`IdealMhdModel::update` (`cpp/vmecpp/vmec/ideal_mhd_model/ideal_mhd_model.cc`).

Simplifications (all definitions of this file):
* team view: the OpenMP team is seen as one actor; variables written in `omp single` regions are
  written once, per-thread pieces of the Fourier state are one value of an abstract type `X`;
* `VmecCheckpoint::NONE` only (the debugging checkpoints are not modelled);
* the physics is a stream `phys` of results, one per force evaluation, so a theorem for all streams
  covers every forward model; the time step itself (`PerformTimeStep`) is an arbitrary function;
* residuals are extended doubles `D`, the time step is an exact rational.
`log` is a ghost history (newest event first) of what the run did; it is never read by the model.
-/
namespace Verif.Control
open Verif

/-- `cpp/vmecpp/vmec/vmec_constants/...`/`common/flow_control/flow_control.h`: `RestartReason` -/
inductive RestartReason where
  | noRestart | badJacobian | badProgress | hugeInitialForces
  deriving DecidableEq, Repr

/-- `cpp/vmecpp/common/util/util.h:148-159` -/
inductive VmecStatus where
  | normal | badJacobian | jacobian75 | unrecoverable | success
  deriving DecidableEq, Repr

/-- `cpp/vmecpp/common/util/util.h:161-177` (values -1, 0, 1, 2) -/
inductive VacState where
  | off | initializing | initialized | active
  deriving DecidableEq, Repr

/-- `static_cast<VacuumPressureState>(static_cast<int>(state) + 1)`
(`ideal_mhd_model.cc:763-764`; only executed when the state is not `kActive`) -/
def VacState.succ : VacState → VacState
  | off => initializing
  | initializing => initialized
  | initialized => active
  | active => active

/-- What one force evaluation delivers: the Jacobian verdict, whether the constraint multiplier
computation fails (`ideal_mhd_model.cc:717-720`), whether the plasma/vacuum consistency checks fail
(888-901), whether the radial preconditioner reports an error (1070-1073), the invariant residuals
(1049) and the preconditioned residuals (1092). -/
structure Phys where
  badJacobian : Bool := false
  tconError : Bool := false
  vacuumError : Bool := false
  solverError : Bool := false
  fsqr : D
  fsqz : D
  fsql : D
  fsqr1 : D
  fsqz1 : D
  fsql1 : D

/-- outcome of a force evaluation as recorded in the history -/
inductive EvalKind where
  | badJacobian
  | failed
  | residuals (fsqr fsqz fsql : D)
  deriving DecidableEq, Repr

/-- history of observable actions -/
inductive Ev (X V : Type) where
  /-- a force evaluation of geometry `x` starts -/
  | evaluate (x : X)
  /-- the evaluation delivered this -/
  | result (k : EvalKind)
  /-- the geometry was advanced with this time step -/
  | advance (dt : ℚ) (x : X) (v : V)
  /-- the geometry was saved as rollback target -/
  | save (x : X)
  /-- geometry and velocity after a rollback -/
  | restore (x : X) (v : V)
  /-- the geometry was replaced by a freshly built initial guess -/
  | reinit (x : X)
  /-- the magnetic axis was re-guessed -/
  | axisGuess
  /-- the time step was reset because the bad-Jacobian counter hit this value -/
  | stepReset (at_ : Int)
  /-- the bad-Jacobian counter was set to this value -/
  | counter (n : Int)
  /-- the stage gives up because of too many bad Jacobians -/
  | giveUp
  /-- the vacuum state changed; `sum` is the residual sum `fsqr + fsqz` at that moment -/
  | vac (from_ to_ : VacState) (sum : D)
  /-- the vacuum update interval was recomputed -/
  | interval (n : Int)
  /-- user interrupt -/
  | interrupt
  deriving DecidableEq

/-- What one time step contributes to the history of the damping parameter (`vmec.cc:1361-1397`): the counters, the time
step, the residual sum of the previous and of the current step. -/
structure Damp where
  iter1 : Int
  iter2 : Int
  dt : ℚ
  old : D
  new : D
  deriving DecidableEq, Repr

/-- Everything that is fixed during one stage: input values and oracles. -/
structure Env (X V : Type) where
  lfreeb : Bool := false
  niter : Int
  ftol : D
  delt : ℚ
  ns : Int
  nstep : Int := 10
  parvmec : Bool := false
  /-- `return_outputs_even_if_not_converged` -/
  keepGoing : Bool := false
  zeroX : X
  zeroV : V
  /-- geometry built from boundary and the axis known at evaluation count `n` -/
  guess : Nat → X
  /-- result of the `n`-th force evaluation -/
  phys : Nat → Phys
  /-- `PerformTimeStep` after the `n`-th evaluation; the damping coefficients are functions of the damping history -/
  adv : Nat → List Damp → ℚ → X → V → X × V
  /-- `maskGeometryAbove` -/
  mask : X → X := id
  /-- answer of the interrupt callback at evaluation count `n` -/
  interrupt : Nat → Bool := fun _ => false

/-- Solver state (members of `Vmec`, `FlowControl`, `IdealMhdModel` that control flow uses). -/
structure St (X V : Type) where
  x : X
  v : V
  backup : X
  fsqr : D
  fsqz : D
  fsql : D
  fsqr1 : D
  fsqz1 : D
  fsql1 : D
  fsq : D
  res0 : D
  res1 : D
  delt0r : ℚ
  ijacob : Int
  iter1 : Int
  iter2 : Int
  restart : RestartReason
  status : VmecStatus
  liter : Bool
  lreset : Bool
  vac : VacState
  nvacskip : Int
  ivacskip : Int
  interrupted : Bool
  /-- history from which `invTau_` is computed, newest first -/
  damp : List Damp
  evals : Nat
  /-- `num_eqsolve_retries_` -/
  tries : Nat
  log : List (Ev X V)

variable {X V : Type}

/-- append to the ghost history an event describing the state just reached -/
def St.emit (s : St X V) (ev : St X V → Ev X V) : St X V := { s with log := ev s :: s.log }

/-- `RestartIteration`, branch `BAD_JACOBIAN` (`vmec.cc:1244-1271`) without the time-step update,
which acts on a reference argument and is done by the callers below. -/
def rollbackJacobian (e : Env X V) (s : St X V) : St X V :=
  let s := { s with v := e.zeroV, x := s.backup }
  let s := s.emit (fun s => .restore s.x s.v)
  let s := { s with ijacob := s.ijacob + 1, iter1 := s.iter2, restart := .noRestart }
  s.emit (fun s => .counter s.ijacob)

/-- `RestartIteration`, branch `BAD_PROGRESS` (`vmec.cc:1273-1294`), same remark. -/
def rollbackProgress (e : Env X V) (s : St X V) : St X V :=
  let s := { s with v := e.zeroV, x := s.backup, restart := .noRestart }
  s.emit (fun s => .restore s.x s.v)

/-- `RestartIteration`, last branch (`vmec.cc:1295-1301`): save the state. -/
def saveState (s : St X V) : St X V :=
  let s := { s with backup := s.x }
  s.emit (fun s => .save s.backup)

/-- `RestartIteration(fc_.delt0r, thread_id)` (`vmec.cc:1239-1305`) -/
def restartIteration (e : Env X V) (s : St X V) : St X V :=
  match s.restart with
  | .badJacobian =>
    let s := rollbackJacobian e s
    { s with delt0r := s.delt0r * (9 / 10) }
  | .badProgress =>
    let s := rollbackProgress e s
    { s with delt0r := s.delt0r / (103 / 100) }
  | _ => saveState s

/-- `RestartIteration(delt0, thread_id)` with a local copy of the time step
(`vmec.cc:1482-1491`), so the time step of the run is unaffected; the reason is cleared after. -/
def softRestart (e : Env X V) (s : St X V) : St X V :=
  let s := match s.restart with
    | .badJacobian => rollbackJacobian e s
    | .badProgress => rollbackProgress e s
    | _ => saveState s
  { s with restart := .noRestart }

/-- result of `IdealMhdModel::update` -/
inductive UpdRes (X V : Type) where
  | ok (s : St X V) (needRestart : Bool)
  | err (s : St X V) (recoverable : Bool)
  /-- undefined behaviour: modulo by zero -/
  | ub

/-- `static_cast<int>(1.0 / std::max(0.1, 1.0e11 * (fsqr + fsqz)))` (`ideal_mhd_model.cc:769-770`) -/
def newNvacskip (sum : D) : Int :=
  match D.stdMax (.fin (1 / 10)) (D.scale (10 ^ 11) sum) with
  | .fin q => (1 / q).floor
  | .pinf => 0
  | _ => 10

/-- Switching the vacuum coupling on (`ideal_mhd_model.cc:747-765`): `ivacskip`, and the state
increment when the residuals of the previous evaluation are small enough.
C++ `%` truncates; `iter2 - iter1` is never negative here. -/
def vacuumSchedule (s : St X V) : St X V :=
  let s := { s with ivacskip := (s.iter2 - s.iter1).tmod s.nvacskip }
  if s.vac ≠ .active ∧ D.lt (D.add s.fsqr s.fsqz) (.fin (1 / 1000)) then
    let old := s.vac
    let s := { s with ivacskip := 0, vac := s.vac.succ }
    s.emit (fun s => .vac old s.vac (D.add s.fsqr s.fsqz))
  else s

/-- Adjusting the update interval (`ideal_mhd_model.cc:768-772`) -/
def vacuumInterval (s : St X V) : St X V :=
  if s.ivacskip = 0 then
    let s := { s with nvacskip := max s.nvacskip (newNvacskip (D.add s.fsqr s.fsqz)) }
    s.emit (fun s => .interval s.nvacskip)
  else s

/-- Vacuum solve bookkeeping (`ideal_mhd_model.cc:863-870`) -/
def vacuumSolved (s : St X V) : St X V :=
  if s.vac = .initializing then
    let s := { s with vac := .initialized }
    s.emit (fun s => .vac .initializing s.vac (D.add s.fsqr s.fsqz))
  else s

/-- The free-boundary block of `update` (`ideal_mhd_model.cc:740-967`). -/
def vacuumBlock (e : Env X V) (p : Phys) (s : St X V) : UpdRes X V :=
  if e.lfreeb ∧ (s.iter2 > 1 ∨ s.vac = .initialized) then
    if s.nvacskip = 0 then .ub
    else
      let s := vacuumInterval (vacuumSchedule s)
      if s.vac ≠ .off then
        let s := vacuumSolved s
        if p.vacuumError then .err s true
        else if s.vac = .initialized then .ok { s with restart := .badJacobian } true
        else .ok s false
      else .ok s false
  else .ok s false

/-- Residuals of a completed evaluation (`ideal_mhd_model.cc:1049`, `1092`, with 516-524, 549-556) -/
def setResiduals (p : Phys) (s : St X V) : St X V :=
  let s := { s with
    fsqr := p.fsqr, fsqz := p.fsqz, fsql := p.fsql,
    fsqr1 := p.fsqr1, fsqz1 := p.fsqz1, fsql1 := p.fsql1 }
  s.emit (fun _ => .result (.residuals p.fsqr p.fsqz p.fsql))

/-- `ideal_mhd_model.cc:1106-1112` -/
def hugeForces (s : St X V) : St X V :=
  if s.iter2 = 1 ∧ D.lt (.fin 100) (D.add (D.add s.fsqr s.fsqz) s.fsql) then
    { s with restart := .hugeInitialForces }
  else s

/-- Part of `update` after the free-boundary block (`ideal_mhd_model.cc:969-1116`).  An error of the
radial solve comes after the invariant residuals were set (1049 before 1070); it is not one of the
errors the caller may recover from (status code `kInternal`). -/
def finishUpdate (p : Phys) (s : St X V) (need : Bool) : UpdRes X V :=
  let s := setResiduals p s
  if p.solverError then .err s false
  else .ok (hugeForces s) need

/-- Start of `update`: count the evaluation, mask the geometry (`ideal_mhd_model.cc:567-573`) -/
def beginUpdate (e : Env X V) (s : St X V) : St X V :=
  let s := { s with evals := s.evals + 1, x := e.mask s.x }
  s.emit (fun s => .evaluate s.x)

/-- a force evaluation that ended with a bad Jacobian (`ideal_mhd_model.cc:601-614`): everything
after the Jacobian check is skipped, the residuals keep their old values -/
def evalBad (s : St X V) : St X V :=
  { s with restart := .badJacobian }.emit (fun _ => .result .badJacobian)

/-- ghost record of a failed evaluation -/
def evalFailed (s : St X V) : St X V := s.emit (fun _ => .result .failed)

/-- `IdealMhdModel::update` (`ideal_mhd_model.cc:559-1117`), control part. -/
def update (e : Env X V) (s : St X V) : UpdRes X V :=
  let p := e.phys s.evals
  let s := beginUpdate e s
  if p.badJacobian then .ok (evalBad s) false
  else if (s.iter2 - s.iter1).tmod 25 = 0 ∧ p.tconError then .err (evalFailed s) true
  else
    match vacuumBlock e p s with
    | .ok s need => finishUpdate p s need
    | .err s r => .err (evalFailed s) r
    | .ub => .ub

/-- `Vmec::UpdateForwardModel` (`vmec.cc:1466-1498`) -/
def updateForwardModel (e : Env X V) (s : St X V) : UpdRes X V :=
  match update e s with
  | .ok s true => .ok (softRestart e s) true
  | r => r

/-- Convergence decision in `Evolve` (`vmec.cc:1328-1345`) -/
def convergence (e : Env X V) (s : St X V) : St X V :=
  if (s.iter2 = 1 ∧ s.restart = .badJacobian) ∨
      ¬ (s.fsqr.isFinite ∧ s.fsqz.isFinite ∧ s.fsql.isFinite) then
    { s with status := .badJacobian }
  else if s.fsqr.le e.ftol ∧ s.fsqz.le e.ftol ∧ s.fsql.le e.ftol then
    { s with liter := false, status := .success }
  else s

/-- Rest of `Evolve` (`vmec.cc:1355-1423`): residual bookkeeping and the time step.  The damping
coefficients computed from `invTau_` are absorbed into the arbitrary function `adv` of the damping history. -/
def timeStep (e : Env X V) (dt : ℚ) (s : St X V) : St X V :=
  let fsq1 := D.add (D.add s.fsqr1 s.fsqz1) s.fsql1
  let damp := ⟨s.iter1, s.iter2, dt, s.fsq, fsq1⟩ :: s.damp
  let r := e.adv s.evals damp dt s.x s.v
  let s := { s with fsq := fsq1, damp := damp, x := r.1, v := r.2 }
  s.emit (fun s => .advance dt s.x s.v)

/-- `Vmec::Evolve` (`vmec.cc:1307-1426`); `time_step` is passed by value at the call. -/
def evolve (e : Env X V) (s : St X V) : UpdRes X V :=
  let dt := s.delt0r
  match updateForwardModel e { s with restart := .noRestart } with
  | .ok s _ =>
    let s := convergence e s
    if s.status ≠ .normal ∨ ¬ s.liter then .ok s false
    else .ok (timeStep e dt s) false
  | r => r

/-- return value of `SolveEquilibriumLoop` -/
inductive LoopRet where
  | mustRetry
  | normal
  /-- an error status; `recoverable` iff its code is `kFailedPrecondition` -/
  | error (recoverable : Bool)
  | ub
  deriving DecidableEq, Repr

/-- one pass of the `for` loop: go on, or return from the function -/
inductive Step (X V : Type) where
  | next (s : St X V) (bad : Int)
  | stop (r : LoopRet) (s : St X V)

/-- `vmec.cc:955-980`: re-guess the axis after a failed first evaluation -/
def axisRetry (s : St X V) : St X V :=
  let s := s.emit (fun _ => .axisGuess)
  let s := { s with ijacob := 1, restart := .badJacobian, lreset := true }
  s.emit (fun s => .counter s.ijacob)

/-- scale of the time-step reset (`vmec.cc:1042`) -/
def resetScale (ijacob : Int) : ℚ := if ijacob < 50 then 98 / 100 else 96 / 100

/-- `vmec.cc:1027-1058`: roll back and reset the time step -/
def stepReset (e : Env X V) (s : St X V) : St X V :=
  let n := s.ijacob
  let s := restartIteration e { s with restart := .badJacobian }
  let s := { s with
    delt0r := resetScale s.ijacob * e.delt,
    restart := .noRestart }
  s.emit (fun _ => .stepReset n)

/-- `vmec.cc:1062-1073` -/
def giveUpCheck (s : St X V) : St X V :=
  if s.ijacob ≥ 75 then
    { s with status := .jacobian75, liter := false }.emit (fun _ => .giveUp)
  else s

/-- `vmec.cc:1078-1100` -/
def bestResiduals (e : Env X V) (iter2 : Int) (s : St X V) : St X V :=
  let r0 := if iter2 = s.iter1 ∨ s.res0 = .fin (-1) then s.fsq else s.res0
  let s := { s with res0 := D.stdMin r0 s.fsq }
  if e.parvmec then
    let inv := D.add (D.add s.fsqr s.fsqz) s.fsql
    let r1 := if iter2 = s.iter1 ∨ s.res1 = .fin (-1) then inv else s.res1
    { s with res1 := D.stdMin r1 inv }
  else s

/-- Time-step control (`vmec.cc:1102-1143`) -/
def control (e : Env X V) (iter2 : Int) (s : St X V) : St X V :=
  if e.parvmec then
    let inv := D.add (D.add s.fsqr s.fsqz) s.fsql
    if s.fsq.le s.res0 ∧ inv.le s.res1 then restartIteration e s
    else if iter2 - s.iter1 > 10 ∧
        (D.lt (D.scale (10 ^ 4) s.res0) s.fsq ∨ D.lt (D.scale (10 ^ 4) s.res1) inv) then
      { s with restart := .badProgress }
    else s
  else if s.fsq.le s.res0 ∧ iter2 - s.iter1 > 10 then restartIteration e s
  else if D.lt (D.scale 100 s.res0) s.fsq ∧ iter2 > s.iter1 then
    { s with restart := .badJacobian }
  else if iter2 - s.iter1 > 12 ∧ iter2 > 50 ∧
      D.lt (.fin (1 / 100)) (D.add s.fsqr s.fsqz) then
    { s with restart := .badProgress }
  else s

/-- `vmec.cc:1151-1197`: carry out a requested restart, or print and poll for interrupts.
`nstep > 0` is guaranteed by the input check; `iter2 % 0` would be undefined behaviour. -/
def act (e : Env X V) (iter2 bad : Int) (s : St X V) : St X V × Int :=
  if s.restart ≠ .noRestart then
    ({ restartIteration e s with iter1 := iter2 }, bad + 1)
  else if iter2.tmod e.nstep = 0 ∨ iter2 = 1 ∨ ¬ s.liter then
    if e.interrupt s.evals then
      ({ s with liter := false, interrupted := true }.emit (fun _ => .interrupt), bad)
    else (s, bad)
  else (s, bad)

/-- `vmec.cc:1204-1223` -/
def vacuumActivate (s : St X V) : St X V :=
  if s.vac = .initialized then
    let s := { s with vac := .active }
    s.emit (fun s => .vac .initialized s.vac (D.add s.fsqr s.fsqz))
  else s

/-- Body of the loop after the early returns (`vmec.cc:1062-1232`) -/
def endOfIteration (e : Env X V) (fi bad : Int) (s : St X V) : Step X V :=
  let iter2 := fi - bad
  let r := act e iter2 bad (control e iter2 (bestResiduals e iter2 (giveUpCheck s)))
  let s := vacuumActivate r.1
  .next { s with iter2 := (fi - r.2) + 1 } r.2

/-- One pass of the loop in `SolveEquilibriumLoop` (`vmec.cc:928-1233`);
`fi` is `force_iteration`, `bad` is `bad_resets`. -/
def iterate (e : Env X V) (fi bad : Int) (s : St X V) : Step X V :=
  match evolve e s with
  | .ub => .stop .ub s
  | .err s r => .stop (.error r) s
  | .ok s _ =>
    if s.ijacob = 0 ∧ (s.status = .badJacobian ∨ s.restart = .hugeInitialForces) ∧ e.ns ≥ 3 then
      .stop .mustRetry (axisRetry s)
    else if s.status ≠ .normal ∧ s.status ≠ .success then
      if e.keepGoing then .stop .normal s else .stop (.error false) s
    else if s.ijacob = 25 ∨ s.ijacob = 50 then
      .stop .mustRetry (stepReset e s)
    else endOfIteration e fi bad s

/-- The loop `for (force_iteration = iter2_, ...; force_iteration <= niterv && liter; ++)`
(`vmec.cc:928-1235`).  The first argument counts the remaining values of `force_iteration`
(`niterv + 1 - force_iteration`); see `loop_unfold` in `Lemmas.lean`. -/
def loop (e : Env X V) : Nat → Int → Int → St X V → LoopRet × St X V
  | 0, _, _, s => (.normal, s)
  | n + 1, fi, bad, s =>
    if s.liter then
      match iterate e fi bad s with
      | .next s bad => loop e n (fi + 1) bad s
      | .stop r s => (r, s)
    else (.normal, s)

/-- Start of `SolveEquilibriumLoop` (`vmec.cc:887-920`) -/
def enterLoop (e : Env X V) (s : St X V) : St X V :=
  let s :=
    if s.restart = .badJacobian then
      let x := if s.lreset then e.guess s.evals else e.zeroX
      let s := { s with x := x, restart := .noRestart }
      saveState (s.emit (fun s => .reinit s.x))
    else s
  { s with liter := true, status := .normal }

/-- `SolveEquilibriumLoop` (`vmec.cc:881-1236`) -/
def solveEquilibriumLoop (e : Env X V) (s : St X V) : LoopRet × St X V :=
  let s := enterLoop e s
  loop e (e.niter + 1 - s.iter2).toNat s.iter2 0 s

/-- The retry loop in `SolveEquilibrium` (`vmec.cc:805-825`); the first argument counts the
remaining values of the retry counter (`niterv - n_local_eqsolve_retries`). -/
def attempts (e : Env X V) : Nat → LoopRet → St X V → LoopRet × St X V
  | 0, r, s => (r, s)
  | n + 1, r, s =>
    if r = .mustRetry ∧ s.liter then
      let r' := solveEquilibriumLoop e { s with tries := s.tries + 1 }
      attempts e n r'.1 r'.2
    else (r, s)

/-- result of `SolveEquilibrium` as seen by `run` -/
inductive StageRet where
  /-- returned normally; `status_` of the state says how -/
  | done
  | cancelled
  | error
  | ub
  deriving DecidableEq, Repr

/-- `Vmec::SolveEquilibrium` (`vmec.cc:774-879`).  All threads of the team leave with the same
result in the team view. -/
def solveEquilibrium (e : Env X V) (s : St X V) : StageRet × St X V :=
  let s := { s with liter := true, lreset := false }
  let r := attempts e e.niter.toNat .mustRetry s
  if r.2.interrupted then (.cancelled, r.2)
  else
    match r.1 with
    | .ub => (.ub, r.2)
    | .error rec =>
      if e.keepGoing ∧ rec then (.done, { r.2 with status := .unrecoverable })
      else (.error, r.2)
    | _ => (.done, r.2)

/-- The control part of `InitializeRadial` (`vmec.cc:509-540`, `744-761`) for geometry `x0`
(initial guess, hot-restart state or interpolated coarse solution): counters, time step, vacuum
state on continuation, first rollback target.  `newModel` says that the radial grid changed, so the
velocities are zeroed and the model objects (with their `nvacskip`) are rebuilt (`vmec.cc:590-660`).  The damping history
starts afresh: `iter2_ = iter1_ = 1` makes the first time step overwrite all of `invTau_` (`vmec.cc:1369-1373`). -/
def initializeRadial (e : Env X V) (nvacskip0 : Int) (continuation newModel : Bool) (x0 : X)
    (s : St X V) : St X V :=
  let s := { s with
    fsq := .fin 1, iter2 := 1, iter1 := 1, ijacob := 0, restart := .noRestart,
    res0 := .fin (-1), res1 := .fin (-1), delt0r := e.delt, damp := [] }
  let s :=
    if e.lfreeb ∧ continuation ∧ s.vac = .active then { s with vac := .initialized } else s
  if newModel then saveState { s with x := x0, v := e.zeroV, nvacskip := nvacskip0 } else s

/-- One multigrid stage: `InitializeRadial` followed by `SolveEquilibrium` (`vmec.cc:349-362`).
The ghost history and the ghost retry count start afresh with the stage. -/
def stage (e : Env X V) (nvacskip0 : Int) (continuation newModel : Bool) (x0 : X)
    (s : St X V) : StageRet × St X V :=
  solveEquilibrium e
    (initializeRadial e nvacskip0 continuation newModel x0 { s with log := [], tries := 0 })

end Verif.Control
