import Verif.Control.Model

/-!
# The Python force iteration

Model of `solve_equilibrium` (`src/vmecpp/_iteration.py:171-518`) on top of the C++ object it drives
(`VmecModel`, `cpp/vmecpp/vmec/pybind11/pybind_vmec.cc:161-384`).  The forward model behind `model.evaluate` is the
C++ function `IdealMhdModel::update`, so `Verif.Control.update` is used for it; the object state is a `Control.St`.
Simplifications as in `Verif.Control.Model`: the forward model is a stream of results, the time step is an arbitrary
function of the damping history (`dampPy` below is what the code computes from it), residuals are extended doubles.
The printout and the callback are dropped.
-/
namespace Verif.PyDriver
open Verif Verif.Control

variable {X V : Type}

/-- `_iteration.py:67-74`, chosen at 196-198 -/
inductive Style where
  | vmec852 | parvmec | robust
  deriving DecidableEq, Repr

/-- ghost notes about a run; they are never read by the model -/
inductive Note (V : Type) where
  /-- converged while the bad-Jacobian counter had this value -/
  | converged (ijacob : Int)
  /-- axis re-guess while the velocity had this value -/
  | reguess (v : V)
  /-- bad Jacobian although the last residual is the best one, more than 10 iterations after the last restart -/
  | lateJacobian
  /-- bad Jacobian while the slow-progress condition holds -/
  | slowJacobian
  /-- bad Jacobian that the selected style does not look at -/
  | ignoredJacobian
  /-- the logarithm of the damping formula is undefined -/
  | logError
  /-- a time step with vanishing residual sum after the first one since a restart -/
  | zeroResidual
  deriving DecidableEq

/-- the variables of `solve_equilibrium` (`_iteration.py:200-230`) with the object it drives -/
structure PSt (X V : Type) where
  /-- the C++ object -/
  m : St X V
  fsqPrev : D
  /-- history from which `inv_tau` is computed, newest first -/
  damp : List Damp
  res0 : D
  res1 : D
  delt0r : ℚ
  iter1 : Int
  iter2 : Int
  ijacob : Int
  converged : Bool
  failed : Bool
  mustRetry : Bool
  /-- `pending_bad_jacobian_reinit` -/
  pending : Bool
  /-- `lreset_internal` -/
  lreset : Bool
  retries : Nat
  nRestarts : Nat
  nReguesses : Nat
  notes : List (Note V)

/-- the variables before the first iteration (`_iteration.py:200-232`) -/
def start (e : Env X V) (m : St X V) : PSt X V where
  m := m
  fsqPrev := .fin 1
  damp := []
  res0 := .fin (-1)
  res1 := .fin (-1)
  delt0r := e.delt
  iter1 := 1
  iter2 := 1
  ijacob := 0
  converged := false
  failed := false
  mustRetry := true
  pending := false
  lreset := false
  retries := 0
  nRestarts := 0
  nReguesses := 0
  notes := []

/-- ghost -/
def PSt.note (p : PSt X V) (n : Note V) : PSt X V := { p with notes := n :: p.notes }

/-- `VmecModel::SaveBackup` (`pybind_vmec.cc:297-299`) -/
def saveBackup (p : PSt X V) : PSt X V := { p with m := saveState p.m }

/-- `VmecModel::RestoreBackup` (`pybind_vmec.cc:300-303`) -/
def restoreBackup (e : Env X V) (p : PSt X V) : PSt X V :=
  let m := { p.m with v := e.zeroV, x := p.m.backup }
  { p with m := m.emit (fun m => .restore m.x m.v) }

/-- `VmecModel::Reinitialize` (`pybind_vmec.cc:317-343`): new axis, then `InitializeRadial` on a fresh model with
    the geometry built from boundary and axis -/
def reinitialize (e : Env X V) (nvacskip0 : Int) (p : PSt X V) : PSt X V :=
  let m := initializeRadial e nvacskip0 false true (e.guess p.m.evals) p.m
  -- ghost history: new axis, new geometry (the backup `InitializeRadial` takes is followed by that of the caller)
  { p with m := { m with log := .reinit m.x :: .axisGuess :: p.m.log } }

/-- `model.evaluate(iter1, iter2, precondition=True, always_fix_m1_gauge=False)` (`_iteration.py:263`,
    `pybind_vmec.cc:231-275`): clears the restart reason and calls `update` with the counters of the caller.
    The counters are arguments of `update`; in `Control.update` they are fields. -/
def evaluate (e : Env X V) (iter2 : Int) (p : PSt X V) : UpdRes X V :=
  update e { p.m with restart := .noRestart, iter1 := p.iter1, iter2 := iter2 }

/-- `status_bad_jacobian` (`_iteration.py:267-269`) -/
def statusBad (iter2 : Int) (m : St X V) : Bool :=
  (iter2 = 1 ∧ m.restart = .badJacobian) ∨ ¬ (m.fsqr.isFinite ∧ m.fsqz.isFinite ∧ m.fsql.isFinite)

/-- `_iteration.py:273-280` -/
def belowTolerance (e : Env X V) (m : St X V) : Bool :=
  m.fsqr.le e.ftol ∧ m.fsqz.le e.ftol ∧ m.fsql.le e.ftol

/-- `_iteration.py:287` -/
def fsq1 (m : St X V) : D := D.add (D.add m.fsqr1 m.fsqz1) m.fsql1

/-- `fsqr + fsqz + fsql` -/
def fsq0 (m : St X V) : D := D.add (D.add m.fsqr m.fsqz) m.fsql

/-- sign of a double below zero -/
def isNeg : D → Bool
  | .ninf => true
  | .fin q => q < 0
  | _ => false

/-- is the double infinite -/
def isInf : D → Bool
  | .ninf => true
  | .pinf => true
  | _ => false

/-- `math.log(fsq1 / fsq_prev)` raises (`_iteration.py:294-295`): division by zero (`ZeroDivisionError`), or the quotient
    is zero or negative (`ValueError`).  NaN passes. -/
def logRaises (iter1 iter2 : Int) (new prev : D) : Bool :=
  iter2 > iter1 ∧ new ≠ .fin 0 ∧
    (prev = .fin 0 ∨
      (new ≠ .nan ∧ prev ≠ .nan ∧ ¬ (isInf new ∧ isInf prev) ∧ (isInf prev ∨ isNeg new ≠ isNeg prev)))

/-- `_iteration.py:290-314`: bookkeeping and `model.perform_time_step`.  The damping coefficients are absorbed into `adv`;
    the code computes them in the same way as the C++ code (`dampPy`, `dampCpp`) unless the ghost note `zeroResidual` is left. -/
def timeStep (e : Env X V) (p : PSt X V) : PSt X V :=
  let d : Damp := ⟨p.iter1, p.iter2, p.delt0r, p.fsqPrev, fsq1 p.m⟩
  let r := e.adv p.m.evals (d :: p.damp) p.delt0r p.m.x p.m.v
  let m := { p.m with x := r.1, v := r.2 }
  { p with
    fsqPrev := d.new, damp := d :: p.damp, m := m.emit (fun m => .advance p.delt0r m.x m.v)
    notes := if d.iter2 > d.iter1 ∧ d.new = .fin 0 then .zeroResidual :: p.notes else p.notes }

/-- `_iteration.py:323-335`: ask for a re-guess of the axis -/
def askReguess (p : PSt X V) : PSt X V :=
  { p with ijacob := 1, nReguesses := p.nReguesses + 1, pending := true, lreset := true, mustRetry := true }

/-- `_iteration.py:343-351`: roll back and reset the time step -/
def escalate (e : Env X V) (p : PSt X V) : PSt X V :=
  let p := restoreBackup e p
  { p with ijacob := p.ijacob + 1, iter1 := p.iter2, delt0r := (if p.ijacob + 1 < 50 then 98 / 100 else 96 / 100) * e.delt,
           nRestarts := p.nRestarts + 1, pending := true, mustRetry := true }

/-- first statement of every control block (`_iteration.py:365-367`, `382-384`, `405-407`, `436-437`) -/
def seed (p : PSt X V) : PSt X V :=
  if p.iter2 = p.iter1 ∨ p.res0 = .fin (-1) then { p with res0 := fsq1 p.m, res1 := fsq0 p.m } else p

/-- `res0 = min(res0, fsq1)`, `res1 = min(res1, fsq0)`; Python's `min(a, b)` is `b` if `b < a` and `a` otherwise -/
def lower (p : PSt X V) : PSt X V :=
  { p with res0 := D.stdMin p.res0 (fsq1 p.m), res1 := D.stdMin p.res1 (fsq0 p.m) }

/-- gentle revert (`_iteration.py:393-398`, `421-426`, `456-461`) -/
def gentle (e : Env X V) (p : PSt X V) : PSt X V :=
  let p := restoreBackup e p
  { p with delt0r := p.delt0r / (103 / 100), iter1 := p.iter2, nRestarts := p.nRestarts + 1 }

/-- revert of the default style (`_iteration.py:441-447`) -/
def hard (e : Env X V) (p : PSt X V) : PSt X V :=
  let p := restoreBackup e p
  { p with delt0r := p.delt0r * (9 / 10), ijacob := p.ijacob + 1, iter1 := p.iter2, nRestarts := p.nRestarts + 1 }

/-- slow progress (`_iteration.py:416-419`, `451-455`); `25 // 2 = 12` -/
def slow (p : PSt X V) : Bool :=
  p.iter2 - p.iter1 > 12 ∧ p.iter2 > 50 ∧ D.lt (.fin (1 / 100)) (D.add p.m.fsqr p.m.fsqz)

/-- `_iteration.py:364-373`: huge initial forces after the re-guess was used up -/
def controlHuge (p : PSt X V) (bad : Int) : PSt X V × Int :=
  let p := saveBackup (lower (seed p))
  ({ p with iter1 := p.iter2 }, bad + 1)

/-- `_iteration.py:375-398` -/
def controlParvmec (e : Env X V) (p : PSt X V) (bad : Int) : PSt X V × Int :=
  let p := lower (seed p)
  if (fsq1 p.m).le p.res0 ∧ (fsq0 p.m).le p.res1 then (saveBackup p, bad)
  else if p.iter2 - p.iter1 > 10 ∧ (D.lt (D.scale (10 ^ 4) p.res0) (fsq1 p.m) ∨ D.lt (D.scale (10 ^ 4) p.res1) (fsq0 p.m)) then
    (gentle e p, bad + 1)
  else (p, bad)

/-- `_iteration.py:399-426` -/
def controlRobust (e : Env X V) (p : PSt X V) (bad : Int) : PSt X V × Int :=
  let p := lower (seed p)
  if (fsq1 p.m).le p.res0 ∧ (fsq0 p.m).le p.res1 then (saveBackup p, bad)
  else if (p.iter2 - p.iter1 > 10 ∧ (D.lt (D.scale (10 ^ 3) p.res0) (fsq1 p.m) ∨ D.lt (D.scale (10 ^ 3) p.res1) (fsq0 p.m))) ∨
      slow p then
    (gentle e p, bad + 1)
  else (p, bad)

/-- `_iteration.py:427-461`.  `res1` is not used by this style; `seed` and `lower` also set it, which the code does not. -/
def control852 (e : Env X V) (p : PSt X V) (bad : Int) : PSt X V × Int :=
  let p := lower (seed p)
  if p.m.restart = .badJacobian ∨ (D.lt (D.scale 100 p.res0) (fsq1 p.m) ∧ p.iter2 > p.iter1) then (hard e p, bad + 1)
  else if (fsq1 p.m).le p.res0 ∧ p.iter2 - p.iter1 > 10 then (saveBackup p, bad)
  else if slow p then (gentle e p, bad + 1)
  else (p, bad)

/-- `_iteration.py:364-461` -/
def control (e : Env X V) (style : Style) (p : PSt X V) (bad : Int) : PSt X V × Int :=
  if p.m.restart = .hugeInitialForces then controlHuge p bad
  else
    match style with
    | .parvmec => controlParvmec e p bad
    | .robust => controlRobust e p bad
    | .vmec852 => control852 e p bad

/-- ghost: a bad Jacobian that the C++ loop handles in another way -/
def jacobianNotes (style : Style) (p : PSt X V) : PSt X V :=
  if p.m.restart = .badJacobian then
    if style = .vmec852 then
      let q := lower (seed p)
      if (fsq1 p.m).le q.res0 ∧ p.iter2 - p.iter1 > 10 then p.note .lateJacobian
      else if D.lt (D.scale 100 q.res0) (fsq1 p.m) ∧ p.iter2 > p.iter1 then p
      else if slow p then p.note .slowJacobian
      else p
    else p.note .ignoredJacobian
  else p

/-- one pass of the inner loop: go on, leave the loop, or an exception -/
inductive PStep (X V : Type) where
  | next (p : PSt X V) (bad : Int)
  | stop (p : PSt X V)
  /-- `RuntimeError` from `evaluate` (`recoverable`: status code `kFailedPrecondition`) or an exception of `math.log` -/
  | raised (p : PSt X V) (fromModel : Option Bool)
  | ub

/-- the part of the pass after the time step (`_iteration.py:323-502`) -/
def decide (e : Env X V) (style : Style) (bad : Int) (sbj : Bool) (p : PSt X V) : PStep X V :=
  if p.ijacob = 0 ∧ (sbj ∨ p.m.restart = .hugeInitialForces) ∧ e.ns ≥ 3 then
    .stop (askReguess (p.note (.reguess p.m.v)))
  else if sbj then .stop { p with failed := true }
  else if p.ijacob = 25 ∨ p.ijacob = 50 then .stop (escalate e p)
  else if p.ijacob ≥ 75 then .stop { p with failed := true }
  else
    let r := control e style (jacobianNotes style p) bad
    .next r.1 r.2

/-- one pass of the inner loop (`_iteration.py:259-502`) -/
def iterate (e : Env X V) (style : Style) (fi bad : Int) (p : PSt X V) : PStep X V :=
  let iter2 := fi - bad
  match evaluate e iter2 p with
  | .ub => .ub
  | .err m r => .raised { p with m := m, iter2 := iter2 } (some r)
  | .ok m _ =>
    let p := { p with m := m, iter2 := iter2 }
    let sbj := statusBad iter2 m
    if ¬ sbj ∧ belowTolerance e m then .stop ({ p with converged := true }.note (.converged p.ijacob))
    else if sbj then decide e style bad sbj p
    else if logRaises p.iter1 iter2 (fsq1 m) p.fsqPrev then .raised (p.note .logError) none
    else decide e style bad sbj (timeStep e p)

/-- how the function ends -/
inductive End where
  | returned
  | raised (fromModel : Option Bool)
  | ub
  deriving DecidableEq, Repr

/-- `while force_iteration <= niterv` (`_iteration.py:259`); the first argument counts the remaining values -/
def loop (e : Env X V) (style : Style) : Nat → Int → Int → PSt X V → End × PSt X V
  | 0, _, _, p => (.returned, p)
  | n + 1, fi, bad, p =>
    match iterate e style fi bad p with
    | .next p bad => loop e style n (fi + 1) bad p
    | .stop p => (.returned, p)
    | .raised p r => (.raised r, p)
    | .ub => (.ub, p)

/-- start of a pass of the outer loop (`_iteration.py:234-254`) -/
def enter (e : Env X V) (nvacskip0 : Int) (p : PSt X V) : PSt X V :=
  let p := { p with mustRetry := false, retries := p.retries + 1 }
  if p.pending then
    let p := if p.lreset then saveBackup (reinitialize e nvacskip0 p) else p
    { p with pending := false, lreset := false }
  else p

/-- the outer loop (`_iteration.py:234-502`); the first argument counts `niterv - eqsolve_retries` -/
def attempts (e : Env X V) (style : Style) (nvacskip0 : Int) : Nat → PSt X V → End × PSt X V
  | 0, p => (.returned, p)
  | n + 1, p =>
    if p.mustRetry ∧ ¬ p.converged ∧ ¬ p.failed then
      let p := enter e nvacskip0 p
      let r := loop e style (e.niter + 1 - p.iter2).toNat p.iter2 0 p
      match r.1 with
      | .returned => attempts e style nvacskip0 n r.2
      | x => (x, r.2)
    else (.returned, p)

/-- `solve_equilibrium` on an object in state `m` (`_iteration.py:171-518`) -/
def solve (e : Env X V) (style : Style) (nvacskip0 : Int) (m : St X V) : End × PSt X V :=
  attempts e style nvacskip0 e.niter.toNat (start e m)

/-! ## The damping history

Both codes keep the last ten values of 1/tau.  `reset dt` is `0.15 / dt`, `entry dt new old` is `min(|log(new / old)|, 0.15) / dt`,
`zero` is `0 / dt`. -/

/-- left shift in place; the last entry keeps its value (`vmec.cc:1377-1384`, `_iteration.py:293`) -/
def shift {α : Type} (h : List α) : List α := h.tail ++ h.getLast?.toList

/-- one time step of `Evolve` (`vmec.cc:1369-1396`) -/
def dampCpp {α : Type} (reset : ℚ → α) (zero : α) (entry : ℚ → D → D → α) (d : Damp) (h : List α) : List α :=
  let h := shift (if d.iter2 = d.iter1 then h.map fun _ => reset d.dt else h)
  if d.iter2 > d.iter1 then h.dropLast ++ [if d.new ≠ .fin 0 then entry d.dt d.new d.old else zero] else h

/-- one time step of `solve_equilibrium` (`_iteration.py:291-295`) -/
def dampPy {α : Type} (reset : ℚ → α) (entry : ℚ → D → D → α) (d : Damp) (h : List α) : List α :=
  let h := shift (if d.iter2 = d.iter1 then h.map fun _ => reset d.dt else h)
  if d.iter2 > d.iter1 ∧ d.new ≠ .fin 0 then h.dropLast ++ [entry d.dt d.new d.old] else h

end Verif.PyDriver
