import Verif.Control.Model

/-!
# Model of `Vmec::run` (`vmec.cc:226-456`): the multigrid schedule

Left out: loading the mgrid file and the input checks before the loop (they return before anything
is solved), checkpoints (testing aid), the log output, `ComputeOutputQuantities`.
-/
namespace Verif.Control
open Verif

variable {X V : Type}

/-- one entry of `ns_array`, `ftol_array`, `niter_array`; the input checks make the three arrays
equally long (`vmec_indata.cc:584-602`) -/
structure Grid where
  ns : Int
  ftol : D
  niter : Int
  deriving DecidableEq

structure RunEnv (X V : Type) where
  /-- inputs and oracles; `ns`, `ftol`, `niter` are replaced by those of the stage -/
  base : Env X V
  /-- the schedule, cut at `maximum_multi_grid_step` (`vmec.cc:301`) -/
  grids : List Grid
  nvacskip : Int
  /-- `initial_state.has_value()` -/
  hot : Bool := false
  /-- geometry at the start of a stage: initial guess, restart state or interpolated solution -/
  x0 : (nsOld : Int) → Grid → St X V → X

/-- ghost record of one executed stage -/
structure Entry where
  ns : Int
  ftol : D
  niter : Int
  nsOld : Int
  /-- number of surfaces for which `lamscale` was computed, `none` after `reset()` -/
  lam : Option Int
  ret : StageRet
  status : VmecStatus
  deriving DecidableEq

structure RunSt (X V : Type) where
  s : St X V
  /-- `fc_.ns_old` -/
  nsOld : Int
  /-- what `constants_.lamscale` holds (see `Entry.lam`) -/
  lam : Option Int
  /-- `fc_.niterv` -/
  niterv : Int
  /-- executed stages, newest first (ghost) -/
  trace : List Entry

def stageEnv (r : RunEnv X V) (g : Grid) : Env X V :=
  { r.base with ns := g.ns, ftol := g.ftol, niter := g.niter }

/-- `vmec.cc:349-362` with `vmec.cc:541-543` (continuation), `568-570` (new radial grid), `699`
(lamscale), `763` (`ns_old`) -/
def solveGrid (r : RunEnv X V) (g : Grid) (st : RunSt X V) : StageRet × RunSt X V :=
  let e := stageEnv r g
  let out := stage e r.nvacskip (st.nsOld ≠ 0 ∧ st.nsOld < g.ns) (st.nsOld ≠ g.ns)
    (r.x0 st.nsOld g st.s) st.s
  let lam := if st.nsOld ≠ g.ns then some g.ns else st.lam
  (out.1,
    { s := out.2, nsOld := g.ns, lam := lam, niterv := g.niter,
      trace := { ns := e.ns, ftol := e.ftol, niter := e.niter, nsOld := st.nsOld, lam := lam,
                 ret := out.1, status := out.2.status } :: st.trace })

inductive PassRet (X V : Type) where
  | finished (st : RunSt X V)
  | givingUp (st : RunSt X V)
  | failed (ret : StageRet) (st : RunSt X V)

def VmecStatus.fine : VmecStatus → Bool
  | .normal => true
  | .success => true
  | _ => false

/-- What follows a stage (`vmec.cc:362-396`): return an error or a cancellation, give up, or go on
with `rest`. -/
def afterStage (r : RunEnv X V) (out : StageRet × RunSt X V) (rest : RunSt X V → PassRet X V) :
    PassRet X V :=
  match out.1 with
  | .done =>
    if out.2.s.status.fine then rest out.2
    else if r.base.keepGoing then .givingUp out.2
    else .failed .error out.2
  | ret => .failed ret out.2

/-- The loop over the grids with index `≥ 0` (`vmec.cc:302-400`). -/
def pass (r : RunEnv X V) : List Grid → Int → RunSt X V → PassRet X V
  | [], _, st => .finished st
  | g :: t, nsMin, st =>
    -- `constants_.reset()`
    let st := { st with lam := none }
    if g.ns < nsMin then pass r t nsMin st
    else afterStage r (solveGrid r g st) (fun st => pass r t g.ns st)

/-- The pass with `jacob_off_ == 1`: first a stage with three surfaces (`vmec.cc:307-322`). -/
def retryPass (r : RunEnv X V) (st : RunSt X V) : PassRet X V :=
  let st := { st with lam := none, s := { st.s with vac := .off } }
  afterStage r (solveGrid r { ns := 3, ftol := .fin (1 / 10 ^ 4), niter := st.niterv } st)
    (fun st => pass r r.grids 3 st)

/-- `vmec.cc:289-291` -/
def enterPass (r : RunEnv X V) (st : RunSt X V) : RunSt X V :=
  if r.base.lfreeb ∧ r.hot then { st with s := { st.s with vac := .initialized } } else st

inductive RunRet where
  /-- output quantities are computed and returned -/
  | outputs
  /-- "did not converge" error -/
  | notConverged
  | failed (ret : StageRet)
  deriving DecidableEq

/-- `vmec.cc:418-433` -/
def conclude (r : RunEnv X V) (st : RunSt X V) : RunRet × RunSt X V :=
  if st.s.status ≠ .success ∧ ¬ r.base.keepGoing then (.notConverged, st) else (.outputs, st)

/-- `Vmec::run` (`vmec.cc:226-456`) from line 261 on -/
def run (r : RunEnv X V) (s : St X V) (lam : Option Int) (niterv : Int) : RunRet × RunSt X V :=
  let st : RunSt X V :=
    { s := { s with delt0r := r.base.delt }, nsOld := 0, lam := lam, niterv := niterv, trace := [] }
  match pass r r.grids 3 (enterPass r st) with
  | .failed ret st => (.failed ret, st)
  | .givingUp st => conclude r st
  | .finished st =>
    if st.s.status ≠ .badJacobian then conclude r st
    else
      match retryPass r (enterPass r st) with
      | .failed ret st => (.failed ret, st)
      | .givingUp st => conclude r st
      | .finished st => conclude r st

end Verif.Control
