import Verif.Common.Ext
import Verif.Common.Outcome
import Mathlib.Data.Rat.Floor

/-!
# The iteration logger

`vmec/iteration_logger/iteration_logger.cc` and `.h`.  Doubles are extended doubles `D` without
rounding.  What is written to the terminal is a list of commands; a line is given by its contents
instead of its characters (colours and number formats are left out).
-/
namespace Verif.Logger
open Verif

/-- `OutputMode`, `iteration_logger.h:26-31` -/
inductive Mode where
  | silent | legacy | progress | nonTty
  deriving DecidableEq

/-- `StageState`, `iteration_logger.h:79-92`, with its initial values -/
structure Stage where
  ns : Int := 0
  niter : Int := 0
  lastIter : Int := 0
  ftolv : D := .fin 0
  initLog : D := .fin 0
  lastFsq : D := .fin 0
  lastBeta : D := .fin 0
  lastW : D := .fin 0
  lastRax : D := .fin 0
  lastDelbsq : D := .fin 0
  initSet : Bool := false
  completed : Bool := false
  deriving DecidableEq

/-- the members of `IterationLogger`, `iteration_logger.h:122-131` -/
structure State where
  mode : Mode
  freeb : Bool := false
  cur : Int := -1
  numStages : Int := 0
  stages : List Stage := []
  printed : Nat := 0

/-! ## arithmetic -/

/-- `-a` -/
def dneg : D → D
  | .nan => .nan
  | .ninf => .pinf
  | .pinf => .ninf
  | .fin a => .fin (-a)

/-- `a - b` -/
def dsub (a b : D) : D := D.add a (dneg b)

/-- `a / b`; the sign of a zero divisor is not modelled (it does not occur: the divisor is positive) -/
def ddiv : D → D → D
  | .nan, _ => .nan
  | _, .nan => .nan
  | .fin a, .fin b => if b = 0 then (if a = 0 then .nan else if 0 < a then .pinf else .ninf) else .fin (a / b)
  | .fin _, _ => .fin 0
  | .pinf, .fin b => if 0 ≤ b then .pinf else .ninf
  | .ninf, .fin b => if 0 ≤ b then .ninf else .pinf
  | _, _ => .nan

/-- `std::log10`; `lg` is the logarithm of positive numbers -/
def dlog (lg : ℚ → ℚ) : D → D
  | .nan => .nan
  | .ninf => .nan
  | .pinf => .pinf
  | .fin a => if a < 0 then .nan else if a = 0 then .ninf else .fin (lg a)

variable (lg : ℚ → ℚ)

/-- `fsq_progress` in `ComputeProgress`, `iteration_logger.cc:150-160` -/
def fsqProgress (s : Stage) : D :=
  if s.initSet && D.lt (.fin 0) s.lastFsq then
    if D.lt (dlog lg s.ftolv) s.initLog then
      ddiv (dsub s.initLog (dlog lg s.lastFsq)) (dsub s.initLog (dlog lg s.ftolv))
    else .fin 0
  else .fin 0

/-- `iter_progress` in `ComputeProgress`, `iteration_logger.cc:161-166` -/
def iterProgress (s : Stage) : D :=
  if 0 < s.niter then .fin ((s.lastIter : ℚ) / (s.niter : ℚ)) else .fin 0

/-- `std::max(0.0, std::min(1.0, x))` -/
def clamp01 (x : D) : D := D.stdMax (.fin 0) (D.stdMin (.fin 1) x)

/-- `ComputeProgress`, `iteration_logger.cc:147-171` -/
def computeProgress (s : Stage) : D :=
  if s.completed then .fin 1 else clamp01 (D.stdMax (fsqProgress lg s) (iterProgress s))

/-- `FormatBar`, `iteration_logger.cc:300-315`: the numbers of `=` and of `-`.  The conversion of a
    value that is not finite to `int` is undefined, and so is a negative number of characters
    (it becomes a huge `size_t` and throws). -/
def formatBar (fraction : D) (width : Int) : Outcome (Int × Int) :=
  match clamp01 fraction with
  | .fin q =>
    let filled : Int := if 0 ≤ q * width then ⌊q * width⌋ else ⌈q * width⌉
    if filled < 0 || width - filled < 0 then .throws "length_error" else .ok (filled, width - filled)
  | _ => .ub "conversion to int"

/-! ## output -/

/-- contents of a line -/
inductive Line where
  /-- stage selector: completed, current, number of the stage, of the stages, `ns` -/
  | selector (l : List (Bool × Bool × Int × Int × Int))
  | blank
  /-- bar of a stage that was not started: number and `ns` -/
  | emptyBar (i ns : Int)
  | waiting
  /-- number, `ns`, numbers of filled and of empty characters, fraction -/
  | bar (i ns : Int) (b : Int × Int) (frac : D)
  /-- iteration, residual, beta, energy, axis, and `delbsq` for a free boundary -/
  | metrics (iter : Int) (fsq beta w rax : D) (delbsq : Option D)
  /-- `NS = ..` and the table header -/
  | legacyStage (ns mnmax : Int) (ftolv : D) (niter : Int)
  /-- one row of the table -/
  | legacyRow (iter : Int) (vals : List D)
  | legacyEnd (energy : D)
  deriving DecidableEq

/-- commands to the terminal -/
inductive Out where
  /-- `CursorUp(n)` -/
  | up (n : Nat)
  /-- erase to the end of the line, write, line feed -/
  | line (l : Line)
  /-- carriage return and write without line feed (`RenderSingleLineProgress`) -/
  | inPlace (stage num : Int) (ns : Int) (b : Int × Int) (frac fsq : D)
  | newline
  deriving DecidableEq

/-- line 1 of the display, `iteration_logger.cc:185-203` -/
def selectorFrom (cur num : Int) : Int → List Stage → List (Bool × Bool × Int × Int × Int)
  | _, [] => []
  | i, s :: ss => (s.completed, decide (i = cur), i + 1, num, s.ns) :: selectorFrom cur num (i + 1) ss

/-- block of one stage, `iteration_logger.cc:209-262` -/
def block (freeb : Bool) (i : Int) (s : Stage) : Outcome (List Line) :=
  if !s.initSet && !s.completed then .ok [.emptyBar (i + 1) s.ns, .waiting, .blank]
  else do
    let b ← formatBar (computeProgress lg s) 50
    .ok [.bar (i + 1) s.ns b (computeProgress lg s),
      .metrics s.lastIter s.lastFsq s.lastBeta s.lastW s.lastRax (if freeb then some s.lastDelbsq else none),
      .blank]

/-- the loop over the stages -/
def blocks (freeb : Bool) : Int → List Stage → Outcome (List Line)
  | _, [] => .ok []
  | i, s :: ss => do
    let b ← block lg freeb i s
    let bs ← blocks freeb (i + 1) ss
    .ok (b ++ bs)

/-- the lines of the display -/
def display (st : State) : Outcome (List Line) := do
  let bs ← blocks lg st.freeb 0 st.stages
  .ok (.selector (selectorFrom st.cur st.numStages 0 st.stages) :: .blank :: bs)

/-- `RenderProgressDisplay`, `iteration_logger.cc:177-266` -/
def renderProgress (st : State) : Outcome (State × List Out) := do
  let ls ← display lg st
  .ok ({ st with printed := ls.length },
    (if 0 < st.printed then [.up st.printed] else []) ++ ls.map .line)

/-- `stages_[i]` -/
def stageAt (st : State) (i : Int) : Outcome Stage :=
  if i < 0 then .ub "stages_" else
    match st.stages[i.toNat]? with
    | some s => .ok s
    | none => .ub "stages_"

/-- assignment to members of `stages_[i]`; only used after `stageAt` -/
def setStage (st : State) (i : Int) (s : Stage) : State := { st with stages := st.stages.set i.toNat s }

/-- `RenderSingleLineProgress`, `iteration_logger.cc:268-298` -/
def renderSingle (st : State) : Outcome (State × List Out) :=
  if st.cur < 0 || (st.stages.length : Int) ≤ st.cur then .ok (st, [])
  else do
    let s ← stageAt st st.cur
    let b ← formatBar (computeProgress lg s) 30
    .ok (st, [.inPlace (st.cur + 1) st.numStages s.ns b (computeProgress lg s) s.lastFsq])

/-- `BeginStage`, `iteration_logger.cc:39-69` -/
def beginStage (st : State) (i num ns mnmax : Int) (ftolv : D) (niter : Int) (freeb : Bool) :
    Outcome (State × List Out) :=
  if st.mode = .silent then .ok (st, [])
  else do
    let st : State := { st with cur := i, numStages := num, freeb := freeb }
    let st : State := if (st.stages.length : Int) ≤ i then
        { st with stages := st.stages ++ List.replicate (i.toNat + 1 - st.stages.length) {} }
      else st
    let s ← stageAt st i
    let st := setStage st i { s with ns := ns, niter := niter, ftolv := ftolv, lastIter := 0,
                                     initSet := false, completed := false }
    .ok (st, if st.mode = .legacy then [.line (.legacyStage ns mnmax ftolv niter)] else [])

/-- arguments of `LogIteration` -/
structure Row where
  iter : Int
  fsqr : D
  fsqz : D
  fsql : D
  delt : D
  rax : D
  w : D
  beta : D
  volAvgM : D
  delbsq : D

/-- `LogIteration`, `iteration_logger.cc:71-110` -/
def logIteration (st : State) (r : Row) : Outcome (State × List Out) :=
  if st.mode = .silent then .ok (st, [])
  else if st.mode = .legacy then
    .ok (st, [.line (.legacyRow r.iter ([r.fsqr, r.fsqz, r.fsql, r.delt, r.rax, r.w, r.beta, r.volAvgM] ++
      if st.freeb then [r.delbsq] else []))])
  else if st.cur < 0 || (st.stages.length : Int) ≤ st.cur then .ok (st, [])
  else do
    let s ← stageAt st st.cur
    let total := D.add (D.add r.fsqr r.fsqz) r.fsql
    let s := if !s.initSet && D.lt (.fin 0) total then
        { s with initLog := dlog lg total, initSet := true } else s
    let st := setStage st st.cur { s with lastIter := r.iter, lastFsq := total, lastBeta := r.beta,
                                          lastW := r.w, lastRax := r.rax, lastDelbsq := r.delbsq }
    if st.mode = .progress then renderProgress lg st else renderSingle lg st

/-- `EndStage`, `iteration_logger.cc:112-134` -/
def endStage (st : State) (energy : D) : Outcome (State × List Out) :=
  if st.mode = .silent then .ok (st, [])
  else do
    let st ← if 0 ≤ st.cur && st.cur < (st.stages.length : Int) then do
        let s ← stageAt st st.cur
        .ok (setStage st st.cur { s with completed := true })
      else .ok st
    if st.mode = .legacy then .ok (st, [.line (.legacyEnd energy)])
    else if st.mode = .progress then renderProgress lg st
    else do
      let (st, o) ← renderSingle lg st
      .ok (st, o ++ [.newline])

/-- the calls of `Vmec` (`vmec.cc:346,875,1460`) -/
inductive Call where
  | begin (i num ns mnmax : Int) (ftolv : D) (niter : Int) (freeb : Bool)
  | log (r : Row)
  | done (energy : D)

def call (st : State) : Call → Outcome (State × List Out)
  | .begin i num ns mnmax ftolv niter freeb => beginStage st i num ns mnmax ftolv niter freeb
  | .log r => logIteration lg st r
  | .done e => endStage lg st e

/-- a sequence of calls -/
def runCalls (st : State) : List Call → Outcome (State × List Out)
  | [] => .ok (st, [])
  | c :: cs => do
    let (st, o) ← call lg st c
    let (st, os) ← runCalls st cs
    .ok (st, o ++ os)

end Verif.Logger
