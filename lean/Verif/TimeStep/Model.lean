import Verif.Coeffs.Model
import Verif.Multigrid.Model
import Verif.Common.Interleave

/-!
# Model of the time step and of the exchange of ghost surfaces

`cpp/vmecpp/vmec/vmec/vmec.cc:1519-1797` (`performTimeStep`). The memory of the whole team is one store. The
part of a thread before the barrier (line 1721) and the part after it are lists of assignments, in program
order; a team execution is any interleaving of the first parts followed by any interleaving of the second
parts. Numbers are reals.
-/
namespace Verif.TimeStep
open Verif Verif.Coeffs Verif.Partition

/-- coefficients, velocities, forces (one object per thread) and the handover arrays `..._o`, `..._i` -/
inductive Arr where
  | x | v | f | ho | hi
  deriving DecidableEq

/-- (kind of array, thread, array, position); for the handover arrays the thread is the row -/
abbrev Key := Arr × Int × F × Int
abbrev Mem := Key → ℝ

structure Setup where
  mpol : Int
  ntor : Int
  lasym : Bool
  ns : Int
  nt : Int
  R : Int → Ranges
  velocity_scale : ℝ
  conjugation_parameter : ℝ
  time_step : ℝ

variable (q : Setup)

/-- `s.lthreed` -/
def Setup.lthreed : Bool := decide (0 < q.ntor)

/-- `s.mnsize`, `common/sizes/sizes.cc:140` -/
def Setup.mnsize : Int := q.mpol * (q.ntor + 1)

/-- length of the arrays of an object constructed with `nsMin`, `nsMax`, `fourier_coefficients.cc:17-26` -/
def Setup.len (t nsMin nsMax : Int) : Int :=
  let jMaxIncludingBoundary := if (q.R t).nsMaxF1 = q.ns then q.ns else nsMax
  (jMaxIncludingBoundary - nsMin) * q.mpol * (q.ntor + 1)

/-- does the position exist? `FourierGeometry` is constructed with `nsMinF1, nsMaxF1`, `FourierVelocity` and
    `FourierForces` with `nsMinF, nsMaxF`; the handover arrays are `[num_threads x mnsize]`
    (`handover_storage.cc:70-128`) -/
def Setup.exists? (a : Arr) (t i : Int) : Bool :=
  decide (0 ≤ t ∧ t < q.nt) && decide (0 ≤ i) && match a with
    | .x => decide (i < q.len t (q.R t).nsMinF1 (q.R t).nsMaxF1)
    | .v => decide (i < q.len t (q.R t).nsMinF (q.R t).nsMaxF)
    | .f => decide (i < q.len t (q.R t).nsMinF (q.R t).nsMaxF)
    | .ho => decide (i < q.mnsize)
    | .hi => decide (i < q.mnsize)

/-- `idx_mn`, 1537 -/
def Setup.idx_mn (t jF m n : Int) : Int := ((jF - (q.R t).nsMinF) * q.mpol + m) * (q.ntor + 1) + n

/-- `idx_mn1`, 1538 -/
def Setup.idx_mn1 (t jF m n : Int) : Int := ((jF - (q.R t).nsMinF1) * q.mpol + m) * (q.ntor + 1) + n

/-- update of one velocity component, 1541-1592 -/
noncomputable def vAsg (t jF m n : Int) (c : F) : Asg Key ℝ where
  ok := q.exists? .v t (q.idx_mn t jF m n) && q.exists? .f t (q.idx_mn t jF m n)
  key := (.v, t, c, q.idx_mn t jF m n)
  val := fun s => q.velocity_scale * (q.conjugation_parameter * s (.v, t, c, q.idx_mn t jF m n) +
    q.time_step * s (.f, t, c, q.idx_mn t jF m n))

/-- update of one coefficient, 1596-1625 -/
noncomputable def xAsg (t jF m n : Int) (c : F) : Asg Key ℝ where
  ok := q.exists? .x t (q.idx_mn1 t jF m n) && q.exists? .v t (q.idx_mn t jF m n)
  key := (.x, t, c, q.idx_mn1 t jF m n)
  val := fun s => s (.x, t, c, q.idx_mn1 t jF m n) + q.time_step * s (.v, t, c, q.idx_mn t jF m n)

/-- the arrays that are present, in the order of the assignments 1541-1592 and 1596-1625 -/
def Setup.members : List F := Multigrid.members q.lthreed q.lasym

/-- body of the loops, 1537-1625 -/
noncomputable def cellProg (t : Int) (p : Int × Int × Int) : List (Asg Key ℝ) :=
  q.members.map (vAsg q t p.1 p.2.1 p.2.2) ++ q.members.map (xAsg q t p.1 p.2.1 p.2.2)

/-- the three nested loops, 1534-1536 -/
def cells (t : Int) : List (Int × Int × Int) :=
  (irange (q.R t).nsMinF (q.R t).nsMaxFIncludingLcfs).flatMap fun jF =>
    (irange 0 q.mpol).flatMap fun m => (irange 0 (q.ntor + 1)).map fun n => (jF, m, n)

/-- the time-step loop, 1534-1628 -/
noncomputable def timeLoop (t : Int) : List (Asg Key ℝ) := (cells q t).flatMap (cellProg q t)

/-- `hasInside`, 1632 -/
def hasInside (t : Int) : Bool := decide ((q.R t).nsMinF1 > 0)

/-- `hasOutside`, 1633 -/
def hasOutside (t : Int) : Bool := decide ((q.R t).nsMaxF1 < q.ns)

/-- the groups of arrays that are copied in one loop, e.g. 1640-1676 -/
def Setup.groups : List (List F) :=
  [[.rcc, .zsc, .lsc]] ++ (if q.lthreed then [[.rss, .zcs, .lcs]] else []) ++
    (if q.lasym then [[.rsc, .zcc, .lcc]] ++ (if q.lthreed then [[.rcs, .zss, .lss]] else []) else [])

/-- a block of copy loops: for every present array and every `mn`, `dst(dt, doff + mn) = src(st, soff + mn)` -/
def copyProg (dst src : Arr) (dt st doff soff : Int) : List (Asg Key ℝ) :=
  q.groups.flatMap fun g => (irange 0 q.mnsize).flatMap fun mn => g.map fun c =>
    { ok := q.exists? dst dt (doff + mn) && q.exists? src st (soff + mn)
      key := (dst, dt, c, doff + mn)
      val := fun s => s (src, st, c, soff + mn) }

/-- the part before the barrier, 1534-1719 -/
noncomputable def phase1 (t : Int) : List (Asg Key ℝ) :=
  timeLoop q t ++
    (if hasInside q t then copyProg q .ho .x (t - 1) t 0 (((q.R t).nsMinF - (q.R t).nsMinF1) * q.mnsize) else []) ++
    (if hasOutside q t then
      copyProg q .hi .x (t + 1) t 0 (((q.R t).nsMaxF - 1 - (q.R t).nsMinF1) * q.mnsize) else [])

/-- the part after the barrier, 1725-1794 -/
noncomputable def phase2 (t : Int) : List (Asg Key ℝ) :=
  (if hasOutside q t then
      copyProg q .x .ho t t (((q.R t).nsMaxF1 - 1 - (q.R t).nsMinF1) * q.mnsize) 0 else []) ++
    (if hasInside q t then copyProg q .x .hi t t (((q.R t).nsMinF1 - (q.R t).nsMinF1) * q.mnsize) 0 else [])

/-- the programs of the team: thread numbers outside `0 … nt-1` do not exist -/
noncomputable def team (p : Int → List (Asg Key ℝ)) (t : Int) : List (Asg Key ℝ) :=
  if 0 ≤ t ∧ t < q.nt then p t else []

/-- One execution of `PerformTimeStep` by the team: the barriers at 1502, 1721 and 1796 separate it from what
    comes before and after and its two parts from each other. `o` is the outcome. -/
def Executes (s : Mem) (o : Outcome Mem) : Prop :=
  ∃ l1 l2, Asg.Inter (team q (phase1 q)) l1 ∧ Asg.Inter (team q (phase2 q)) l2 ∧
    o = (do let s1 ← Asg.run l1 s; Asg.run l2 s1)

end Verif.TimeStep
