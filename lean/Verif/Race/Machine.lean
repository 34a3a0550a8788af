import Verif.Partition.Props

/-!
# Accesses of a team of OpenMP threads to shared memory

All threads of a parallel region run through the same text.  The text of one run is a word of
accesses and barriers; which branch is taken enters the word (see `Prog`).  A state of the machine
holds the position of every thread.  Threads move at arbitrary speed; a barrier is passed by all
together.  Next to the positions the machine carries the shared memory and, for every read, the
value that was seen.
-/
namespace Verif.Race
open Verif Verif.Partition

/-- How the cells of a shared array are distributed over the threads.
    * `bySurface`: column `jF` with `nsMinF ≤ jF < nsMaxF`, `ideal_mhd_model.cc:3088-3101,3143-3151`;
    * `byMode`: row `mn` with `mnmin ≤ mn < mnmax`, `ideal_mhd_model.cc:3107-3138`;
    * `byPoint`: point `kl` with `ztMin ≤ kl < ztMax`, `nestor.cc:217`;
    * `toNext`, `toPrev`, `mine`: row of the next, the previous and the own thread,
      `vmec.cc:1636-1790`. -/
inductive Scheme where
  | bySurface | byMode | byPoint | toNext | toPrev | mine
  deriving DecidableEq, Repr

/-- Who performs an access.
    * `all`: every thread;
    * `one`: the thread that gets to run an `omp single`;
    * `master`: `omp master`;
    * `lcfs`, `axis`: the thread with `nsMaxF1 == ns`, with `nsMinF1 == 0`;
    * `part k`: every thread, on its own cells;
    * `crit`: every thread, inside `omp critical`;
    * `atomic`: every thread, with `omp atomic`. -/
inductive Who where
  | all | one | master | lcfs | axis | part (k : Scheme) | crit | atomic
  deriving DecidableEq, Repr

/-- One access to the shared variable `var`; a read-modify-write counts as a write. -/
structure Acc (V : Type) where
  var : V
  write : Bool
  who : Who
  deriving Repr

/-- One step of the text: an access, or `omp barrier` (also the implicit one that ends a `single`
    without `nowait`). -/
inductive Op (V : Type) where
  | acc (a : Acc V)
  | barrier
  deriving Repr

/-- The team: number of threads, radial resolution, sizes of the distributed loops, and the thread
    that runs the `single` at a given position of the word (the runtime decides). -/
structure Team where
  n : Nat
  ns : Int
  lfreeb : Bool
  mnsize : Int
  nZnT : Int
  exec : Nat → Fin n

/-- The index ranges of thread `t`. -/
def Team.ranges (T : Team) (t : Fin T.n) : Outcome Ranges :=
  adjustRadialPartitioning T.n (t : Int) T.ns T.lfreeb

/-- What `vmec_adjust_num_threads` and the checks of the input leave over: at least three surfaces
    and two surfaces per thread; `common/util/util.cc:318-336` (C04). -/
structure Team.Admissible (T : Team) : Prop where
  surfaces : 3 ≤ T.ns
  threads : 2 * (T.n : Int) ≤ numSurfacesToDistribute T.ns T.lfreeb
  mnsize : 0 ≤ T.mnsize
  nZnT : 0 ≤ T.nZnT

/-- The cells (row, column) that belong to thread `t` in a distribution. -/
def Team.owns (T : Team) (t : Fin T.n) (c : Int × Int) : Scheme → Prop
  | .bySurface => ∃ r, T.ranges t = .ok r ∧ r.nsMinF ≤ c.2 ∧ c.2 < r.nsMaxF
  | .byMode => splitMin T.mnsize T.n t ≤ c.1 ∧ c.1 < splitMax T.mnsize T.n t
  | .byPoint => splitMin T.nZnT T.n t ≤ c.1 ∧ c.1 < splitMax T.nZnT T.n t
  | .toNext => c.1 = (t : Int) + 1
  | .toPrev => c.1 = (t : Int) - 1
  | .mine => c.1 = (t : Int)

/-- Thread `t` performs the access at position `i` of the word, and touches cell `c`. -/
def Team.touches (T : Team) (i : Nat) (w : Who) (t : Fin T.n) (c : Int × Int) : Prop :=
  match w with
  | .all => True
  | .one => T.exec i = t
  | .master => (t : Nat) = 0
  | .lcfs => ∃ r, T.ranges t = .ok r ∧ r.nsMaxF1 = T.ns
  | .axis => ∃ r, T.ranges t = .ok r ∧ r.nsMinF1 = 0
  | .part k => T.owns t c k
  | .crit => True
  | .atomic => True

/-- Two accesses exclude each other in time: both hold the lock of `omp critical`, or both are
    atomic. -/
def guarded (a b : Who) : Prop := (a = .crit ∧ b = .crit) ∨ (a = .atomic ∧ b = .atomic)

variable {V : Type} [DecidableEq V]

/-- State of the team: positions, shared memory, and what was read at which position by whom. -/
structure St (T : Team) (V Val : Type) where
  pc : Fin T.n → Nat
  mem : V → Int × Int → Val
  seen : Nat → Fin T.n → Option (Int × Int → Val)

/-- One step.
    * `read`: a thread passes a read and records the variable as it is then;
    * `write`: a thread passes a write; cells it touches may change to anything, all others stay;
    * `sync`: all threads stand at the same barrier and leave it together. -/
inductive Step (T : Team) {Val : Type} (w : List (Op V)) : St T V Val → St T V Val → Prop where
  | read (s : St T V Val) (t : Fin T.n) (a : Acc V) (h : w[s.pc t]? = some (.acc a))
      (hr : a.write = false) :
      Step T w s ⟨fun u => if u = t then s.pc t + 1 else s.pc u, s.mem,
        fun i u => if i = s.pc t ∧ u = t then some (s.mem a.var) else s.seen i u⟩
  | write (s : St T V Val) (t : Fin T.n) (a : Acc V) (m' : V → Int × Int → Val)
      (h : w[s.pc t]? = some (.acc a)) (hw : a.write = true)
      (hm : ∀ v c, m' v c ≠ s.mem v c → v = a.var ∧ T.touches (s.pc t) a.who t c) :
      Step T w s ⟨fun u => if u = t then s.pc t + 1 else s.pc u, m', s.seen⟩
  | sync (s : St T V Val) (k : Nat) (h : w[k]? = some .barrier) (ha : ∀ t, s.pc t = k) :
      Step T w s ⟨fun _ => k + 1, s.mem, s.seen⟩

/-- What a team can reach from the beginning of the word. -/
inductive Reach (T : Team) {Val : Type} (w : List (Op V)) : St T V Val → Prop where
  | start (m : V → Int × Int → Val) : Reach T w ⟨fun _ => 0, m, fun _ _ => none⟩
  | step {s s'} (h : Reach T w s) (h' : Step T w s s') : Reach T w s'

/-- A data race (C++17 [intro.races], OpenMP 5.0 1.4.1): two threads can both perform their next
    access, to the same cell, one of them writes, and nothing keeps the accesses apart. -/
def DataRace (T : Team) {Val : Type} (w : List (Op V)) (s : St T V Val) : Prop :=
  ∃ t u : Fin T.n, t ≠ u ∧ ∃ a b : Acc V, w[s.pc t]? = some (.acc a) ∧ w[s.pc u]? = some (.acc b) ∧
    a.var = b.var ∧ (a.write = true ∨ b.write = true) ∧ ¬ guarded a.who b.who ∧
    ∃ c, T.touches (s.pc t) a.who t c ∧ T.touches (s.pc u) b.who u c

/-! ## A static check of words -/

/-- accesses of one kind by different threads never meet -/
def ordered : Who → Bool
  | .all => false
  | .one => false
  | _ => true

/-- an access does not race with itself in another thread -/
def selfOk (a : Acc V) : Bool := !a.write || !(a.who == .all)

/-- two accesses at different positions between the same barriers do not race -/
def compat (a b : Acc V) : Bool :=
  !(a.var == b.var) || (!a.write && !b.write) || (a.who == b.who && ordered a.who)

/-- no two accesses between two barriers can race; `cur` holds the accesses since the last one -/
def Clear (cur : List (Acc V)) : List (Op V) → Prop
  | [] => True
  | .barrier :: w => Clear [] w
  | .acc a :: w => selfOk a = true ∧ (∀ b ∈ cur, compat a b = true) ∧ Clear (a :: cur) w

/-! ## Structured texts -/

/-- A text with branches and loops. -/
inductive Prog (V : Type) where
  | skip
  | op (o : Op V)
  | seq (p q : Prog V)
  | alt (p q : Prog V)
  | star (p : Prog V)

/-- The words of a text: every choice of branches, every number of rounds. -/
inductive Word : Prog V → List (Op V) → Prop where
  | skip : Word .skip []
  | op (o : Op V) : Word (.op o) [o]
  | seq {p q w v} (h : Word p w) (h' : Word q v) : Word (.seq p q) (w ++ v)
  | altL {p q w} (h : Word p w) : Word (.alt p q) w
  | altR {p q w} (h : Word q w) : Word (.alt p q) w
  | done {p} : Word (.star p) []
  | more {p w v} (h : Word p w) (h' : Word (.star p) v) : Word (.star p) (w ++ v)

/-- the accesses since the last barrier, at the end of a word -/
def tailAcc (cur : List (Acc V)) : List (Op V) → List (Acc V)
  | [] => cur
  | .barrier :: w => tailAcc [] w
  | .acc a :: w => tailAcc (a :: cur) w

instance : BEq (Acc V) := ⟨fun a b => a.var == b.var && (a.write == b.write && a.who == b.who)⟩

/-- union of two lists of accesses -/
def join (s r : List (Acc V)) : List (Acc V) := s.filter (fun a => !(r.any fun b => a == b)) ++ r

/-- inclusion of lists of accesses -/
def within (s r : List (Acc V)) : Bool := s.all fun a => r.any fun b => a == b

/-- Check of a text: `none` if two accesses may race, otherwise (at most) the accesses since the
    last barrier.  For a loop the accesses at its head are found by two rounds. -/
def chk : Prog V → List (Acc V) → Option (List (Acc V))
  | .skip, s => some s
  | .op .barrier, _ => some []
  | .op (.acc a), s => if selfOk a && s.all (compat a) then some (join [a] s) else none
  | .seq p q, s => (chk p s).bind (chk q)
  | .alt p q, s => (chk p s).bind fun a => (chk q s).bind fun b => some (join a b)
  | .star p, s =>
    (chk p s).bind fun a => (chk p (join a s)).bind fun b =>
      (chk p (join b (join a s))).bind fun c =>
        if within c (join b (join a s)) then some (join b (join a s)) else none

/-! ## Notation for texts -/

/-- `#pragma omp barrier` -/
def bar : Prog V := .op .barrier

/-- sequence -/
def sq : List (Prog V) → Prog V
  | [] => .skip
  | p :: l => .seq p (sq l)

/-- the accesses `l`, one after the other -/
def accs (who : Who) (write : Bool) (l : List V) : Prog V :=
  sq (l.map fun v => .op (.acc ⟨v, write, who⟩))

/-- every thread reads -/
def rd (l : List V) : Prog V := accs .all false l

/-- `omp single nowait`: reads `r` and writes `w`; what is read and written counts as written -/
def singleNowait (r w : List V) : Prog V :=
  .seq (accs .one false (r.filter fun v => !(w.any fun x => v == x))) (accs .one true w)

/-- `omp single` with the barrier at its end -/
def single (r w : List V) : Prog V := .seq (singleNowait r w) bar

/-- `omp critical { v += ... }` -/
def critical (l : List V) : Prog V := accs .crit true l

/-- `if (...) p` -/
def opt (p : Prog V) : Prog V := .alt p .skip

end Verif.Race
