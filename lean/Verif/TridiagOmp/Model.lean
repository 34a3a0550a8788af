import Verif.Common.Loop
import Mathlib.Algebra.Field.Basic

/-!
# Model of `TridiagonalSolveOpenMP`, `common/util/util.cc:105-316`

Two layers. The first is the locking protocol: every thread executes the same list of
instructions (take and release mutexes, wait at barriers, run the head, the forward section and the
backward section), the threads are interleaved arbitrarily, and the three sections are steps on an
abstract memory. The second layer is the content of the sections.

Simplifications: the barrier at the entry (`util.cc:116-118`) is the initial state, in which every
thread has arrived; a section is one step of the interleaving (no other thread can be in a
section at the same time, which is proved); the compiler and the memory model respect mutexes and
barriers. `-fopenmp` is on (without it there is one thread and no barrier).
-/
namespace Verif.TridiagOmp
open Verif

/-! ## The locking protocol -/

/-- state of all threads: the next instruction of each, the owner of each mutex, the memory -/
structure Sys (Δ : Type) where
  pc : ℕ → ℕ
  own : ℕ → Option ℕ
  mem : Δ

/-- outcome of an attempt of one thread to go on; locking a `std::mutex` twice and unlocking one
    that is not owned are undefined behaviour -/
inductive Res (Δ : Type) where
  | blocked
  | ub
  | go (s : Sys Δ)

variable {Δ : Type}

/-- function update -/
def set {α : Type} (f : ℕ → α) (i : ℕ) (v : α) : ℕ → α := fun j => if j = i then v else f j

/-- go to the next instruction -/
def adv (t : ℕ) (s : Sys Δ) : Sys Δ := { s with pc := set s.pc t (s.pc t + 1) }

/-- `m_mutices[m].lock()` -/
def lock (m t : ℕ) (s : Sys Δ) : Res Δ :=
  match s.own m with
  | none => .go { adv t s with own := set s.own m (some t) }
  | some u => if u = t then .ub else .blocked

/-- `m_mutices[m].unlock()` -/
def unlock (m t : ℕ) (s : Sys Δ) : Res Δ :=
  if s.own m = some t then .go { adv t s with own := set s.own m none } else .ub

/-- `#pragma omp barrier`: every thread has arrived at this instruction -/
def barrier (n t : ℕ) (s : Sys Δ) : Res Δ :=
  if ∀ u < n, s.pc t ≤ s.pc u then .go (adv t s) else .blocked

/-- a section of the program that works on the memory -/
def work (t : ℕ) (f : Δ → Δ) (s : Sys Δ) : Res Δ := .go { adv t s with mem := f s.mem }

/-- the sections of the program -/
structure Sections (Δ : Type) where
  head : Δ → Δ
  fwd : ℕ → Δ → Δ
  bwd : ℕ → Δ → Δ

/-- thread `t` of `n` tries to execute its next instruction, `util.cc:120-316` -/
def step (P : Sections Δ) (n t : ℕ) (s : Sys Δ) : Res Δ :=
  match s.pc t with
  | 0 => if t = 0 then work t P.head s else .go (adv t s)               -- :120-163
  | 1 => if t + 1 < n then lock (t + 1) t s else .go (adv t s)          -- :165-168
  | 2 => barrier n t s                                                  -- :170-172
  | 3 => lock t t s                                                     -- :176
  | 4 => work t (P.fwd t) s                                             -- :178-240
  | 5 => unlock t t s                                                   -- :243
  | 6 => if t + 1 < n then unlock (t + 1) t s else .go (adv t s)        -- :245-248
  | 7 => if 0 < t then lock (t - 1) t s else .go (adv t s)              -- :250-253
  | 8 => barrier n t s                                                  -- :255-257
  | 9 => lock t t s                                                     -- :259
  | 10 => work t (P.bwd t) s                                            -- :261-303
  | 11 => unlock t t s                                                  -- :306
  | 12 => if 0 < t then unlock (t - 1) t s else .go (adv t s)           -- :308-311
  | 13 => barrier n t s                                                 -- :313-315
  | _ => .blocked                                                       -- returned

/-- all threads at the beginning, all mutexes free -/
def start (d : Δ) : Sys Δ := { pc := fun _ => 0, own := fun _ => none, mem := d }

/-- the states that occur in some interleaving of `n` threads -/
inductive Reach (P : Sections Δ) (n : ℕ) (d : Δ) : Sys Δ → Prop where
  | init : Reach P n d (start d)
  | next (s s' : Sys Δ) (t : ℕ) : Reach P n d s → t < n → step P n t s = .go s' → Reach P n d s'

/-! ## The sections -/

variable {K : Type} [Field K]

/-- The memory of one mode `mn` and one of the components R and Z: the arrays of all threads
    joined (thread `t` touches only rows `nsMinF ≤ j < nsMaxF` of its own arrays; the flat index
    `(j - nsMinF) * mnmax + mn` is written as `(mn, j)`), and the handover storage that all threads
    share. `c k j` is right-hand side `k`. -/
structure Arr (K : Type) where
  a : Int → K
  d : Int → K
  b : Int → K
  c : Int → Int → K
  ha : K
  hc : Int → K

/-- update of `c[k]` -/
def updc (c : Int → Int → K) (k j : Int) (v : K) : Int → Int → K := upd c k (upd (c k) j v)

/-- `for (mn = 0; mn < mnmax; ++mn)`: every iteration works on its own mode -/
def modes {S : Type} (mnmax : Int) (f : Int → S → S) (s : Int → S) : Int → S :=
  forRange 0 mnmax (fun mn s => upd s mn (f mn (s mn))) s

/-- `util.cc:123-148`, one row and mode: neutral rows below `jMin` -/
def fillRow (jMin nRHS j : Int) (s : Arr K) : Arr K :=
  if j < jMin then
    { s with
      a := upd s.a j 0
      d := upd s.d j 1
      b := upd s.b j 0
      c := forRange 0 nRHS (fun k c => updc c k j 0) s.c }
  else s

/-- `util.cc:152-161`, one mode -/
def divFirst (jMin nRHS : Int) (s : Arr K) : Arr K :=
  { s with
    a := upd s.a jMin (s.a jMin / s.d jMin)
    c := forRange 0 nRHS (fun k c => updc c k jMin (c k jMin / s.d jMin)) s.c }

/-- `util.cc:120-162`, the part of rank 0, which ends at row `nsMaxF`. (The loops over the rows for
    the matrix and for the right-hand sides, `:123-136` and `:137-148`, are joined: they write
    different arrays.) -/
def head (jMin : Int → Int) (mnmax nRHS nsMaxF : Int) (s : Int → Arr K) : Int → Arr K :=
  modes mnmax (fun mn => divFirst (jMin mn) nRHS)
    (forRange 0 nsMaxF (fun j s => modes mnmax (fun mn => fillRow (jMin mn) nRHS j) s) s)

/-- `util.cc:180-238`, one row and mode of the forward section -/
def fwdRow (jMin jMax nRHS nsMinF nsMaxF j : Int) (s : Arr K) : Arr K :=
  if j < jMin + 1 then s
  else
    let pa := if j = nsMinF then s.ha else s.a (j - 1)
    let pc := fun (c : Int → Int → K) (k : Int) => if j = nsMinF then s.hc k else c k (j - 1)
    let den := s.d j - pa * s.b j
    let a := if j < jMax - 1 then upd s.a j (s.a j / den) else s.a
    let c := forRange 0 nRHS (fun k c => updc c k j ((c k j - pc c k * s.b j) / den)) s.c
    let ha := if j = nsMaxF - 1 then a j else s.ha
    let hc := if j = nsMaxF - 1 then forRange 0 nRHS (fun k hc => upd hc k (c k j)) s.hc else s.hc
    { s with a := a, c := c, ha := ha, hc := hc }

/-- `util.cc:178-240` -/
def forward (jMin : Int → Int) (jMax mnmax nRHS nsMinF nsMaxF : Int) (s : Int → Arr K) : Int → Arr K :=
  forRange nsMinF (min jMax nsMaxF) (fun j s =>
    modes mnmax (fun mn => fwdRow (jMin mn) jMax nRHS nsMinF nsMaxF j) s) s

/-- `util.cc:263-301`, one row and mode of the backward section -/
def bwdRow (jMin nRHS nsMinF nsMaxF j : Int) (s : Arr K) : Arr K :=
  if j < jMin then s
  else
    let pc := fun (c : Int → Int → K) (k : Int) => if j = nsMaxF - 1 then s.hc k else c k (j + 1)
    let c := forRange 0 nRHS (fun k c => updc c k j (c k j - s.a j * pc c k)) s.c
    let hc := if j = nsMinF then forRange 0 nRHS (fun k hc => upd hc k (c k j)) s.hc else s.hc
    { s with c := c, hc := hc }

/-- `util.cc:261-303` -/
def backward (jMin : Int → Int) (jMax mnmax nRHS nsMinF nsMaxF : Int) (s : Int → Arr K) : Int → Arr K :=
  forRangeRev nsMinF (min (jMax - 2) (nsMaxF - 1) + 1) (fun j s =>
    modes mnmax (fun mn => bwdRow (jMin mn) nRHS nsMinF nsMaxF j) s) s

/-- the program for the surfaces `lim t ≤ j < lim (t + 1)` of thread `t` -/
def sections (jMin : Int → Int) (jMax mnmax nRHS : Int) (lim : ℕ → Int) : Sections (Int → Arr K) where
  head := head jMin mnmax nRHS (lim 1)
  fwd := fun t => forward jMin jMax mnmax nRHS (lim t) (lim (t + 1))
  bwd := fun t => backward jMin jMax mnmax nRHS (lim t) (lim (t + 1))

end Verif.TridiagOmp
