import Verif.Coeffs.Model
import Verif.Partition.Model
import Verif.Common.Lawful

/-!
# Model of the interpolation between multigrid steps

`cpp/vmecpp/vmec/vmec/vmec.cc:1799-2046` (`InterpolateToNextMultigridStep`) and the scaling of the old
state that precedes it (`:571-588`). Numbers are reals; C++ `int` is `Int` (no overflow of
`jNew * (ns_old - 1)`). The state of all threads is one store indexed by (thread, array name, position);
an access outside an array is `ub`.
-/
namespace Verif.Multigrid
open Verif Verif.Coeffs Verif.Partition

/-- `MultigridInterpolationScheme`, `vmec/vmec/vmec.h:36-44` (the default of the optional is `linear`, `vmec.cc:1919-1920`) -/
inductive Scheme where
  | linear | cubicS | cubicRho
  deriving DecidableEq

/-- resolution, numbers of surfaces and threads and the radial ranges of the threads before and after -/
structure Setup where
  mpol : Int
  ntor : Int
  lasym : Bool
  ns_old : Int
  ns_new : Int
  nt_old : Int
  nt_new : Int
  rOld : Int → Ranges
  rNew : Int → Ranges
  scheme : Scheme

/-- (thread, array, position) -/
abbrev Key := Int × F × Int
abbrev Store := Key → ℝ

/-- `s_.lthreed` -/
def Setup.lthreed (x : Setup) : Bool := decide (0 < x.ntor)

/-- the `FourierCoeffs` of thread `t` on the old grid: `FourierGeometry(&s_, r, ns)` uses
    `nsMinF1`, `nsMaxF1`; `fourier_geometry.cc:15-17` -/
def Setup.ctxOld (x : Setup) (t : Int) : Ctx :=
  ⟨x.mpol, x.ntor, x.lasym, (x.rOld t).nsMinF1, (x.rOld t).nsMaxF1, x.ns_old,
    (x.rOld t).nsMinF1, (x.rOld t).nsMaxF1⟩

def Setup.ctxNew (x : Setup) (t : Int) : Ctx :=
  ⟨x.mpol, x.ntor, x.lasym, (x.rNew t).nsMinF1, (x.rNew t).nsMaxF1, x.ns_new,
    (x.rNew t).nsMinF1, (x.rNew t).nsMaxF1⟩

/-- number of elements of one array of a thread, `fourier_coefficients.cc:17-58`
    (`jMaxIncludingBoundary = nsMax` here because `nsMax = nsMaxF1`) -/
def arraySize (x : Ctx) : Int := (x.nsMax - x.nsMin) * x.mpol * (x.ntor + 1)

/-- read `x[thread]->c[i]` -/
def rd (nt : Int) (ctx : Int → Ctx) (s : Store) (t : Int) (c : F) (i : Int) : Outcome ℝ :=
  if (0 ≤ t ∧ t < nt) ∧ 0 ≤ i ∧ i < arraySize (ctx t) then .ok (s (t, c, i))
  else .ub "state vector index out of bounds"

/-- write `x[thread]->c[i] = v` -/
noncomputable def wr (nt : Int) (ctx : Int → Ctx) (s : Store) (t : Int) (c : F) (i : Int) (v : ℝ) : Outcome Store :=
  if (0 ≤ t ∧ t < nt) ∧ 0 ≤ i ∧ i < arraySize (ctx t) then
    .ok (fun k => if k = (t, c, i) then v else s k)
  else .ub "state vector index out of bounds"

/-- the arrays that are present, 1899-1917 and the groups of assignments 1847-1894, 2022-2043 -/
def members (lthreed lasym : Bool) : List F :=
  [.rcc, .zsc, .lsc] ++ (if lthreed then [.rss, .zcs, .lcs] else []) ++
    (if lasym then [.rsc, .zcc, .lcc] ++ (if lthreed then [.rcs, .zss, .lss] else []) else [])

/-- the loop 1824-1836: the last thread of the old team for which the test holds, 0 if there is none -/
def lastThread (nt : Int) (p : Int → Bool) : Int :=
  forRange 0 nt (fun t acc => if p t then t else acc) 0

/-- `thread_with_ns_<j>`, 1821-1836 -/
def Setup.threadWith (x : Setup) (j : Int) : Int :=
  lastThread x.nt_old (fun t => decide ((x.rOld t).nsMinF ≤ j ∧ j < (x.rOld t).nsMaxFIncludingLcfs))

/-- one assignment of 1853-1893 -/
noncomputable def axisAssign (x : Setup) (m n : Int) (c : F) (s : Store) : Outcome Store := do
  let t0 := x.threadWith 0
  let t1 := x.threadWith 1
  let t2 := x.threadWith 2
  let a ← rd x.nt_old x.ctxOld s t1 c ((x.ctxOld t1).idx 1 m n)
  let b ← rd x.nt_old x.ctxOld s t2 c ((x.ctxOld t2).idx 2 m n)
  wr x.nt_old x.ctxOld s t0 c ((x.ctxOld t0).idx 0 m n) (2 * a - b)

/-- extrapolation of the odd-m coefficients to the axis, 1838-1896 (`m += 2` from `m = 1` is written as
    a loop over all `m` with a test for odd `m`) -/
noncomputable def extrapolateAxis (x : Setup) (s : Store) : Outcome Store :=
  forRangeM 1 x.mpol (fun m s =>
    if m.tmod 2 = 1 then
      forRangeM 0 (x.ntor + 1) (fun n s =>
        (members x.lthreed x.lasym).foldlM (fun s c => axisAssign x m n c s) s) s
    else .ok s) s

/-- stencil and weights, 1931-1969 -/
structure Stencil where
  size : Int
  at_ : Int → Int
  weight : Int → ℝ

/-- `js1`, 1929 -/
def js1 (ns_old ns_new jNew : Int) : Int := (jNew * (ns_old - 1)).tdiv (ns_new - 1)

/-- `base`, 1947 -/
def base (ns_old j1 : Int) : Int := min (max (j1 - 1) 0) (ns_old - 4)

/-- `weight[k]`, 1960-1967 -/
noncomputable def lagrangeWeight (node : Int → ℝ) (target : ℝ) (k : Int) : ℝ :=
  forRange 0 4 (fun l w => if l ≠ k then w * ((target - node l) / (node k - node l)) else w) 1

/-- 1925-1969 -/
noncomputable def stencil (scheme : Scheme) (ns_old ns_new jNew : Int) : Stencil :=
  let hs_old : ℝ := 1 / ((ns_old : ℝ) - 1)
  let sj : ℝ := jNew / ((ns_new : ℝ) - 1)
  let j1 := js1 ns_old ns_new jNew
  let j2 := min (j1 + 1) (ns_old - 1)
  if scheme = .linear ∨ ns_old < 4 then
    let xint := (sj - j1 * hs_old) / hs_old
    let xint := min 1 (max 0 xint)
    ⟨2, fun k => if k = 0 then j1 else j2, fun k => if k = 0 then 1 - xint else xint⟩
  else
    let b := base ns_old j1
    let node : Int → ℝ := fun k =>
      if scheme = .cubicRho then Real.sqrt (((b + k : Int) : ℝ) * hs_old) else ((b + k : Int) : ℝ) * hs_old
    let target := if scheme = .cubicRho then Real.sqrt sj else sj
    ⟨4, fun k => b + k, fun k => lagrangeWeight node target k⟩

/-- `source_thread[k]`, 1971-1981 -/
def Setup.sourceThread (x : Setup) (j : Int) : Int :=
  lastThread x.nt_old (fun t => decide ((x.rOld t).nsMinF1 ≤ j ∧ j < (x.rOld t).nsMaxF1))

/-- the sum over the stencil, 1997-2005 -/
noncomputable def stencilSum (x : Setup) (old : Store) (st : Stencil) (c : F) (m n : Int) : Outcome ℝ :=
  forRangeM 0 st.size (fun k value => do
    let t := x.sourceThread (st.at_ k)
    let v ← rd x.nt_old x.ctxOld old t c ((x.ctxOld t).idx (st.at_ k) m n)
    .ok (value + st.weight k * v)) 0

/-- body for one member, 1997-2006 -/
noncomputable def interpAssign (x : Setup) (old : Store) (t jNew m n : Int) (c : F) (s : Store) :
    Outcome Store := do
  let m_parity := m.tmod 2
  let sc := scalxc (x.ctxNew t) ((jNew - (x.rNew t).nsMinF1) * 2 + m_parity)
  let value ← stencilSum x old (stencil x.scheme x.ns_old x.ns_new jNew) c m n
  wr x.nt_new x.ctxNew s t c ((x.ctxNew t).idx jNew m n) (value / sc)

/-- 1922-2010 -/
noncomputable def interpolate (x : Setup) (old s : Store) : Outcome Store :=
  forRangeM 0 x.nt_new (fun t s =>
    forRangeM (x.rNew t).nsMinF1 (x.rNew t).nsMaxF1 (fun jNew s =>
      forRangeM 0 x.mpol (fun m s =>
        forRangeM 0 (x.ntor + 1) (fun n s =>
          (members x.lthreed x.lasym).foldlM (fun s c => interpAssign x old t jNew m n c s) s) s) s) s) s

/-- one assignment of 2024-2042: the position is computed with `nsMin()` of the *old* array of the
    thread `thread_with_ns_0` of the *old* team, and used for the new array with the same thread number -/
noncomputable def zeroAssign (x : Setup) (m n : Int) (c : F) (s : Store) : Outcome Store :=
  let t0 := x.threadWith 0
  wr x.nt_new x.ctxNew s t0 c ((x.ctxOld t0).idx 0 m n) 0

/-- zero the odd-m coefficients on the axis, 2012-2045 -/
noncomputable def zeroAxis (x : Setup) (s : Store) : Outcome Store :=
  forRangeM 1 x.mpol (fun m s =>
    if m.tmod 2 = 1 then
      forRangeM 0 (x.ntor + 1) (fun n s =>
        (members x.lthreed x.lasym).foldlM (fun s c => zeroAssign x m n c s) s) s
    else .ok s) s

/-- `InterpolateToNextMultigridStep`, 1799-2046; returns the new state -/
noncomputable def interpolateToNextMultigridStep (x : Setup) (xOld xNew : Store) : Outcome Store := do
  let old ← extrapolateAxis x xOld
  let s ← interpolate x old xNew
  zeroAxis x s

/-- `old_xc_scaled_` of all threads, `vmec.cc:577-587`: `decomposeInto` of the coefficients of the
    thread, starting from whatever the freshly constructed arrays hold (`fresh`) -/
noncomputable def scaledOld (x : Setup) (dec fresh : Store) : Store := fun k =>
  decomposeInto (x.ctxOld k.1) (scalxc (x.ctxOld k.1)) (fun c i => dec (k.1, c, i)) (fun c i => fresh (k.1, c, i))
    k.2.1 k.2.2

/-- the part of `InitializeRadial` that carries the coarse solution over, `vmec.cc:577-587` and `:741-744`:
    `dec` is the converged coarse state, `init` the state set up from boundary and axis -/
noncomputable def nextStep (x : Setup) (dec fresh init : Store) : Outcome Store :=
  interpolateToNextMultigridStep x (scaledOld x dec fresh) init

end Verif.Multigrid
