import Verif.Common.Fam
import Verif.Sizes.Model
import Verif.Partition.Model
import Verif.Tridiag.Model
import Mathlib.Data.Real.Basic

/-! # Model of the radial preconditioner for R and Z (`vmec/ideal_mhd_model/ideal_mhd_model.cc:2284-2421`, `2900-3155`)

Exact reals.  The interleaved arrays `ax[j*4+q]`, `bx[j*3+q]`, `axm[j*2+parity]`, ... are families keyed by the entry.  Array bounds are not modelled. -/
namespace Verif.Radial
open Verif

/-- arrays of one thread which do not depend on the coordinate; half-grid arrays start at `nsMinH` -/
structure Fields where
  r12 : Int → ℝ
  totalPressure : Int → ℝ
  tau : Int → ℝ
  bsupv : Int → ℝ
  gsqrt : Int → ℝ
  sqrtSH : Int → ℝ
  sm : Int → ℝ
  sp : Int → ℝ

/-- arguments `xs`, `xu12`, `xu_e`, `xu_o`, `x1_o` of `computePreconditioningMatrix` (2284-2288); the last three start at `nsMinF1` -/
structure Coord where
  xs : Int → ℝ
  xu12 : Int → ℝ
  xu_e : Int → ℝ
  xu_o : Int → ℝ
  x1_o : Int → ℝ

/-- what a thread knows -/
structure PCtx where
  s : Sizes.Sizes
  ns : Int
  deltaS : ℝ
  r : Partition.Ranges
  f : Fields

/-- `ax[4*j+0..3]`, `bx[3*j+0..2]`, `cx[j]` -/
inductive Acc | ax0 | ax1 | ax2 | ax3 | bx0 | bx1 | bx2 | cx
  deriving DecidableEq

/-- the output arrays `m_axm`, `m_axd`, `m_bxm`, `m_bxd` at even (`false`) and odd (`true`) parity, and `m_cxd` -/
inductive Ent | axm (odd : Bool) | axd (odd : Bool) | bxm (odd : Bool) | bxd (odd : Bool) | cxd
  deriving DecidableEq

namespace PCtx
variable (c : PCtx)

/-- body of the loop over grid points, 2304-2361 -/
noncomputable def point (x : Coord) (jH kl : Int) (a : Acc → Int → ℝ) : Acc → Int → ℝ :=
  let iHalf := (jH - c.r.nsMinH) * c.s.nZnT + kl
  let iFull_0 := (jH - c.r.nsMinF1) * c.s.nZnT + kl
  let iFull_1 := (jH + 1 - c.r.nsMinF1) * c.s.nZnT + kl
  let l := kl.tmod c.s.nThetaEff
  let pFactor : ℝ := -4
  let pTau := pFactor * c.f.r12 iHalf * c.f.totalPressure iHalf / c.f.tau iHalf * Sizes.wInt c.s l
  let sH := c.f.sqrtSH (jH - c.r.nsMinH)
  let t1a := x.xu12 iHalf / c.deltaS
  let t2a := 0.25 * (x.xu_e iFull_1 / sH + x.xu_o iFull_1) / sH
  let t3a := 0.25 * (x.xu_e iFull_0 / sH + x.xu_o iFull_0) / sH
  let j := jH - c.r.nsMinH
  let a := addTo a .ax0 j (pTau * t1a * t1a)
  let a := addTo a .ax1 j (pTau * (t1a + t2a) * (-t1a + t3a))
  let a := addTo a .ax2 j (pTau * (t1a + t2a) * (t1a + t2a))
  let a := addTo a .ax3 j (pTau * (-t1a + t3a) * (-t1a + t3a))
  let t1b := 0.5 * (x.xs iHalf + 0.5 / sH * x.x1_o iFull_1)
  let t2b := 0.5 * (x.xs iHalf + 0.5 / sH * x.x1_o iFull_0)
  let a := addTo a .bx0 j (pTau * t1b * t2b)
  let a := addTo a .bx1 j (pTau * t1b * t1b)
  let a := addTo a .bx2 j (pTau * t2b * t2b)
  addTo a .cx j (0.25 * pFactor * c.f.bsupv iHalf * c.f.bsupv iHalf * c.f.gsqrt iHalf * Sizes.wInt c.s l)

/-- 2297-2363: the work arrays are zeroed (the part that is used) and summed up -/
noncomputable def accumulate (x : Coord) : Acc → Int → ℝ :=
  forRange c.r.nsMinH c.r.nsMaxH (fun jH a => forRange 0 c.s.nZnT (fun kl a => c.point x jH kl a) a) fun _ _ => 0

/-- 2370-2381: off-diagonal elements of half-grid point `jH` -/
noncomputable def offDiagonal (a : Acc → Int → ℝ) (jH : Int) (e : Ent → Int → ℝ) : Ent → Int → ℝ :=
  let j := jH - c.r.nsMinH
  let e := put e (.axm false) j (-a .ax0 j)
  let e := put e (.axm true) j (a .ax1 j * c.f.sm j * c.f.sp j)
  let e := put e (.bxm false) j (a .bx0 j)
  put e (.bxm true) j (a .bx0 j * c.f.sm j * c.f.sp j)

/-- 2383-2420: diagonal elements of surface `jF` -/
noncomputable def diagonal (a : Acc → Int → ℝ) (jF : Int) (e : Ent → Int → ℝ) : Ent → Int → ℝ :=
  let jH_i := jF - 1 - c.r.nsMinH
  let jH_o := jF - c.r.nsMinH
  let inner (v : ℝ) : ℝ := if jF > 0 then v else 0
  let outer (v : ℝ) : ℝ := if jF < c.ns - 1 then v else 0
  let j := jF - c.r.nsMinF
  let e := put e (.axd false) j (inner (a .ax0 jH_i) + outer (a .ax0 jH_o))
  let e := put e (.axd true) j (inner (a .ax2 jH_i * c.f.sm jH_i * c.f.sm jH_i) + outer (a .ax3 jH_o * c.f.sp jH_o * c.f.sp jH_o))
  let e := put e (.bxd false) j (inner (a .bx1 jH_i) + outer (a .bx2 jH_o))
  let e := put e (.bxd true) j (inner (a .bx1 jH_i * c.f.sm jH_i * c.f.sm jH_i) + outer (a .bx2 jH_o * c.f.sp jH_o * c.f.sp jH_o))
  put e .cxd j (inner (a .cx jH_i) + outer (a .cx jH_o))

/-- `computePreconditioningMatrix`, 2284-2421; `old` are the previous contents of the output arrays -/
noncomputable def computePreconditioningMatrix (x : Coord) (old : Ent → Int → ℝ) : Ent → Int → ℝ :=
  let a := c.accumulate x
  let e := forRange c.r.nsMinH c.r.nsMaxH (fun jH e => c.offDiagonal a jH e) old
  forRange c.r.nsMinF c.r.nsMaxF (fun jF e => c.diagonal a jF e) e

end PCtx

/-- the elements of the matrices for R and Z: `ar`, `dr`, `br`, `az`, `dz`, `bz` -/
inductive Arr | ar | az | dr | dz | br | bz
  deriving DecidableEq

/-- `this->jMin[mn]` of all modes with poloidal mode number `m`, 2901-2913 -/
def jMinOf (m : Int) : Int := if m > 0 then 1 else 0

/-- `jMax`, 2915-2920 and 3080-3085; `vacuum`: the vacuum pressure state is `kInitialized` or `kActive` -/
def jMaxOf (ns : Int) (lfreeb vacuum : Bool) : Int := if lfreeb && vacuum then ns else ns - 1

namespace PCtx
variable (c : PCtx)

/-- `idx_mn`, 2927 -/
def idx (jF m n : Int) : Int := ((jF - c.r.nsMinF) * c.s.mpol + m) * (c.s.ntor + 1) + n

/-- body of the loops over surfaces and modes, 2924-2971 -/
noncomputable def entry (R Z : Ent → Int → ℝ) (jF m n : Int) (a : Arr → Int → ℝ) : Arr → Int → ℝ :=
  let p : Bool := decide (m.tmod 2 = 1)
  let i := c.idx jF m n
  if jF ≥ jMinOf m then
    let a :=
      if jF < c.r.nsMaxH then
        let j := jF - c.r.nsMinH
        put (put a .ar i (-(R (.axm p) j + R (.bxm p) j * m * m))) .az i (-(Z (.axm p) j + Z (.bxm p) j * m * m))
      else a
    let j := jF - c.r.nsMinF
    let a := put a .dr i (-(R (.axd p) j + R (.bxd p) j * m * m + R .cxd j * n * c.s.nfp * n * c.s.nfp))
    let a := put a .dz i (-(Z (.axd p) j + Z (.bxd p) j * m * m + Z .cxd j * n * c.s.nfp * n * c.s.nfp))
    let a :=
      if jF > 0 then
        let j := jF - 1 - c.r.nsMinH
        put (put a .br i (-(R (.axm p) j + R (.bxm p) j * m * m))) .bz i (-(Z (.axm p) j + Z (.bxm p) j * m * m))
      else a
    if jF = 1 ∧ m = 1 then
      let a := put a .dr i (a .dr i + a .br i)
      put a .dz i (a .dz i + a .bz i)
    else a
  else
    put (put (put (put (put (put a .ar i 0) .az i 0) .dr i 0) .dz i 0) .br i 0) .bz i 0

/-- `dr[idx_mn] *= v; dz[idx_mn] *= v` -/
noncomputable def scaleBoth (i : Int) (v : ℝ) (a : Arr → Int → ℝ) : Arr → Int → ℝ :=
  let a := put a .dr i (a .dr i * v)
  put a .dz i (a .dz i * v)

/-- `edge_pedestal`, 2980 -/
noncomputable def pedestal : ℝ := 0.05

/-- `multFact`, 3009-3010 -/
noncomputable def multFact : ℝ := min 0.25 (0.25 * c.deltaS * 15)

/-- 2976-3017: changes at the boundary, made by the thread with `nsMaxF == ns` -/
noncomputable def edge (a : Arr → Int → ℝ) : Arr → Int → ℝ :=
  if c.r.nsMaxF = c.ns then
    let a := forRange 0 (c.s.ntor + 1) (fun n a =>
      let a := scaleBoth (c.idx (c.ns - 1) 0 n) (1 + pedestal) a
      let a := scaleBoth (c.idx (c.ns - 1) 1 n) (1 + pedestal) a
      forRange 2 c.s.mpol (fun m a => scaleBoth (c.idx (c.ns - 1) m n) (1 + 2 * pedestal) a) a) a
    let idx_00 := (c.ns - 1 - c.r.nsMinF) * c.s.mpol * (c.s.ntor + 1)
    put a .dz idx_00 (a .dz idx_00 * ((1 - c.multFact) / (1 + pedestal)))
  else a

/-- `assembleRZPreconditioner`, 2900-3042; `R`, `Z` are the results of `computePreconditioningMatrix` for R and Z.  (`cxd` is one array in the code; both
calls leave the same values in it.) -/
noncomputable def assemble (lfreeb vacuum : Bool) (R Z : Ent → Int → ℝ) (old : Arr → Int → ℝ) : Arr → Int → ℝ :=
  c.edge (forRange c.r.nsMinF (min c.r.nsMaxF (jMaxOf c.ns lfreeb vacuum)) (fun jF a => forRange 0 c.s.mpol (fun m a =>
    forRange 0 (c.s.ntor + 1) (fun n a => c.entry R Z jF m n a) a) a) old)

end PCtx

/-- R or Z -/
inductive Side | R | Z
  deriving DecidableEq

/-- super-diagonal, diagonal, sub-diagonal of R and Z -/
def Side.sup : Side → Arr
  | .R => .ar | .Z => .az
def Side.diag : Side → Arr
  | .R => .dr | .Z => .dz
def Side.sub : Side → Arr
  | .R => .br | .Z => .bz

/-- what `applyRZPreconditioner` uses of a thread; `f side b` is `cR[b]` or `cZ[b]` (3047-3072: the spans `frcc`, `frss`, `frsc`, `frcs`, `fzsc`, ...) -/
structure Thread where
  r : Partition.Ranges
  mat : Arr → Int → ℝ
  f : Side → Int → Int → ℝ

/-- the arrays of `HandoverStorage`: `all_ar(mn, jF)`, ..., and `all_cr[mn]`, `all_cz[mn]` (flat, row-major) -/
structure Shared where
  mat : Arr → Int → Int → ℝ
  rhs : Side → Int → Int → ℝ

/-- `idx_basis` at the end of 3050-3072 -/
def countBasis (s : Sizes.Sizes) : Int :=
  let i := 1
  let i := if s.lthreed then i + 1 else i
  if s.lasym then
    let i := i + 1
    if s.lthreed then i + 1 else i
  else i

/-- 3088-3103 -/
def gather (s : Sizes.Sizes) (ns : Int) (t : Thread) (h : Shared) : Shared :=
  forRange t.r.nsMinF t.r.nsMaxF (fun jF h => forRange 0 s.mnsize (fun mn h =>
    let i := (jF - t.r.nsMinF) * s.mnsize + mn
    { mat := fun q mn' j => if mn' = mn ∧ j = jF then t.mat q i else h.mat q mn' j
      rhs := forRange 0 s.num_basis (fun b rhs => fun q mn' j => if mn' = mn ∧ j = b * ns + jF then t.f q b i else rhs q mn' j) h.rhs }) h) h

/-- one call of `TridiagonalSolveSerial`, 3128-3137 -/
noncomputable def solveMode (s : Sizes.Sizes) (ns jMax mn : Int) (q : Side) (h : Shared) : Shared :=
  let o := Tridiag.solve ns (jMinOf (mn.tdiv (s.ntor + 1))) jMax s.num_basis ⟨h.mat q.sup mn, h.mat q.diag mn, h.mat q.sub mn, h.rhs q mn⟩
  { mat := fun a mn' => if mn' = mn then (if a = q.sup then o.a else if a = q.diag then o.d else if a = q.sub then o.b else h.mat a mn') else h.mat a mn'
    rhs := fun q' mn' => if q' = q ∧ mn' = mn then o.c else h.rhs q' mn' }

/-- 3108-3138: the modes of thread `t` of `nt` -/
noncomputable def solveModes (s : Sizes.Sizes) (ns jMax nt t : Int) (h : Shared) : Shared :=
  forRange (Partition.splitMin s.mnsize nt t) (Partition.splitMax s.mnsize nt t) (fun mn h =>
    solveMode s ns jMax mn .Z (solveMode s ns jMax mn .R h)) h

/-- 3144-3152 -/
def redistribute (s : Sizes.Sizes) (ns : Int) (h : Shared) (t : Thread) : Thread :=
  { t with f := forRange t.r.nsMinF t.r.nsMaxF (fun jF f => forRange 0 s.mnsize (fun mn f => forRange 0 s.num_basis (fun b f =>
      fun q b' i => if b' = b ∧ i = (jF - t.r.nsMinF) * s.mnsize + mn then h.rhs q mn (b * ns + jF) else f q b' i) f) f) t.f }

/-- `applyRZPreconditioner` by `nt` threads.  Between barriers the threads write disjoint elements; they are run one after another here. -/
noncomputable def applyRZ (s : Sizes.Sizes) (ns : Int) (lfreeb vacuum : Bool) (nt : Int) (T : Int → Thread) (h : Shared) : Int → Thread :=
  let h := forRange 0 nt (fun t h => gather s ns (T t) h) h
  let h := forRange 0 nt (fun t h => solveModes s ns (jMaxOf ns lfreeb vacuum) nt t h) h
  fun t => redistribute s ns h (T t)

end Verif.Radial
