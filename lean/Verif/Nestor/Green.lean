import Verif.Common.Fam
import Verif.Sizes.Model
import Mathlib.Analysis.SpecialFunctions.Trigonometric.Bounds
import Mathlib.Analysis.SpecialFunctions.Trigonometric.Deriv

/-!
# Model of `RegularizedIntegrals`, `free_boundary/regularized_integrals/regularized_integrals.cc`

Exact real numbers. The buffers of one row (`ga1_buf`, `ga2_buf`, `ftemp_buf`, `htemp_buf`), which are written before they are
read in the same row, are values computed for the point; `gsave`, `dsave`, written before they are read for the same `klp`,
likewise. Array bounds are not modelled here.
-/
namespace Verif.Nestor
open Verif

/-- what is read from `SurfaceGeometry`: arrays over the whole grid first, then arrays of the thread -/
structure Surf where
  rcosuv : Int → ℝ
  rsinuv : Int → ℝ
  r1b : Int → ℝ
  z1b : Int → ℝ
  rzb2 : Int → ℝ
  cos_per : Int → ℝ
  sin_per : Int → ℝ
  snr : Int → ℝ
  snv : Int → ℝ
  snz : Int → ℝ
  drv : Int → ℝ
  guu : Int → ℝ
  guv : Int → ℝ
  gvv : Int → ℝ
  auu : Int → ℝ
  auv : Int → ℝ
  avv : Int → ℝ

inductive GOut | greenp | gstore
  deriving DecidableEq
abbrev GArr := GOut → Int → ℝ

structure GCtx where
  s : Sizes.Sizes
  ztMin : Int
  ztMax : Int
  sg : Surf
  bDotN : Int → ℝ

/-- one element of `tanu`, `tanv`, `tanv_per_`, `regularized_integrals.cc:36-76`; `x` is the argument of the tangent -/
noncomputable def tanEntry (x : ℝ) : ℝ := if |x - 0.5 * Real.pi| < 1e-15 then 1e50 else 2 * Real.tan x

namespace GCtx
variable (c : GCtx)

noncomputable def tanu (l : Int) : ℝ := tanEntry (Real.pi / c.s.nThetaEven * l)
noncomputable def tanv (k : Int) : ℝ := tanEntry (Real.pi / c.s.nZeta * k)
/-- `kAxisymmetricToroidalImages`, `regularized_integrals.h` -/
def images : Int := 64
noncomputable def tanvPer (p : Int) : ℝ := tanEntry (Real.pi * p / images)

/-- `theta_by_nzeta`, `regularized_integrals.cc:87` -/
def thetaByZeta : Int := c.s.nThetaEven * c.s.nZeta

/-- a form in the two tangents, `regularized_integrals.cc:149-159` -/
def form (a b d tu tv : ℝ) : ℝ := a * tu * tu + b * tu * tv + d * tv * tv

/-- rotated position of the source point, `regularized_integrals.cc:116-117`, 199-200 and 266-267 -/
def xper (cp sp : ℝ) (klp : Int) : ℝ := c.sg.rcosuv klp * cp - c.sg.rsinuv klp * sp
def yper (cp sp : ℝ) (klp : Int) : ℝ := c.sg.rcosuv klp * sp + c.sg.rsinuv klp * cp
/-- rotated normal vector, `regularized_integrals.cc:119-124`, 201-206 and 269-272 -/
noncomputable def sxsave (cp sp : ℝ) (klp : Int) : ℝ :=
  (c.sg.snr (klp - c.ztMin) * c.xper cp sp klp - c.sg.snv (klp - c.ztMin) * c.yper cp sp klp) / c.sg.r1b klp
noncomputable def sysave (cp sp : ℝ) (klp : Int) : ℝ :=
  (c.sg.snr (klp - c.ztMin) * c.yper cp sp klp + c.sg.snv (klp - c.ztMin) * c.xper cp sp klp) / c.sg.r1b klp

/-- `regularized_integrals.cc:126-128` -/
def gsave (klp kl : Int) : ℝ := c.sg.rzb2 klp + c.sg.rzb2 kl - 2 * c.sg.z1b kl * c.sg.z1b klp
/-- `regularized_integrals.cc:130-133` -/
def dsave (klp kl : Int) : ℝ := c.sg.drv (klp - c.ztMin) + c.sg.z1b kl * c.sg.snz (klp - c.ztMin)

/-- `ftemp`, `regularized_integrals.cc:168-171`, 209-212 and 294-297 -/
noncomputable def ftemp (cp sp : ℝ) (klp kl : Int) : ℝ :=
  1 / (c.gsave klp kl - 2 * (c.xper cp sp klp * c.sg.rcosuv kl + c.yper cp sp klp * c.sg.rsinuv kl))
/-- `sg_.rcosuv[kl] * sxsave + sg_.rsinuv[kl] * sysave + dsave[kl]` -/
noncomputable def numer (cp sp : ℝ) (klp kl : Int) : ℝ :=
  c.sg.rcosuv kl * c.sxsave cp sp klp + c.sg.rsinuv kl * c.sysave cp sp klp + c.dsave klp kl

/-- `ga1` before the square root, `ga2` before the division -/
def ga1Form (klp : Int) (tu tv : ℝ) : ℝ :=
  form (c.sg.guu (klp - c.ztMin)) (c.sg.guv (klp - c.ztMin)) (c.sg.gvv (klp - c.ztMin)) tu tv
def ga2Form (klp : Int) (tu tv : ℝ) : ℝ :=
  form (c.sg.auu (klp - c.ztMin)) (c.sg.auv (klp - c.ztMin)) (c.sg.avv (klp - c.ztMin)) tu tv

/-- body of the loops over the points of the first field period, `regularized_integrals.cc:147-188` -/
noncomputable def near (meas bexni : ℝ) (klp l k kl : Int) (a : GArr) : GArr :=
  let lp := klp.tdiv c.s.nZeta
  let kp := klp.tmod c.s.nZeta
  let delta_l := (l - lp + c.s.nThetaEven).tmod c.s.nThetaEven
  let delta_k := (k - kp + c.s.nZeta).tmod c.s.nZeta
  let ga1 := c.ga1Form klp (c.tanu delta_l) (c.tanv delta_k)
  let ga2 := c.ga2Form klp (c.tanu delta_l) (c.tanv delta_k)
  let ga2 := ga2 / ga1
  let ga1 := 1 / Real.sqrt ga1
  let cp := c.sg.cos_per 0
  let sp := c.sg.sin_per 0
  let f := c.ftemp cp sp klp kl
  let h := Real.sqrt f
  let a := addTo a .greenp ((klp - c.ztMin) * c.thetaByZeta + kl) (meas * (h * f * c.numer cp sp klp kl - ga1 * ga2))
  addTo a .gstore kl (bexni * (meas * (h - ga1)))

/-- `k_end`, `regularized_integrals.cc:145` -/
def kEnd (kl klEnd : Int) : Int := min c.s.nZeta (klEnd - kl.tdiv c.s.nZeta * c.s.nZeta)

/-- the lambda `do_loop`, `regularized_integrals.cc:135-190`: one pass does the rest of a row of points with the same `l` -/
noncomputable def doLoop (meas bexni : ℝ) (klp kl klEnd : Int) (a : GArr) : GArr :=
  if h : kl < klEnd ∧ kl.tmod c.s.nZeta < c.kEnd kl klEnd then
    doLoop meas bexni klp (kl + (c.kEnd kl klEnd - kl.tmod c.s.nZeta)) klEnd
      (forRange (kl.tmod c.s.nZeta) (c.kEnd kl klEnd) (fun k a =>
        c.near meas bexni klp (kl.tdiv c.s.nZeta) k (kl + (k - kl.tmod c.s.nZeta)) a) a)
  else a
termination_by (klEnd - kl).toNat
decreasing_by omega

/-- body of the loop over the points of the other field periods, `regularized_integrals.cc:208-221` -/
noncomputable def far (meas bexni : ℝ) (p klp kl : Int) (a : GArr) : GArr :=
  let f := c.ftemp (c.sg.cos_per p) (c.sg.sin_per p) klp kl
  let h := Real.sqrt f
  let a := addTo a .greenp ((klp - c.ztMin) * c.thetaByZeta + kl) (meas * h * f * c.numer (c.sg.cos_per p) (c.sg.sin_per p) klp kl)
  addTo a .gstore kl (bexni * (meas * h))

/-- one source point, `regularized_integrals.cc:99-223` -/
noncomputable def source (klp : Int) (a : GArr) : GArr :=
  let meas := 2 * Real.pi / c.s.nfp
  let bexni := c.bDotN (klp - c.ztMin) * Sizes.wInt c.s (klp.tdiv c.s.nZeta)
  let a := c.doLoop meas bexni klp 0 klp a
  let a := c.doLoop meas bexni klp (klp + 1) c.thetaByZeta a
  forRange 1 c.s.nfp (fun p a => forRange 0 c.thetaByZeta (fun kl a => c.far meas bexni p klp kl a) a) a

/-- body of the innermost loop of `updateAxisymmetric`, `regularized_integrals.cc:276-306` -/
noncomputable def axiPoint (meas bexni : ℝ) (klp p kl : Int) (a : GArr) : GArr :=
  if p = 0 ∧ kl = klp then a
  else
    let cp := Real.cos (meas * p)
    let sp := Real.sin (meas * p)
    let delta_l := (kl - klp + c.s.nThetaEven).tmod c.s.nThetaEven
    let ga1 := c.ga1Form klp (c.tanu delta_l) (tanvPer p)
    let ga2 := c.ga2Form klp (c.tanu delta_l) (tanvPer p)
    let ga2 := ga2 / ga1
    let ga1 := 1 / Real.sqrt ga1
    let f := c.ftemp cp sp klp kl
    let h := Real.sqrt f
    let a := addTo a .greenp ((klp - c.ztMin) * c.s.nThetaEven + kl) (meas * (h * f * c.numer cp sp klp kl - ga1 * ga2))
    addTo a .gstore kl (bexni * meas * (h - ga1))

/-- `updateAxisymmetric`, `regularized_integrals.cc:226-308` -/
noncomputable def updateAxi : GArr :=
  let meas := 2 * Real.pi / images
  forRange c.ztMin c.ztMax (fun klp a =>
    let bexni := c.bDotN (klp - c.ztMin) * Sizes.wInt c.s klp
    forRange 0 images (fun p a => forRange 0 c.s.nThetaEven (fun kl a => c.axiPoint meas bexni klp p kl a) a) a) fun _ _ => 0

/-- `update`, `regularized_integrals.cc:78-224` -/
noncomputable def update : GArr :=
  if c.s.nZeta = 1 then c.updateAxi else forRange c.ztMin c.ztMax c.source fun _ _ => 0

end GCtx
end Verif.Nestor
