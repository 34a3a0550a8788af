import Verif.Common.Mem
import Verif.Partition.Model
import Mathlib.Analysis.SpecialFunctions.Pow.Real

/-!
# Model of the real-space kernels of the force evaluation

`vmec/ideal_mhd_model/{jacobian,metric,bcontra,bco,pressure,lambda_force,mhdforce,constraint_force}_kernel.h` and the
functions of `ideal_mhd_model.cc` that call them, as one thread executes them on its arrays.

Simplifications: reals instead of doubles; arrays of the same length and index are kept as one array of records
(`Geo`: the full-grid geometry `r1_e`, ... of length `nZnT * (nsMaxF1 - nsMinF1)`, `Half`: the half-grid arrays of
length `(nsMaxH - nsMinH) * nZnT`, ...), so that an index out of range is undefined behaviour for all of them; the
arrays that exist only for `lthreed` (`rv_*`, `zv_*`, `lv_*`, `guv`, `crmn_*`, `czmn_*`, `clmn_*`) are only touched
under that flag; vector statements of Eigen are executed point by point.
-/
namespace Verif.Kernels
open Verif Verif.Partition

/-- full-grid geometry of one point, `ideal_mhd_model.cc:309-327` -/
@[ext] structure Geo where
  r1_e : ℝ
  r1_o : ℝ
  ru_e : ℝ
  ru_o : ℝ
  z1_e : ℝ
  z1_o : ℝ
  zu_e : ℝ
  zu_o : ℝ
  lu_e : ℝ
  lu_o : ℝ
  rv_e : ℝ
  rv_o : ℝ
  zv_e : ℝ
  zv_o : ℝ
  lv_e : ℝ
  lv_o : ℝ

/-- half-grid quantities of one point, `ideal_mhd_model.cc:340-361` -/
@[ext] structure Half where
  r12 : ℝ
  ru12 : ℝ
  zu12 : ℝ
  rs : ℝ
  zs : ℝ
  tau : ℝ
  gsqrt : ℝ
  guu : ℝ
  guv : ℝ
  gvv : ℝ
  bsupu : ℝ
  bsupv : ℝ
  bsubu : ℝ
  bsubv : ℝ
  totalPressure : ℝ

/-- `ideal_mhd_model.cc:367-382` -/
@[ext] structure Force where
  armn_e : ℝ
  armn_o : ℝ
  azmn_e : ℝ
  azmn_o : ℝ
  brmn_e : ℝ
  brmn_o : ℝ
  bzmn_e : ℝ
  bzmn_o : ℝ
  crmn_e : ℝ
  crmn_o : ℝ
  czmn_e : ℝ
  czmn_o : ℝ

/-- `ideal_mhd_model.cc:375-384` -/
@[ext] structure Lam where
  blmn_e : ℝ
  blmn_o : ℝ
  clmn_e : ℝ
  clmn_o : ℝ

/-- sizes, weights and constants every thread sees -/
structure Ctx where
  ns : Int
  lfreeb : Bool
  lthreed : Bool
  nZnT : Int
  nThetaEff : Int
  mpol : Int
  ntor : Int
  nfp : Int
  deltaS : ℝ
  wInt : Vec ℝ
  lamscale : ℝ
  signOfJacobian : ℝ
  adiabaticIndex : ℝ
  /-- `ncurr == 1` -/
  ncurr1 : Bool

variable (c : Ctx) (r : Ranges)

/-! ## Jacobian and metric -/

/-- `dSHalfDsInterp`, `ideal_mhd_model.h:496` -/
noncomputable def dSHalfDsInterp : ℝ := 0.25

/-- `jacobian_kernel.h:42-60` at one point -/
noncomputable def jacobianPoint (deltaS sH : ℝ) (i o : Geo) (h : Half) : Half :=
  let r12 := 0.5 * ((i.r1_e + o.r1_e) + sH * (i.r1_o + o.r1_o))
  let ru12 := 0.5 * ((i.ru_e + o.ru_e) + sH * (i.ru_o + o.ru_o))
  let zu12 := 0.5 * ((i.zu_e + o.zu_e) + sH * (i.zu_o + o.zu_o))
  let rs := ((o.r1_e - i.r1_e) + sH * (o.r1_o - i.r1_o)) / deltaS
  let zs := ((o.z1_e - i.z1_e) + sH * (o.z1_o - i.z1_o)) / deltaS
  let tau1 := ru12 * zs - rs * zu12
  let tau2 := o.ru_o * o.z1_o + i.ru_o * i.z1_o - o.zu_o * o.r1_o - i.zu_o * i.r1_o +
    (o.ru_e * o.z1_o + i.ru_e * i.z1_o - o.zu_e * o.r1_o - i.zu_e * i.r1_o) / sH
  { h with r12 := r12, ru12 := ru12, zu12 := zu12, rs := rs, zs := zs, tau := tau1 + dSHalfDsInterp * tau2 }

/-- `ComputeHalfGridJacobian`, `jacobian_kernel.h:25-63`; called from `ideal_mhd_model.cc:1643-1647` -/
noncomputable def computeJacobian (geo : Vec Geo) (sqrtSH : Vec ℝ) (half : Vec Half) : Outcome (Vec Half) :=
  forRangeM r.nsMinH r.nsMaxH (fun jH half => do
    let sH ← sqrtSH.get (jH - r.nsMinH)
    forRangeM 0 c.nZnT (fun kl half => do
      let gi ← geo.get ((jH - r.nsMinF1) * c.nZnT + kl)
      let go ← geo.get ((jH + 1 - r.nsMinF1) * c.nZnT + kl)
      let h ← half.get ((jH - r.nsMinH) * c.nZnT + kl)
      half.set ((jH - r.nsMinH) * c.nZnT + kl) (jacobianPoint c.deltaS sH gi go h)) half) half

/-- `metric_kernel.h:41-81` at one point -/
noncomputable def metricPoint (lthreed : Bool) (sF_i sF_o sH : ℝ) (i o : Geo) (h : Half) : Half :=
  let gsqrt := h.tau * h.r12
  let guu := 0.5 * ((i.ru_e * i.ru_e + i.zu_e * i.zu_e) + (o.ru_e * o.ru_e + o.zu_e * o.zu_e) +
      sF_i * (i.ru_o * i.ru_o + i.zu_o * i.zu_o) + sF_o * (o.ru_o * o.ru_o + o.zu_o * o.zu_o)) +
    sH * ((i.ru_e * i.ru_o + i.zu_e * i.zu_o) + (o.ru_e * o.ru_o + o.zu_e * o.zu_o))
  let gvv := 0.5 * (i.r1_e * i.r1_e + o.r1_e * o.r1_e + sF_i * i.r1_o * i.r1_o + sF_o * o.r1_o * o.r1_o) +
    sH * (i.r1_e * i.r1_o + o.r1_e * o.r1_o)
  if lthreed then
    let guv := 0.5 * ((i.ru_e * i.rv_e + i.zu_e * i.zv_e) + (o.ru_e * o.rv_e + o.zu_e * o.zv_e) +
      sF_i * (i.ru_o * i.rv_o + i.zu_o * i.zv_o) + sF_o * (o.ru_o * o.rv_o + o.zu_o * o.zv_o) +
      sH * ((i.ru_e * i.rv_o + i.zu_e * i.zv_o) + (o.ru_e * o.rv_o + o.zu_e * o.zv_o) +
        (i.rv_e * i.ru_o + i.zv_e * i.zu_o) + (o.rv_e * o.ru_o + o.zv_e * o.zu_o)))
    let gvv := gvv + (0.5 * ((i.rv_e * i.rv_e + i.zv_e * i.zv_e) + (o.rv_e * o.rv_e + o.zv_e * o.zv_e) +
        sF_i * (i.rv_o * i.rv_o + i.zv_o * i.zv_o) + sF_o * (o.rv_o * o.rv_o + o.zv_o * o.zv_o)) +
      sH * ((i.rv_e * i.rv_o + i.zv_e * i.zv_o) + (o.rv_e * o.rv_o + o.zv_e * o.zv_o)))
    { h with gsqrt := gsqrt, guu := guu, guv := guv, gvv := gvv }
  else { h with gsqrt := gsqrt, guu := guu, gvv := gvv }

/-- `ComputeMetricElements`, `metric_kernel.h:16-82`; called from `ideal_mhd_model.cc:1684-1689` -/
noncomputable def computeMetricElements (geo : Vec Geo) (sqrtSF sqrtSH : Vec ℝ) (half : Vec Half) :
    Outcome (Vec Half) :=
  forRangeM r.nsMinH r.nsMaxH (fun jH half => do
    let si ← sqrtSF.get (jH - r.nsMinF1)
    let so ← sqrtSF.get (jH + 1 - r.nsMinF1)
    let sH ← sqrtSH.get (jH - r.nsMinH)
    forRangeM 0 c.nZnT (fun kl half => do
      let gi ← geo.get ((jH - r.nsMinF1) * c.nZnT + kl)
      let go ← geo.get ((jH + 1 - r.nsMinF1) * c.nZnT + kl)
      let h ← half.get ((jH - r.nsMinH) * c.nZnT + kl)
      half.set ((jH - r.nsMinH) * c.nZnT + kl) (metricPoint c.lthreed (si * si) (so * so) sH gi go h)) half) half

/-- the weight of a point: `s_.wInt[kl % s_.nThetaEff]` -/
def weight (kl : Int) : Outcome ℝ := c.wInt.get (kl.tmod c.nThetaEff)

/-- `updateDifferentialVolume`, `ideal_mhd_model.cc:1697-1712` -/
noncomputable def updateDifferentialVolume (half : Vec Half) (dVdsH : Vec ℝ) : Outcome (Vec ℝ) :=
  forRangeM r.nsMinH r.nsMaxH (fun jH dVdsH => do
    let dVdsH ← dVdsH.set (jH - r.nsMinH) 0
    let dVdsH ← forRangeM 0 c.nZnT (fun kl dVdsH => do
      let h ← half.get ((jH - r.nsMinH) * c.nZnT + kl)
      let w ← weight c kl
      let v ← dVdsH.get (jH - r.nsMinH)
      dVdsH.set (jH - r.nsMinH) (v + h.gsqrt * w)) dVdsH
    let v ← dVdsH.get (jH - r.nsMinH)
    dVdsH.set (jH - r.nsMinH) (v * c.signOfJacobian)) dVdsH

/-! ## magnetic field -/

/-- undoing the normalisation of lambda at one point, `ideal_mhd_model.cc:1789-1795` and `1799-1806` -/
noncomputable def lambdaPoint (lthreed : Bool) (lamscale phip : ℝ) (g : Geo) : Geo :=
  if lthreed then
    { g with lu_e := g.lu_e * lamscale + phip, lu_o := g.lu_o * lamscale, lv_e := g.lv_e * lamscale, lv_o := g.lv_o * lamscale }
  else { g with lu_e := g.lu_e * lamscale + phip, lu_o := g.lu_o * lamscale }

/-- the first part of `computeBContra`, `ideal_mhd_model.cc:1786-1809` -/
noncomputable def scaleLambda (phipF : Vec ℝ) (geo : Vec Geo) : Outcome (Vec Geo) := do
  let j0 := r.nsMinH
  let geo ← forRangeM 0 c.nZnT (fun kl geo => do
    let g ← geo.get ((j0 - r.nsMinF1) * c.nZnT + kl)
    let p ← phipF.get (j0 - r.nsMinF1)
    geo.set ((j0 - r.nsMinF1) * c.nZnT + kl) (lambdaPoint c.lthreed c.lamscale p g)) geo
  forRangeM r.nsMinH r.nsMaxH (fun jH geo =>
    forRangeM 0 c.nZnT (fun kl geo => do
      let g ← geo.get ((jH + 1 - r.nsMinF1) * c.nZnT + kl)
      let p ← phipF.get (jH + 1 - r.nsMinH)
      geo.set ((jH + 1 - r.nsMinF1) * c.nZnT + kl) (lambdaPoint c.lthreed c.lamscale p g)) geo) geo

/-- `bcontra_kernel.h:32-41` at one point -/
noncomputable def bcontraPoint (lthreed : Bool) (sH : ℝ) (i o : Geo) (h : Half) : Half :=
  { h with
    bsupu := if lthreed then 0.5 * ((i.lv_e + o.lv_e) + sH * (i.lv_o + o.lv_o)) / h.gsqrt else 0
    bsupv := 0.5 * ((i.lu_e + o.lu_e) + sH * (i.lu_o + o.lu_o)) / h.gsqrt }

/-- `ComputeBsupContra`, `bcontra_kernel.h:19-44`; called from `ideal_mhd_model.cc:1812-1815` -/
noncomputable def computeBsupContra (geo : Vec Geo) (sqrtSH : Vec ℝ) (half : Vec Half) : Outcome (Vec Half) :=
  forRangeM r.nsMinH r.nsMaxH (fun jH half => do
    let sH ← sqrtSH.get (jH - r.nsMinH)
    forRangeM 0 c.nZnT (fun kl half => do
      let gi ← geo.get ((jH - r.nsMinF1) * c.nZnT + kl)
      let go ← geo.get ((jH + 1 - r.nsMinF1) * c.nZnT + kl)
      let h ← half.get ((jH - r.nsMinH) * c.nZnT + kl)
      half.set ((jH - r.nsMinH) * c.nZnT + kl) (bcontraPoint c.lthreed sH gi go h)) half) half

/-- `ideal_mhd_model.cc:1822-1834` for one half-grid surface: `jvPlasma`, `avg_guu_gsqrt` -/
noncomputable def currentSums (half : Vec Half) (jH : Int) : Outcome (ℝ × ℝ) :=
  forRangeM 0 c.nZnT (fun kl (s : ℝ × ℝ) => do
    let h ← half.get ((jH - r.nsMinH) * c.nZnT + kl)
    let w ← weight c kl
    .ok (s.1 + (if c.lthreed then (h.guu * h.bsupu + h.guv * h.bsupv) * w else h.guu * h.bsupu * w),
      s.2 + h.guu / h.gsqrt * w)) (0, 0)

/-- `ideal_mhd_model.cc:1836-1840` -/
noncomputable def newChip (currH : Vec ℝ) (jH : Int) (jv avg : ℝ) (chipH : Vec ℝ) : Outcome (Vec ℝ) :=
  if avg ≠ 0 then do
    let i ← currH.get (jH - r.nsMinH)
    chipH.set (jH - r.nsMinH) ((i - jv) / avg)
  else .ok chipH

/-- `ideal_mhd_model.cc:1842-1845` -/
noncomputable def newIota (phipH chipH : Vec ℝ) (jH : Int) (iotaH : Vec ℝ) : Outcome (Vec ℝ) := do
  let phip ← phipH.get (jH - r.nsMinH)
  if phip ≠ 0 then do
    let x ← chipH.get (jH - r.nsMinH)
    iotaH.set (jH - r.nsMinH) (x / phip)
  else .ok iotaH

/-- the poloidal flux derivative and iota, `ideal_mhd_model.cc:1817-1855` -/
noncomputable def fluxFromCurrent (half : Vec Half) (currH phipH : Vec ℝ) (chipH iotaH : Vec ℝ) :
    Outcome (Vec ℝ × Vec ℝ) :=
  if c.ncurr1 then
    forRangeM r.nsMinH r.nsMaxH (fun jH (s : Vec ℝ × Vec ℝ) => do
      let q ← currentSums c r half jH
      let chipH ← newChip r currH jH q.1 q.2 s.1
      let iotaH ← newIota r phipH chipH jH s.2
      .ok (chipH, iotaH)) (chipH, iotaH)
  else
    forRangeM r.nsMinH r.nsMaxH (fun jH (s : Vec ℝ × Vec ℝ) => do
      let i ← s.2.get (jH - r.nsMinH)
      let phip ← phipH.get (jH - r.nsMinH)
      let chipH ← s.1.set (jH - r.nsMinH) (i * phip)
      .ok (chipH, s.2)) (chipH, iotaH)

/-- the interpolation to the full grid, `ideal_mhd_model.cc:1857-1867` (`extrap` is the rule at the boundary:
    weights 2, -1 for `chipF`, 1.5, -0.5 for `iotaF`) and 1873-1882 -/
noncomputable def interpolateFull (w1 w2 : ℝ) (h : Vec ℝ) (f : Vec ℝ) : Outcome (Vec ℝ) := do
  let f ← forRangeM r.nsMinFi r.nsMaxFi (fun jFi f => do
    let o ← h.get (jFi - r.nsMinH)
    let i ← h.get (jFi - 1 - r.nsMinH)
    f.set (jFi - r.nsMinF1) (0.5 * (o + i))) f
  if r.nsMaxF1 = c.ns then do
    let a ← h.get (r.nsMaxH - 1 - r.nsMinH)
    let b ← h.get (r.nsMaxH - 2 - r.nsMinH)
    f.set (r.nsMaxF1 - 1 - r.nsMinF1) (w1 * a + w2 * b)
  else .ok f

/-- `ideal_mhd_model.cc:1869-1882` -/
noncomputable def iotaAxis (iotaH iotaF : Vec ℝ) : Outcome (Vec ℝ) :=
  if r.nsMinF1 = 0 then do
    let a ← iotaH.get 0
    let b ← iotaH.get 1
    iotaF.set 0 (1.5 * a - 0.5 * b)
  else .ok iotaF
noncomputable def interpolateIota (iotaH iotaF : Vec ℝ) : Outcome (Vec ℝ) := do
  let f ← iotaAxis r iotaH iotaF
  interpolateFull c r 1.5 (-0.5) iotaH f

/-- `ideal_mhd_model.cc:1886-1891` -/
noncomputable def addChip (chipH : Vec ℝ) (half : Vec Half) : Outcome (Vec Half) :=
  forRangeM r.nsMinH r.nsMaxH (fun jH half =>
    forRangeM 0 c.nZnT (fun kl half => do
      let h ← half.get ((jH - r.nsMinH) * c.nZnT + kl)
      let x ← chipH.get (jH - r.nsMinH)
      half.set ((jH - r.nsMinH) * c.nZnT + kl) { h with bsupu := h.bsupu + x / h.gsqrt }) half) half

/-- `bco_kernel.h:20-31` at one point -/
noncomputable def bcoPoint (lthreed : Bool) (h : Half) : Half :=
  if lthreed then
    { h with bsubu := h.guu * h.bsupu + h.guv * h.bsupv, bsubv := h.guv * h.bsupu + h.gvv * h.bsupv }
  else { h with bsubu := h.guu * h.bsupu, bsubv := h.gvv * h.bsupv }

/-- `computeBCo`, `ideal_mhd_model.cc:1895-1901`, with `ComputeBCo`, `bco_kernel.h:16-32` -/
noncomputable def computeBCo (half : Vec Half) : Outcome (Vec Half) :=
  forRangeM 0 half.size (fun i w => do
    let h ← w.get i
    w.set i (bcoPoint c.lthreed h)) half

/-- `ComputeMagneticPressure`, `pressure_kernel.h:15-21` -/
noncomputable def computeMagneticPressure (half : Vec Half) : Outcome (Vec Half) :=
  forRangeM 0 half.size (fun i w => do
    let h ← w.get i
    w.set i { h with totalPressure := 0.5 * (h.bsupu * h.bsubu + h.bsupv * h.bsubv) }) half

/-- what `pressureAndEnergies` computes -/
structure Energies where
  presH : Vec ℝ
  half : Vec Half
  localThermalEnergy : ℝ
  localMagneticEnergy : ℝ

/-- the thermal part, `ideal_mhd_model.cc:1907-1926` -/
noncomputable def thermal (massH dVdsH presH : Vec ℝ) : Outcome (Vec ℝ × ℝ) := do
  let s ← forRangeM r.nsMinH r.nsMaxH (fun jH (s : Vec ℝ × ℝ) => do
    let m ← massH.get (jH - r.nsMinH)
    let v ← dVdsH.get (jH - r.nsMinH)
    let presH ← s.1.set (jH - r.nsMinH) (m / v ^ c.adiabaticIndex)
    if jH < r.nsMaxH - 1 ∨ jH = c.ns - 2 then do
      let p ← presH.get (jH - r.nsMinH)
      .ok (presH, s.2 + p * v)
    else .ok (presH, s.2)) (presH, 0)
  .ok (s.1, s.2 * c.deltaS)

/-- `ideal_mhd_model.cc:1936-1944` -/
noncomputable def surfaceEnergy (half : Vec Half) (jH : Int) (e : ℝ) : Outcome ℝ :=
  if jH < r.nsMaxH - 1 ∨ jH = c.ns - 2 then
    forRangeM 0 c.nZnT (fun kl e => do
      let h ← half.get ((jH - r.nsMinH) * c.nZnT + kl)
      let w ← weight c kl
      .ok (e + h.gsqrt * h.totalPressure * w)) e
  else .ok e

/-- `ideal_mhd_model.cc:1946-1951` -/
noncomputable def addPressure (p : ℝ) (jH : Int) (half : Vec Half) : Outcome (Vec Half) :=
  forRangeM 0 c.nZnT (fun kl half => do
    let h ← half.get ((jH - r.nsMinH) * c.nZnT + kl)
    half.set ((jH - r.nsMinH) * c.nZnT + kl) { h with totalPressure := h.totalPressure + p }) half

/-- the magnetic part, `ideal_mhd_model.cc:1932-1959`; the sum is kept apart from its absolute value -/
noncomputable def magnetic (presH : Vec ℝ) (half : Vec Half) : Outcome (Vec Half × ℝ) := do
  let half ← computeMagneticPressure half
  forRangeM r.nsMinH r.nsMaxH (fun jH (s : Vec Half × ℝ) => do
    let e ← surfaceEnergy c r s.1 jH s.2
    let p ← presH.get (jH - r.nsMinH)
    let half ← addPressure c r p jH s.1
    .ok (half, e)) (half, 0)

/-- `pressureAndEnergies`, `ideal_mhd_model.cc:1903-1959` (the reductions follow in 1961-1992) -/
noncomputable def pressureAndEnergies (massH dVdsH presH : Vec ℝ) (half : Vec Half) : Outcome Energies := do
  let (presH, th) ← thermal c r massH dVdsH presH
  let (half, mg) ← magnetic c r presH half
  .ok ⟨presH, half, th, |mg| * c.deltaS⟩

/-- `m_h_.mhdEnergy`, `ideal_mhd_model.cc:1983-1988` -/
noncomputable def mhdEnergy (magneticEnergy thermalEnergy : ℝ) : ℝ :=
  magneticEnergy + thermalEnergy / (c.adiabaticIndex - 1)

/-! ## lambda force -/

/-- scratch of the lambda force, `lambda_force_kernel.h:28-29` -/
@[ext] structure LamIn where
  bsubu : ℝ
  bsubv : ℝ
  gvv_gsqrt : ℝ
  guv_bsupu : ℝ

/-- first inside point, `lambda_force_kernel.h:37-53` -/
noncomputable def lamFirst (half : Vec Half) (scratch : Vec LamIn) : Outcome (Vec LamIn) :=
  forRangeM 0 c.nZnT (fun kl s =>
    if r.nsMinF = 0 then s.set kl ⟨0, 0, 0, 0⟩
    else do
      let h ← half.get ((r.nsMinF - 1 - r.nsMinH) * c.nZnT + kl)
      let old ← s.get kl
      s.set kl ⟨h.bsubu, h.bsubv, h.gvv / h.gsqrt, if c.lthreed then h.guv * h.bsupu else old.guv_bsupu⟩) scratch

/-- one point of the lambda force, `lambda_force_kernel.h:63-124`: the new output and the new scratch -/
noncomputable def lamPoint (lthreed : Bool) (lamscale : ℝ) (jF : Int) (h : Option Half) (i : LamIn) (g : Geo)
    (sqrtSHi sqrtSHo sqrtSF blend : ℝ) (old : Lam) : Lam × LamIn :=
  let bsubv_o := match h with | some h => h.bsubv | none => 0
  let gvv_gsqrt_o := match h with | some h => h.gvv / h.gsqrt | none => 0
  let guv_bsupu_o := match h with | some h => if lthreed then h.guv * h.bsupu else 0 | none => 0
  let gvv_gsqrt_lu_e := 0.5 * (i.gvv_gsqrt + gvv_gsqrt_o) * g.lu_e
  let gvv_gsqrt_lu_o := 0.5 * (i.gvv_gsqrt * sqrtSHi + gvv_gsqrt_o * sqrtSHo) * g.lu_o
  let gvv_gsqrt_lu := gvv_gsqrt_lu_e + gvv_gsqrt_lu_o
  let bsubv_alternative := if lthreed then gvv_gsqrt_lu + 0.5 * (i.guv_bsupu + guv_bsupu_o) else gvv_gsqrt_lu
  let bsubv_average := 0.5 * (bsubv_o + i.bsubv)
  let blmn := bsubv_average * (1 - blend) + bsubv_alternative * blend
  let blmn := if 0 < jF then blmn * -lamscale else blmn
  if lthreed then
    let bsubu_o := match h with | some h => h.bsubu | none => 0
    let clmn := 0.5 * (bsubu_o + i.bsubu)
    let clmn := if 0 < jF then clmn * -lamscale else clmn
    (⟨blmn, blmn * sqrtSF, clmn, clmn * sqrtSF⟩, ⟨bsubu_o, bsubv_o, gvv_gsqrt_o, guv_bsupu_o⟩)
  else
    ({ old with blmn_e := blmn, blmn_o := blmn * sqrtSF },
      { i with bsubv := bsubv_o, gvv_gsqrt := gvv_gsqrt_o })

/-- `lambda_force_kernel.h:56-57` and `mhdforce_kernel.h:109-112`; `d` is the value beyond the last half-grid point -/
noncomputable def outerRoot (d : ℝ) (sqrtSH : Vec ℝ) (jF : Int) : Outcome ℝ :=
  if jF < r.nsMaxH then sqrtSH.get (jF - r.nsMinH) else .ok d

/-- the outer half-grid point of the lambda force, `lambda_force_kernel.h:63-66` -/
noncomputable def outerHalf (half : Vec Half) (jF kl : Int) : Outcome (Option Half) :=
  if jF < r.nsMaxH then do
    let h ← half.get ((jF - r.nsMinH) * c.nZnT + kl)
    .ok (some h)
  else .ok none

/-- the body of the radial loop, `lambda_force_kernel.h:55-127` -/
noncomputable def lamSurface (half : Vec Half) (geo : Vec Geo) (sqrtSH sqrtSF radialBlending : Vec ℝ) (jF : Int)
    (s : Vec LamIn × ℝ × Vec Lam) : Outcome (Vec LamIn × ℝ × Vec Lam) := do
  let sqrtSHo ← outerRoot r 0 sqrtSH jF
  let t ← forRangeM 0 c.nZnT (fun kl (t : Vec LamIn × Vec Lam) => do
    let h ← outerHalf c r half jF kl
    let i ← t.1.get kl
    let g ← geo.get ((jF - r.nsMinF1) * c.nZnT + kl)
    let b ← radialBlending.get (jF - r.nsMinF1)
    let f ← sqrtSF.get (jF - r.nsMinF1)
    let old ← t.2.get ((jF - r.nsMinF) * c.nZnT + kl)
    let new := lamPoint c.lthreed c.lamscale jF h i g s.2.1 sqrtSHo f b old
    let out ← t.2.set ((jF - r.nsMinF) * c.nZnT + kl) new.1
    let ins ← t.1.set kl new.2
    .ok (ins, out)) (s.1, s.2.2)
  .ok (t.1, sqrtSHo, t.2)

/-- `lambda_force_kernel.h:32-35` -/
noncomputable def lamRoot (sqrtSH : Vec ℝ) : Outcome ℝ :=
  if 0 < r.nsMinF then sqrtSH.get (r.nsMinF - 1 - r.nsMinH) else .ok 0

/-- `ComputeHybridLambdaForce`, `lambda_force_kernel.h:22-128`; called from `ideal_mhd_model.cc:2048-2055` -/
noncomputable def hybridLambdaForce (half : Vec Half) (geo : Vec Geo) (sqrtSH sqrtSF radialBlending : Vec ℝ)
    (scratch : Vec LamIn) (out : Vec Lam) : Outcome (Vec Lam) := do
  let sqrtSHi ← lamRoot r sqrtSH
  let ins ← lamFirst c r half scratch
  let s ← forRangeM r.nsMinF r.nsMaxFIncludingLcfs (lamSurface c r half geo sqrtSH sqrtSF radialBlending)
    (ins, sqrtSHi, out)
  .ok s.2.2

/-! ## MHD force density -/

/-- scratch of the force density on one side of a surface, `mhdforce_kernel.h:38-42` -/
@[ext] structure Side where
  P : ℝ
  rup : ℝ
  zup : ℝ
  rsp : ℝ
  zsp : ℝ
  taup : ℝ
  gbubu : ℝ
  gbubv : ℝ
  gbvbv : ℝ

/-- `setZero()` -/
def Side.zero : Side := ⟨0, 0, 0, 0, 0, 0, 0, 0, 0⟩

/-- `mhdforce_kernel.h:73-81` and `117-128` -/
noncomputable def Side.of (h : Half) : Side :=
  let P := h.r12 * h.totalPressure
  { P := P, rup := h.ru12 * P, zup := h.zu12 * P, rsp := h.rs * P, zsp := h.zs * P, taup := h.tau * h.totalPressure
    gbubu := h.gsqrt * h.bsupu * h.bsupu, gbubv := h.gsqrt * h.bsupu * h.bsupv, gbvbv := h.gsqrt * h.bsupv * h.bsupv }

/-- `mhdforce_kernel.h:149-217` at one point -/
noncomputable def densityPoint (lthreed : Bool) (deltaS sFull sqrtSHi sqrtSHo : ℝ) (i o : Side) (g : Geo)
    (old : Force) : Force :=
  let invDS := 1 / deltaS
  let invSHo := 1 / sqrtSHo
  let invSHi := 1 / sqrtSHi
  let P_avg := 0.5 * (o.P + i.P)
  let P_wavg := 0.5 * (o.P * invSHo + i.P * invSHi)
  let gbubu_avg := 0.5 * (o.gbubu + i.gbubu)
  let gbubu_wavg := 0.5 * (o.gbubu * sqrtSHo + i.gbubu * sqrtSHi)
  let gbvbv_avg := 0.5 * (o.gbvbv + i.gbvbv)
  let gbvbv_wavg := 0.5 * (o.gbvbv * sqrtSHo + i.gbvbv * sqrtSHi)
  let armn_e := (o.zup - i.zup) * invDS + 0.5 * (o.taup + i.taup) - gbvbv_avg * g.r1_e - gbvbv_wavg * g.r1_o
  let armn_o := (o.zup * sqrtSHo - i.zup * sqrtSHi) * invDS - 0.5 * (P_wavg * g.zu_e) - 0.5 * (P_avg * g.zu_o) +
    0.5 * (o.taup * sqrtSHo + i.taup * sqrtSHi) - gbvbv_wavg * g.r1_e - gbvbv_avg * g.r1_o * sFull
  let azmn_e := -(o.rup - i.rup) * invDS
  let azmn_o := -(o.rup * sqrtSHo - i.rup * sqrtSHi) * invDS + 0.5 * (P_wavg * g.ru_e) + 0.5 * (P_avg * g.ru_o)
  let brmn_e := 0.5 * (o.zsp + i.zsp) + 0.5 * (P_wavg * g.z1_o) - gbubu_avg * g.ru_e - gbubu_wavg * g.ru_o
  let brmn_o := 0.5 * (o.zsp * sqrtSHo + i.zsp * sqrtSHi) + 0.5 * (P_avg * g.z1_o) - gbubu_wavg * g.ru_e -
    gbubu_avg * g.ru_o * sFull
  let bzmn_e := -0.5 * (o.rsp + i.rsp) - 0.5 * (P_wavg * g.r1_o) - gbubu_avg * g.zu_e - gbubu_wavg * g.zu_o
  let bzmn_o := -0.5 * (o.rsp * sqrtSHo + i.rsp * sqrtSHi) - 0.5 * (P_avg * g.r1_o) - gbubu_wavg * g.zu_e -
    gbubu_avg * g.zu_o * sFull
  if lthreed then
    let gbubv_avg := 0.5 * (o.gbubv + i.gbubv)
    let gbubv_wavg := 0.5 * (o.gbubv * sqrtSHo + i.gbubv * sqrtSHi)
    { armn_e := armn_e, armn_o := armn_o, azmn_e := azmn_e, azmn_o := azmn_o
      brmn_e := brmn_e - (gbubv_avg * g.rv_e + gbubv_wavg * g.rv_o)
      brmn_o := brmn_o - (gbubv_wavg * g.rv_e + gbubv_avg * g.rv_o * sFull)
      bzmn_e := bzmn_e - (gbubv_avg * g.zv_e + gbubv_wavg * g.zv_o)
      bzmn_o := bzmn_o - (gbubv_wavg * g.zv_e + gbubv_avg * g.zv_o * sFull)
      crmn_e := gbubv_avg * g.ru_e + gbubv_wavg * g.ru_o + gbvbv_avg * g.rv_e + gbvbv_wavg * g.rv_o
      crmn_o := gbubv_wavg * g.ru_e + gbubv_avg * g.ru_o * sFull + gbvbv_wavg * g.rv_e + gbvbv_avg * g.rv_o * sFull
      czmn_e := gbubv_avg * g.zu_e + gbubv_wavg * g.zu_o + gbvbv_avg * g.zv_e + gbvbv_wavg * g.zv_o
      czmn_o := gbubv_wavg * g.zu_e + gbubv_avg * g.zu_o * sFull + gbvbv_wavg * g.zv_e + gbvbv_avg * g.zv_o * sFull }
  else
    { old with
      armn_e := armn_e, armn_o := armn_o, azmn_e := azmn_e, azmn_o := azmn_o
      brmn_e := brmn_e, brmn_o := brmn_o, bzmn_e := bzmn_e, bzmn_o := bzmn_o }

/-- filling one of the scratch arrays from half-grid surface `jH`, `mhdforce_kernel.h:71-82` and `115-129` -/
noncomputable def fillSide (half : Vec Half) (jH : Int) (scratch : Vec Side) : Outcome (Vec Side) :=
  forRangeM 0 c.nZnT (fun kl s => do
    let h ← half.get ((jH - r.nsMinH) * c.nZnT + kl)
    s.set kl (Side.of h)) scratch

/-- `setZero()` of the scratch arrays, `mhdforce_kernel.h:85-93`, `96-104`, `131-139` -/
def zeroSide (scratch : Vec Side) : Outcome (Vec Side) :=
  forRangeM 0 c.nZnT (fun kl s => s.set kl Side.zero) scratch

/-- `mhdforce_kernel.h:109-140` -/
noncomputable def outerSide (half : Vec Half) (jF : Int) (scratch : Vec Side) : Outcome (Vec Side) :=
  if jF < r.nsMaxH then fillSide c r half jF scratch else zeroSide c scratch

/-- `mhdforce_kernel.h:65-94` -/
noncomputable def firstSide (half : Vec Half) (scratch : Vec Side) : Outcome (Vec Side) :=
  if 0 < r.nsMinF then fillSide c r half r.nsMinH scratch else zeroSide c scratch
noncomputable def firstRoot (sqrtSH : Vec ℝ) : Outcome ℝ :=
  if 0 < r.nsMinF then sqrtSH.get (r.nsMinH - r.nsMinH) else .ok 1

/-- the body of the radial loop, `mhdforce_kernel.h:106-229`; state: inside scratch, its `sqrtSHi`, outside scratch,
    output -/
noncomputable def densitySurface (half : Vec Half) (geo : Vec Geo) (sqrtSH sqrtSF : Vec ℝ) (jF : Int)
    (s : Vec Side × ℝ × Vec Side × Vec Force) : Outcome (Vec Side × ℝ × Vec Side × Vec Force) := do
  let sf ← sqrtSF.get (jF - r.nsMinF1)
  let sqrtSHo ← outerRoot r 1 sqrtSH jF
  let outside ← outerSide c r half jF s.2.2.1
  let out ← forRangeM 0 c.nZnT (fun kl out => do
    let i ← s.1.get kl
    let o ← outside.get kl
    let g ← geo.get ((jF - r.nsMinF1) * c.nZnT + kl)
    let old ← out.get ((jF - r.nsMinF) * c.nZnT + kl)
    out.set ((jF - r.nsMinF) * c.nZnT + kl) (densityPoint c.lthreed c.deltaS (sf * sf) s.2.1 sqrtSHo i o g old)) s.2.2.2
  let inside ← forRangeM 0 c.nZnT (fun kl ins => do
    let o ← outside.get kl
    ins.set kl o) s.1
  .ok (inside, sqrtSHo, outside, out)

/-- `ComputeMHDForceDensity`, `mhdforce_kernel.h:25-230`; `jMaxRZ` and the call from `ideal_mhd_model.cc:2137-2163` -/
noncomputable def computeMHDForces (half : Vec Half) (geo : Vec Geo) (sqrtSH sqrtSF : Vec ℝ)
    (inside outside : Vec Side) (out : Vec Force) : Outcome (Vec Force) := do
  let jMaxRZ := if c.lfreeb then min r.nsMaxF c.ns else min r.nsMaxF (c.ns - 1)
  let sqrtSHi ← firstRoot r sqrtSH
  let inside ← firstSide c r half inside
  let outside ← zeroSide c outside
  let s ← forRangeM r.nsMinF jMaxRZ (densitySurface c r half geo sqrtSH sqrtSF) (inside, sqrtSHi, outside, out)
  .ok s.2.2.2

/-! ## preconditioner elements -/

/-- entries of `bLambda`, `dLambda`, `cLambda`, `ideal_mhd_model.cc:388-390` -/
@[ext] structure Lam3 where
  b : ℝ
  d : ℝ
  c : ℝ

/-- half-grid sums, `ideal_mhd_model.cc:2199-2217` -/
noncomputable def lambdaSums (half : Vec Half) (a : Vec Lam3) : Outcome (Vec Lam3) :=
  forRangeM r.nsMinH r.nsMaxH (fun jH a => do
    let a ← a.set (jH + 1 - r.nsMinH) ⟨0, 0, 0⟩
    let a ← forRangeM 0 c.nZnT (fun kl a => do
      let h ← half.get ((jH - r.nsMinH) * c.nZnT + kl)
      let w ← weight c kl
      let x ← a.get (jH + 1 - r.nsMinH)
      a.set (jH + 1 - r.nsMinH) { x with b := x.b + h.guu / h.gsqrt * w, c := x.c + h.gvv / h.gsqrt * w }) a
    if c.lthreed then
      forRangeM 0 c.nZnT (fun kl a => do
        let h ← half.get ((jH - r.nsMinH) * c.nZnT + kl)
        let w ← weight c kl
        let x ← a.get (jH + 1 - r.nsMinH)
        a.set (jH + 1 - r.nsMinH) { x with d := x.d + h.guv / h.gsqrt * w }) a
    else .ok a) a

/-- the copy at the axis, `ideal_mhd_model.cc:2219-2226` -/
noncomputable def lambdaAxis (a : Vec Lam3) : Outcome (Vec Lam3) :=
  if r.nsMinF = 0 then do
    let x ← a.get 1
    a.set 0 x
  else .ok a

/-- averages on the full grid in place, `ideal_mhd_model.cc:2219-2241` -/
noncomputable def lambdaAverages (a : Vec Lam3) : Outcome (Vec Lam3) := do
  let a ← lambdaAxis r a
  forRangeM (max (if r.nsMinF = 0 then 1 else 0) r.nsMinF) r.nsMaxFIncludingLcfs (fun jF a => do
    let o ← a.get (jF + 1 - r.nsMinH)
    let i ← a.get (jF - r.nsMinH)
    a.set (jF - r.nsMinF) ⟨0.5 * (o.b + i.b), 0.5 * (o.d + i.d), 0.5 * (o.c + i.c)⟩) a

/-- `copysign` (the sign of a zero is taken as positive) -/
noncomputable def copysign (x y : ℝ) : ℝ := if y < 0 then -|x| else |x|

/-- `vmec_algorithm_constants.h:73`, `82`, `254`, `264` -/
noncomputable def kLambdaPreconditionerDampingFactor : ℝ := 2
noncomputable def kLambdaPreconditionerZeroGuard : ℝ := -1.0e-10
noncomputable def kLambdaHighMDampingMaxPower : ℝ := 8
noncomputable def kLambdaHighMDampingReferenceM : ℝ := 16

/-- one entry, `ideal_mhd_model.cc:2251-2282` -/
noncomputable def lambdaEntry (lamscale : ℝ) (nfp m n : Int) (x : Lam3) (sqrtSF : ℝ) : ℝ :=
  let pFactor := kLambdaPreconditionerDampingFactor / (4 * lamscale * lamscale)
  let tnn : ℝ := ((n * nfp * n * nfp : Int) : ℝ)
  let tmm : ℝ := ((m * m : Int) : ℝ)
  let pwr := min (tmm / (kLambdaHighMDampingReferenceM * kLambdaHighMDampingReferenceM)) kLambdaHighMDampingMaxPower
  let tmn : ℝ := 2 * m * n * nfp
  let faclam := tnn * x.b + tmn * copysign x.d x.b + tmm * x.c
  let faclam := if faclam = 0 then kLambdaPreconditionerZeroGuard else faclam
  pFactor / faclam * sqrtSF ^ pwr

/-- `updateLambdaPreconditioner`, `ideal_mhd_model.cc:2186-2286`: the new `bLambda`, `dLambda`, `cLambda` and the
    preconditioner -/
noncomputable def updateLambdaPreconditioner (half : Vec Half) (sqrtSF : Vec ℝ) (a : Vec Lam3) (pre : Vec ℝ) :
    Outcome (Vec Lam3 × Vec ℝ) := do
  let a ← lambdaSums c r half a
  let a ← lambdaAverages r a
  let pre ← forRangeM 0 ((r.nsMaxFIncludingLcfs - r.nsMinF) * (c.ntor + 1) * c.mpol) (fun i p => p.set i 0) pre
  let pre ← forRangeM (max (if r.nsMinF = 0 then 1 else 0) r.nsMinF) r.nsMaxFIncludingLcfs (fun jF pre =>
    forRangeM 0 (c.ntor + 1) (fun n pre =>
      forRangeM 0 c.mpol (fun m pre =>
        if m = 0 ∧ n = 0 then .ok pre
        else do
          let x ← a.get (jF - r.nsMinF)
          let s ← sqrtSF.get (jF - r.nsMinF1)
          pre.set (((jF - r.nsMinF) * c.mpol + m) * (c.ntor + 1) + n) (lambdaEntry c.lamscale c.nfp m n x s)) pre) pre)
    pre
  .ok (a, pre)

end Verif.Kernels
